import Verif.Spec.WhiteNoiseLaw

/-!
Specification of several generators of white noise.
-/

namespace SimCATS.Spec

open MeasureTheory ProbabilityTheory

variable {τ ω : Type}

/-- The numbers of each generator are independent and have the standard normal distribution, and the generators are independent of each other. -/
structure IndependentNormal [MeasurableSpace τ] {m : ℕ} (P : Measure τ) (own : Fin m → τ → ω) (X : Fin m → ℕ → ω → ℝ) : Prop where
  normal : ∀ j, StandardNormal P (own j) (X j)
  independent : iIndepFun (fun j g k => X j k (own j g)) P

end SimCATS.Spec
