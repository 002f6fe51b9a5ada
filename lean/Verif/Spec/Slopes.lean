import Mathlib.Data.Real.Basic

/-! Specification of bounded slopes and of ordered transitions. -/

namespace SimCATS.Spec

/-- All secants of `f` have a slope between `a` and `b`. -/
def SlopesBetween (a b : ℝ) (f : ℝ → ℝ) : Prop :=
  ∀ x y, x ≤ y → a * (y - x) ≤ f y - f x ∧ f y - f x ≤ b * (y - x)

end SimCATS.Spec
