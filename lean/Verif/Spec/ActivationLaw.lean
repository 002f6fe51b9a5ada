import Verif.Spec.Reports
import Mathlib.Probability.Independence.Basic

/-!
Specification of the frequency with which dot jumps and telegraph noise are active.  The initial state of the generators is random, with the
distribution `P`.
-/

namespace SimCATS.Spec

open MeasureTheory ProbabilityTheory

variable {τ ω α : Type}

/-- The documented behaviour of the next `rng.binomial(1, r)` of a generator whose state is the part `own` of all generator states: it is 1 with
probability `r`, and depends on nothing else. -/
def FlipsCoin [MeasurableSpace τ] (P : Measure τ) (own : τ → ω) (rng : Rng τ) (r : ℝ) : Prop :=
  ∃ X : ω → Bool, (∀ g, ∃ h, rng.binomial r g = (.ok (X (own g)), h)) ∧ P.real {g | X (own g) = true} = r

/-- The documented behaviour of successive calls of `rng.binomial(1, r)`: independent numbers that are 1 with probability `r`. -/
def CoinDraws [MeasurableSpace τ] (P : Measure τ) (rng : Rng τ) (r : ℝ) : Prop :=
  ∃ X : ℕ → τ → Bool, (∀ n g, (rng.binomial r ((fun g => (rng.binomial r g).2)^[n] g)).1 = .ok (X n g)) ∧ (∀ n, Measurable (X n)) ∧
    iIndepFun X P ∧ ∀ n, P.real {g | X n g = true} = r

/-- The state of a simulation with other generator states. -/
def withGenerators (s : SimState τ) (g : τ) : SimState τ := (s.1, { s.2 with gens := g })

/-- The generator states for which the measurement succeeds. -/
def Succeeds (x : M (SimState τ) α) (s : SimState τ) : Set τ := {g | ∃ out s', x (withGenerators s g) = (.ok out, s')}

/-- The generator states for which the measurement returns these data. -/
def Gives (x : M (SimState τ) α) (s : SimState τ) (out : α) : Set τ := {g | ∃ s', x (withGenerators s g) = (.ok out, s')}

/-- The generator states for which the measurement succeeds and the given report says that the distortion was active. -/
def ActiveFor (x : M (SimState τ) α) (s : SimState τ) (report : SimState τ → Option ℝ × Option Bool) : Set τ :=
  {g | ∃ out s', x (withGenerators s g) = (.ok out, s') ∧ report s' = (none, some true)}

end SimCATS.Spec
