import Verif.Spec.TelegraphSim
import Verif.Spec.HeightLaw

/-!
Specification of the heights of telegraph noise in a measurement.  The initial state of the generators is random, with the distribution `P`.
-/

namespace SimCATS.Spec

open MeasureTheory ProbabilityTheory

variable {τ ω α : Type}

/-- The documented behaviour of `rng.binomial(1, r)`, then `rng.geometric(p, size=n)`, then any number of draws `rng.normal(height, std)`, for a
generator whose state is the part `own` of all generator states: a number that is 1 with probability `r`, `n` geometric numbers and normally
distributed heights; the three groups are independent, and so are the geometric numbers.  Other objects may draw between the first number and the
others. -/
def BurstDraws [MeasurableSpace τ] (P : Measure τ) (own : τ → ω) (rng : Rng τ) (r p height std : ℝ) (n : ℕ) : Prop :=
  ∃ (X : ω → Bool) (W : Fin n → ω → ℕ) (H : ℕ → ω → ℝ),
    (∀ g, ∃ h, rng.binomial r g = (.ok (X (own g)), h) ∧
      ∀ h', own h' = own h → ∃ w h'', rng.geometric p n h' = (.ok w, h'') ∧ (∀ i : Fin n, w i = W i (own g)) ∧
        DrawsInTurn (rng.normal height std) h'' fun b => H b (own g)) ∧
    Measurable (fun g => X (own g)) ∧ (∀ i, Measurable fun g => W i (own g)) ∧ (∀ b, Measurable fun g => H b (own g)) ∧
    IndepFun (fun g => X (own g)) (fun g => ((fun i => W i (own g)), fun b => H b (own g))) P ∧ iIndepFun (fun i g => W i (own g)) P ∧
    IndepFun (fun g i => W i (own g)) (fun g b => H b (own g)) P ∧ P.real {g | X (own g) = true} = r ∧
    (∀ i k, P.real {g | W i (own g) = k + 1} = (1 - p) ^ k * p) ∧
    ∀ b, P.map (fun g => H b (own g)) = gaussianReal height (std ^ 2).toNNReal

/-- Both measurements succeed, with the same further results, and their signals differ by the same number, which belongs to `B`, in the pixels
`m`, ..., `m + l`. -/
def RaisedBy (x x0 : M (SimState τ) (Scan ℝ × α)) (s : SimState τ) (m l : ℕ) (B : Set ℝ) : Set τ :=
  {g | ∃ y y0 a s' s0, x (withGenerators s g) = (.ok (y, a), s') ∧ x0 (withGenerators s g) = (.ok (y0, a), s0) ∧
    Plateau (fun j => pixelAt y j - pixelAt y0 j) m l B}

/-- The difference of the signals of both measurements in pixel `m` (0 if one of them fails). -/
noncomputable def signalDifference (x x0 : M (SimState τ) (Scan ℝ × α)) (s : SimState τ) (m : ℕ) (g : τ) : ℝ :=
  match (x (withGenerators s g)).1, (x0 (withGenerators s g)).1 with
  | .ok (y, _), .ok (y0, _) => pixelAt y m - pixelAt y0 m
  | _, _ => 0

end SimCATS.Spec
