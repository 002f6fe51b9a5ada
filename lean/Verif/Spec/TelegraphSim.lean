import Verif.Spec.WhiteNoiseLaw

/-!
Specification of the distribution of telegraph noise in a measurement.  The initial state of the generators is random, with the distribution `P`.
-/

namespace SimCATS.Spec

open MeasureTheory ProbabilityTheory

variable {τ ω α : Type}

/-- The documented behaviour of `rng.binomial(1, r)` followed by `rng.geometric(p, size=n)`, for a generator whose state is the part `own` of all
generator states: a number that is 1 with probability `r`, and `n` geometric numbers; all of them are independent.  Other objects may draw in
between. -/
def TelegraphDraws [MeasurableSpace τ] (P : Measure τ) (own : τ → ω) (rng : Rng τ) (r p : ℝ) (n : ℕ) : Prop :=
  ∃ (X : ω → Bool) (W : Fin n → ω → ℕ),
    (∀ g, ∃ h, rng.binomial r g = (.ok (X (own g)), h) ∧
      ∀ h', own h' = own h → ∃ w h'', rng.geometric p n h' = (.ok w, h'') ∧ ∀ i : Fin n, w i = W i (own g)) ∧
    Measurable (fun g => X (own g)) ∧ (∀ i, Measurable fun g => W i (own g)) ∧ iIndepFun (fun i g => W i (own g)) P ∧
    IndepFun (fun g => X (own g)) (fun g i => W i (own g)) P ∧ P.real {g | X (own g) = true} = r ∧
    ∀ i k, P.real {g | W i (own g) = k + 1} = (1 - p) ^ k * p

/-- A scan that sweeps these ranges has `k` pixels per volt: along a line in the direction of the larger range; in an image the larger number of
both axes, where the first axis of the array is compared with the range of gate 1 as in the code (C36). -/
def PixelsPerVolt (g1 g2 : ℝ × ℝ) (x : Scan ℝ) (k : ℝ) : Prop :=
  match x with
  | .d0 _ => False
  | .d1 n _ => 0 < max |g1.2 - g1.1| |g2.2 - g2.1| ∧ k = n / max |g1.2 - g1.1| |g2.2 - g2.1|
  | .d2 r c _ => g1.1 ≠ g1.2 ∧ g2.1 ≠ g2.2 ∧ k = max (r / |g1.2 - g1.1|) (c / |g2.2 - g2.1|)

/-- The measurement `x0` succeeds, and its signal has `n` pixels, `k` per volt. -/
def HasDensity (x0 : M (SimState τ) (Scan ℝ × α)) (s : SimState τ) (g1 g2 : ℝ × ℝ) (n : ℕ) (k : ℝ) : Set τ :=
  {g | ∃ y a s', x0 (withGenerators s g) = (.ok (y, a), s') ∧ y.size = n ∧ PixelsPerVolt g1 g2 y k}

/-- Both measurements succeed, with the same further results, and the first `k + 1` pixels in which their signals differ are those given by `c`. -/
def DifferAt (x x0 : M (SimState τ) (Scan ℝ × α)) (s : SimState τ) (c : ℕ → Bool) (k : ℕ) : Set τ :=
  {g | ∃ y y0 a s' s0, x (withGenerators s g) = (.ok (y, a), s') ∧ x0 (withGenerators s g) = (.ok (y0, a), s0) ∧
    ∀ j ≤ k, (Disturbed y0 y j ↔ c j = true)}

/-- Both measurements succeed, with the same further results, and their signals differ in pixel `k`. -/
def DifferIn (x x0 : M (SimState τ) (Scan ℝ × α)) (s : SimState τ) (k : ℕ) : Set τ :=
  {g | ∃ y y0 a s' s0, x (withGenerators s g) = (.ok (y, a), s') ∧ x0 (withGenerators s g) = (.ok (y0, a), s0) ∧ Disturbed y0 y k}

end SimCATS.Spec
