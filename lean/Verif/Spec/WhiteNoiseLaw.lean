import Verif.Spec.ActivationLaw
import Verif.Spec.TelegraphLaw
import Mathlib.Probability.Distributions.Gaussian.Real

/-!
Specification of the distribution of white noise.  The initial state of the generators is random, with the distribution `P`.
-/

namespace SimCATS.Spec

open MeasureTheory ProbabilityTheory

variable {τ ω α : Type}

/-- The documented behaviour of `rng.normal(0, sigma, size=n)` of a generator whose state is the part `own` of all generator states: `sigma` times the
numbers `X 0`, ..., `X (n - 1)`, which depend on that state only; a negative `sigma` raises `ValueError`. -/
def ScaledDraws (own : τ → ω) (noise : ℝ → ℕ → M τ (List ℝ)) (X : ℕ → ω → ℝ) : Prop :=
  ∀ v n g, (0 ≤ v → ∃ h, noise v n g = (.ok ((List.range n).map fun k => v * X k (own g)), h)) ∧
    (v < 0 → ∃ h, noise v n g = (.error .valueError, h))

/-- These numbers are independent and have the standard normal distribution. -/
structure StandardNormal [MeasurableSpace τ] (P : Measure τ) (own : τ → ω) (X : ℕ → ω → ℝ) : Prop where
  measurable : ∀ k, Measurable fun g => X k (own g)
  independent : iIndepFun (fun k g => X k (own g)) P
  law : ∀ k, P.map (fun g => X k (own g)) = gaussianReal 0 1

/-- The signal `y` is the signal `x` plus `v` times the numbers `z 0`, `z 1`, ..., pixel by pixel. -/
def PlusNoise (x : Scan ℝ) (v : ℝ) (z : ℕ → ℝ) (y : Scan ℝ) : Prop :=
  match x with
  | .d0 a => y = .d0 (a + v * z 0)
  | .d1 n f => y = .d1 n fun i => f i + v * z i
  | .d2 r c f => y = .d2 r c fun i j => f i j + v * z (i * c + j)

/-- The measurement `x0` succeeds and its signal has `n` pixels. -/
def HasPixels (x0 : M (SimState τ) (Scan ℝ × α)) (s : SimState τ) (n : ℕ) : Set τ :=
  {g | ∃ y a s', x0 (withGenerators s g) = (.ok (y, a), s') ∧ y.size = n}

/-- Both measurements succeed, with the same further results, and the difference of their signals in pixel `k` belongs to `B k`. -/
def Differ (x x0 : M (SimState τ) (Scan ℝ × α)) (s : SimState τ) (n : ℕ) (B : ℕ → Set ℝ) : Set τ :=
  {g | ∃ y y0 a s' s0, x (withGenerators s g) = (.ok (y, a), s') ∧ x0 (withGenerators s g) = (.ok (y0, a), s0) ∧
    ∀ k < n, pixelAt y k - pixelAt y0 k ∈ B k}

end SimCATS.Spec
