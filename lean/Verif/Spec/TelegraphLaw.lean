import Verif.Model.Telegraph
import Mathlib.Probability.Independence.Basic

/-!
Specification of the distribution of telegraph noise.  The initial state of the generator is random, with the distribution `P`.
-/

namespace SimCATS.Spec

open MeasureTheory ProbabilityTheory

/-- The documented behaviour of `rng.geometric(p, size=n)`: `n` independent numbers, each of which is the number of the first success
in trials that succeed with probability `p`. -/
def GeometricDraws {τ : Type} [MeasurableSpace τ] (P : Measure τ) (rng : Rng τ) (p : ℝ) (n : ℕ) : Prop :=
  ∃ W : Fin n → τ → ℕ, (∀ s, ∃ w s', rng.geometric p n s = (.ok w, s') ∧ ∀ i : Fin n, w i = W i s) ∧ (∀ i, Measurable (W i)) ∧
    iIndepFun W P ∧ ∀ i g, P.real {s | W i s = g + 1} = (1 - p) ^ g * p

/-- Pixel number `k` of an image, row by row; 0 if there are not so many pixels. -/
def pixelAt (x : Scan ℝ) (k : ℕ) : ℝ :=
  match x with
  | .d0 v => v
  | .d1 n f => if h : k < n then f ⟨k, h⟩ else 0
  | .d2 r c f =>
    if h : k < r * c then
      f ⟨k / c, Nat.div_lt_of_lt_mul (by rwa [mul_comm])⟩ ⟨k % c, Nat.mod_lt _ (Nat.pos_of_ne_zero fun h0 => by simp [h0] at h)⟩
    else 0

/-- The noise changes pixel `k`. -/
def Disturbed (x y : Scan ℝ) (k : ℕ) : Prop := pixelAt y k ≠ pixelAt x k

/-- The generator states for which the call returns an image `y` with the given property. -/
def Returns {τ α : Type} (x : M τ α) (Q : α → Prop) : Set τ := {s | ∃ y s', x s = (.ok y, s') ∧ Q y}

end SimCATS.Spec
