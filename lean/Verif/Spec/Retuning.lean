import Verif.Model.Sensor

/-!
Specification for resetting a sampled sensor to its steepest point.
-/

namespace SimCATS.Spec

/-- The potential `x` is on the steepest rising flank of the response `f` in the potential range from `lo` to `hi`, extended by
20 % at both ends: next to it (at most one grid step `δ` away) the response rises from `u` to `v`, and at no inner point `z` of
the grid with a million points is the central difference quotient larger. -/
def SteepestFlank (f : ℝ → ℝ) (lo hi x : ℝ) : Prop :=
  ∃ δ, 0 < δ ∧ δ = 1.4 * (hi - lo) / 999999 ∧ lo - 0.2 * (hi - lo) ≤ x ∧ x ≤ hi + 0.2 * (hi - lo) ∧
    ∃ u v, x - δ ≤ u ∧ u ≤ x ∧ x ≤ v ∧ v ≤ x + δ ∧ u < v ∧ f u < f v ∧
      ∀ k : ℕ, 1 ≤ k → k ≤ 999998 → ∀ z, z = lo - 0.2 * (hi - lo) + k * δ → (f (z + δ) - f (z - δ)) / (2 * δ) ≤ (f v - f u) / (v - u)

/-- A reset: the requested potential and the ranges of both plunger gates. -/
structure ResetCall where
  target : ℝ
  g1 : ℝ × ℝ
  g2 : ℝ × ℝ

end SimCATS.Spec
