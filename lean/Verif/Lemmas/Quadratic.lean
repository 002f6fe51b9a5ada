import Mathlib.Data.Real.Basic
import Mathlib.Analysis.Real.Sqrt
import Mathlib.Tactic.LinearCombination
import Mathlib.Tactic.Positivity
import Mathlib.Tactic.FieldSimp

/-! Roots of real quadratic equations. -/

namespace SimCATS

/-- Helper: roots of a quadratic with positive leading coefficient. -/
theorem quad_roots {A B C x : ℝ} (hA : 0 < A) (hd : 0 ≤ B ^ 2 - 4 * A * C) :
    A * x ^ 2 + B * x + C = 0 ↔
      x = (-B + Real.sqrt (B ^ 2 - 4 * A * C)) / (2 * A) ∨ x = (-B - Real.sqrt (B ^ 2 - 4 * A * C)) / (2 * A) := by
  have hs := Real.sq_sqrt hd
  set s := Real.sqrt (B ^ 2 - 4 * A * C)
  have h2A : (2 * A) ≠ 0 := by positivity
  rw [eq_div_iff h2A, eq_div_iff h2A]
  constructor
  · intro h
    have : (x * (2 * A) - (-B + s)) * (x * (2 * A) - (-B - s)) = 0 := by
      linear_combination (4 * A) * h - hs
    rcases mul_eq_zero.mp this with h | h
    · left; linarith
    · right; linarith
  · have h4A : (4 * A) ≠ 0 := by positivity
    intro h
    have : (4 * A) * (A * x ^ 2 + B * x + C) = 0 := by
      rcases h with h | h
      · linear_combination (x * (2 * A) + B + s) * h + hs
      · linear_combination (x * (2 * A) + B - s) * h + hs
    exact (mul_eq_zero.mp this).resolve_left h4A

end SimCATS
