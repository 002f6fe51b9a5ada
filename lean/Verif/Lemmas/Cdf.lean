import Verif.Model.Cdf
import Mathlib.Tactic.LinearCombination
import Mathlib.Tactic.Positivity
import Mathlib.Tactic.FieldSimp

/-! Facts about `tanh`, `arctan` and the CDF step. -/

namespace SimCATS

theorem tanh_formula (x : ℝ) : Real.tanh x = 1 - 2 / (Real.exp (2 * x) + 1) := by
  have h1 : Real.exp (2 * x) = Real.exp x * Real.exp x := by rw [← Real.exp_add]; ring_nf
  have hx := Real.exp_pos x
  rw [Real.tanh_eq_sinh_div_cosh, Real.sinh_eq, Real.cosh_eq, Real.exp_neg, h1]
  have : Real.exp x * Real.exp x + 1 ≠ 0 := by positivity
  field_simp
  ring

theorem tanh_lt_one' (x : ℝ) : Real.tanh x < 1 := by
  rw [tanh_formula]
  have : 0 < 2 / (Real.exp (2 * x) + 1) := by positivity
  linarith

theorem neg_one_lt_tanh' (x : ℝ) : -1 < Real.tanh x := by
  have := tanh_lt_one' (-x)
  rw [Real.tanh_neg] at this
  linarith

theorem tanh_strictMono' : StrictMono Real.tanh := by
  intro x y h
  rw [tanh_formula, tanh_formula]
  have : Real.exp (2 * x) < Real.exp (2 * y) := Real.exp_lt_exp.mpr (by linarith)
  have h0 : 0 < Real.exp (2 * x) + 1 := by positivity
  have : 2 / (Real.exp (2 * y) + 1) < 2 / (Real.exp (2 * x) + 1) := by
    apply div_lt_div_of_pos_left (by norm_num) h0; linarith
  linarith

theorem stepCdf_eq (x x0 : ℝ) : stepCdf x x0 = if x0 < x then 1 else 0 := by
  unfold stepCdf
  simp only [gt_iff_lt, sub_pos]
  by_cases h : x0 < x
  · simp only [h, if_true]; norm_num
  · simp only [h, if_false]
    by_cases h2 : x - x0 < 0
    · simp [h2]
    · simp only [h2, if_false]; linarith [not_lt.mp h, not_lt.mp h2]

end SimCATS
