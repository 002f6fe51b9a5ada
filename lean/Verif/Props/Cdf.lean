import Verif.Lemmas.Cdf

/-! Property C16: the occupation CDFs are CDFs. -/

namespace SimCATS

/-- What a user expects of a symmetric CDF centred at `x0`: values strictly between 0 and 1, strictly increasing,
1/2 at the centre, point symmetric about the centre. -/
structure IsSymmCdf (F : ℝ → ℝ) (x0 : ℝ) : Prop where
  pos : ∀ x, 0 < F x
  lt_one : ∀ x, F x < 1
  strictMono : StrictMono F
  center : F x0 = 1 / 2
  symm : ∀ d, F (x0 + d) + F (x0 - d) = 1
  /-- it reaches every value strictly between 0 and 1, so the limits are 0 and 1 -/
  surj : ∀ p, 0 < p → p < 1 → ∃ x, F x = p

/-- C16: sigmoid CDF for every (numerically) positive width. -/
theorem C16_sigmoid_cdf (x0 gam : ℝ) (h : 1e-8 < gam) :
    IsSymmCdf (fun x => sigmoidCdf x x0 gam) x0 := by
  have hg : 0 < gam := lt_trans (by norm_num) h
  have hc : ¬ isCloseZero gam := by
    unfold isCloseZero; rw [abs_of_pos hg]; exact not_le.mpr h
  simp only [sigmoidCdf, hc, if_false]
  constructor
  · intro x; linarith [neg_one_lt_tanh' ((x - x0) / gam)]
  · intro x; linarith [tanh_lt_one' ((x - x0) / gam)]
  · intro x y hxy
    have : (x - x0) / gam < (y - x0) / gam := by
      apply div_lt_div_of_pos_right _ hg; linarith
    simp only
    linarith [tanh_strictMono' this]
  · simp only [sub_self, zero_div, Real.tanh_zero]; norm_num
  · intro d
    have e : (x0 - d - x0) / gam = -((x0 + d - x0) / gam) := by ring
    simp only [e, Real.tanh_neg]; ring
  · intro p h0 h1
    have hq : 0 < p / (1 - p) := div_pos h0 (by linarith)
    refine ⟨x0 + gam * (Real.log (p / (1 - p)) / 2), ?_⟩
    have e : (x0 + gam * (Real.log (p / (1 - p)) / 2) - x0) / gam = Real.log (p / (1 - p)) / 2 := by
      field_simp; ring
    simp only [e]
    rw [tanh_formula]
    have e2 : 2 * (Real.log (p / (1 - p)) / 2) = Real.log (p / (1 - p)) := by ring
    rw [e2, Real.exp_log hq]
    have : (1 - p) ≠ 0 := by linarith
    field_simp
    ring

/-- C16: Cauchy CDF for every (numerically) positive width. -/
theorem C16_cauchy_cdf (x0 gam : ℝ) (h : 1e-8 < gam) :
    IsSymmCdf (fun x => cauchyCdf x x0 gam) x0 := by
  have hg : 0 < gam := lt_trans (by norm_num) h
  have hc : ¬ isCloseZero gam := by
    unfold isCloseZero; rw [abs_of_pos hg]; exact not_le.mpr h
  have hpi := Real.pi_pos
  simp only [cauchyCdf, hc, if_false]
  have bound : ∀ a : ℝ, -(1 / 2) < 1 / Real.pi * a ↔ -(Real.pi / 2) < a := by
    intro a
    rw [← mul_lt_mul_iff_right₀ hpi]
    have : Real.pi * (1 / Real.pi * a) = a := by field_simp
    rw [this]
    constructor <;> intro h <;> linarith
  have bound' : ∀ a : ℝ, 1 / Real.pi * a < 1 / 2 ↔ a < Real.pi / 2 := by
    intro a
    rw [← mul_lt_mul_iff_right₀ hpi]
    have : Real.pi * (1 / Real.pi * a) = a := by field_simp
    rw [this]
    constructor <;> intro h <;> linarith
  constructor
  · intro x
    have := (bound _).mpr (Real.neg_pi_div_two_lt_arctan ((x - x0) / gam))
    norm_num at this ⊢; linarith
  · intro x
    have := (bound' _).mpr (Real.arctan_lt_pi_div_two ((x - x0) / gam))
    norm_num at this ⊢; linarith
  · intro x y hxy
    have : (x - x0) / gam < (y - x0) / gam := by
      apply div_lt_div_of_pos_right _ hg; linarith
    have h2 := Real.arctan_strictMono this
    have h3 : 0 < 1 / Real.pi := by positivity
    simp only
    linarith [mul_lt_mul_of_pos_left h2 h3]
  · simp only [sub_self, zero_div, Real.arctan_zero]; norm_num
  · intro d
    have e : (x0 - d - x0) / gam = -((x0 + d - x0) / gam) := by ring
    simp only [e, Real.arctan_neg]; ring
  · intro p h0 h1
    refine ⟨x0 + gam * Real.tan (Real.pi * (p - 1 / 2)), ?_⟩
    have e : (x0 + gam * Real.tan (Real.pi * (p - 1 / 2)) - x0) / gam = Real.tan (Real.pi * (p - 1 / 2)) := by
      field_simp; ring
    simp only [e]
    rw [Real.arctan_tan (by nlinarith) (by nlinarith)]
    field_simp
    norm_num

/-- C16: for a numerically vanishing width both CDFs are the 0/1 step; at the centre itself the value is 0. -/
theorem C16_step (x x0 gam : ℝ) (h : |gam| ≤ 1e-8) :
    sigmoidCdf x x0 gam = (if x0 < x then 1 else 0) ∧ cauchyCdf x x0 gam = (if x0 < x then 1 else 0) := by
  have hc : isCloseZero gam := h
  simp only [sigmoidCdf, cauchyCdf, hc, if_true, stepCdf_eq, and_self]

/-- Non-vacuity: a typical width. -/
example : IsSymmCdf (fun x => sigmoidCdf x 0 0.001) 0 ∧ IsSymmCdf (fun x => cauchyCdf x 0 0.001) 0 :=
  ⟨C16_sigmoid_cdf _ _ (by norm_num), C16_cauchy_cdf _ _ (by norm_num)⟩

example : sigmoidCdf 1 0 0 = 1 ∧ sigmoidCdf 0 0 0 = 0 ∧ sigmoidCdf (-1) 0 0 = 0 := by
  refine ⟨?_, ?_, ?_⟩ <;> rw [(C16_step _ _ _ (by norm_num)).1] <;> norm_num

end SimCATS
