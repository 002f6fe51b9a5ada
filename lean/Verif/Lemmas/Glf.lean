import Verif.Model.Glf
import Mathlib.Tactic.LinearCombination
import Mathlib.Tactic.Positivity
import Mathlib.Tactic.FieldSimp

/-! Facts about the generalized logistic function. -/

namespace SimCATS

/-- Non-degenerate GLF parameters: positive asymmetry (enforced by the setters), positive shape factor and
denominator offset, different asymptotes, non-zero growth rate. -/
structure GlfParams.Ok (g : GlfParams) : Prop where
  nu : 0 < g.nu
  Q : 0 < g.Q
  C : 0 < g.C
  AK : g.A ≠ g.K
  B : g.B ≠ 0

theorem glf_base_pos {g : GlfParams} (h : g.Ok) (off t : ℝ) :
    0 < g.C + g.Q * Real.exp (-g.B * (t - off)) := by
  have := h.Q; have := h.C; positivity

theorem inverseGlf_glf {g : GlfParams} (h : g.Ok) (off t : ℝ) :
    inverseGlf g off (glf g off t) = t := by
  unfold inverseGlf glf
  have hb := glf_base_pos h off t
  set x := g.C + g.Q * Real.exp (-g.B * (t - off)) with hx
  have hp : 0 < x ^ (1 / g.nu) := Real.rpow_pos_of_pos hb _
  have hAK : g.A - g.K ≠ 0 := sub_ne_zero.mpr h.AK
  have e1 : (g.A - g.K) / (g.A - (g.A + (g.K - g.A) / x ^ (1 / g.nu))) = x ^ (1 / g.nu) := by
    have hKA : g.K - g.A ≠ 0 := sub_ne_zero.mpr h.AK.symm
    have : g.A - (g.A + (g.K - g.A) / x ^ (1 / g.nu)) = (g.A - g.K) / x ^ (1 / g.nu) := by
      rw [show g.A - (g.A + (g.K - g.A) / x ^ (1 / g.nu)) = -((g.K - g.A) / x ^ (1 / g.nu)) by ring, ← neg_div]
      congr 1; ring
    rw [this]
    field_simp
  rw [e1, ← Real.rpow_mul hb.le, one_div_mul_cancel h.nu.ne', Real.rpow_one]
  have hQ := h.Q
  have e2 : (x - g.C) / g.Q = Real.exp (-g.B * (t - off)) := by
    rw [hx]; field_simp; ring
  rw [e2, Real.log_exp]
  have := h.B
  field_simp
  ring

/-- The inverse maps back whenever the two inner expressions are positive. -/
theorem glf_inverseGlf_of_pos {g : GlfParams} (h : g.Ok) (off v : ℝ)
    (h1 : 0 < (g.A - g.K) / (g.A - v)) (h2 : g.C < ((g.A - g.K) / (g.A - v)) ^ g.nu) :
    glf g off (inverseGlf g off v) = v := by
  unfold inverseGlf glf
  set r := (g.A - g.K) / (g.A - v) with hr
  have hQ := h.Q
  have hB := h.B
  have hpos : 0 < (r ^ g.nu - g.C) / g.Q := div_pos (by linarith) hQ
  have e1 : -g.B * ((g.B * off - Real.log ((r ^ g.nu - g.C) / g.Q)) / g.B - off) =
      Real.log ((r ^ g.nu - g.C) / g.Q) := by
    field_simp; ring
  rw [e1, Real.exp_log hpos]
  have e2 : g.C + g.Q * ((r ^ g.nu - g.C) / g.Q) = r ^ g.nu := by field_simp; ring
  rw [e2, ← Real.rpow_mul h1.le, mul_one_div_cancel h.nu.ne', Real.rpow_one, hr]
  have hAv : g.A - v ≠ 0 := by
    intro h0; rw [hr, h0, div_zero] at h1; exact lt_irrefl _ h1
  have hAK : g.A - g.K ≠ 0 := sub_ne_zero.mpr h.AK
  have hKA : g.K - g.A ≠ 0 := sub_ne_zero.mpr h.AK.symm
  field_simp
  ring

theorem one_lt_ratio {A K v : ℝ} (hv : (A < v ∧ v < K) ∨ (K < v ∧ v < A)) :
    1 < (A - K) / (A - v) := by
  rcases hv with ⟨h1, h2⟩ | ⟨h1, h2⟩
  · rw [show (A - K) / (A - v) = (K - A) / (v - A) by
      rw [← neg_sub K A, ← neg_sub v A, neg_div_neg_eq], lt_div_iff₀ (by linarith)]
    linarith
  · rw [lt_div_iff₀ (by linarith)]; linarith

theorem glf_inverseGlf {g : GlfParams} (h : g.Ok) (hC : g.C = 1) (off v : ℝ)
    (hv : (g.A < v ∧ v < g.K) ∨ (g.K < v ∧ v < g.A)) :
    glf g off (inverseGlf g off v) = v := by
  have h1 := one_lt_ratio hv
  apply glf_inverseGlf_of_pos h off v (by linarith)
  rw [hC]
  exact Real.one_lt_rpow h1 h.nu

/-- The relative height `(glf - A) / (K - A)`. -/
noncomputable def glfFrac (g : GlfParams) (off t : ℝ) : ℝ :=
  1 / (g.C + g.Q * Real.exp (-g.B * (t - off))) ^ (1 / g.nu)

theorem glf_eq_frac (g : GlfParams) (off t : ℝ) : glf g off t = g.A + (g.K - g.A) * glfFrac g off t := by
  unfold glf glfFrac; ring

theorem glfFrac_pos {g : GlfParams} (h : g.Ok) (off t : ℝ) : 0 < glfFrac g off t :=
  one_div_pos.mpr (Real.rpow_pos_of_pos (glf_base_pos h off t) _)

theorem glfFrac_lt_one {g : GlfParams} (h : g.Ok) (hC : 1 ≤ g.C) (off t : ℝ) : glfFrac g off t < 1 := by
  unfold glfFrac
  have hb : 1 < g.C + g.Q * Real.exp (-g.B * (t - off)) := by
    have := h.Q
    have : 0 < g.Q * Real.exp (-g.B * (t - off)) := by positivity
    linarith
  have := Real.one_lt_rpow hb (one_div_pos.mpr h.nu)
  rw [div_lt_one (by linarith)]
  exact this

theorem glfFrac_strictMono {g : GlfParams} (h : g.Ok) (hB : 0 < g.B) (off : ℝ) : StrictMono (glfFrac g off) := by
  intro s t hst
  unfold glfFrac
  have e : Real.exp (-g.B * (t - off)) < Real.exp (-g.B * (s - off)) := Real.exp_lt_exp.mpr (by nlinarith)
  have hQ := h.Q
  have hlt : g.C + g.Q * Real.exp (-g.B * (t - off)) < g.C + g.Q * Real.exp (-g.B * (s - off)) := by
    have := mul_lt_mul_of_pos_left e hQ; linarith
  apply one_div_lt_one_div_of_lt (Real.rpow_pos_of_pos (glf_base_pos h off t) _)
  exact Real.rpow_lt_rpow (glf_base_pos h off t).le hlt (one_div_pos.mpr h.nu)

theorem glfFrac_strictAnti {g : GlfParams} (h : g.Ok) (hB : g.B < 0) (off : ℝ) : StrictAnti (glfFrac g off) := by
  intro s t hst
  unfold glfFrac
  have e : Real.exp (-g.B * (s - off)) < Real.exp (-g.B * (t - off)) := Real.exp_lt_exp.mpr (by nlinarith)
  have hQ := h.Q
  have hlt : g.C + g.Q * Real.exp (-g.B * (s - off)) < g.C + g.Q * Real.exp (-g.B * (t - off)) := by
    have := mul_lt_mul_of_pos_left e hQ; linarith
  apply one_div_lt_one_div_of_lt (Real.rpow_pos_of_pos (glf_base_pos h off s) _)
  exact Real.rpow_lt_rpow (glf_base_pos h off s).le hlt (one_div_pos.mpr h.nu)

theorem glf_injective {g : GlfParams} (h : g.Ok) (off : ℝ) : Function.Injective (glf g off) := by
  intro s t hst
  rw [← inverseGlf_glf h off s, hst, inverseGlf_glf h off t]

theorem glf_shift (g : GlfParams) (off d t : ℝ) : glf g (off + d) (t + d) = glf g off t := by
  unfold glf; congr 6; ring

theorem inverseGlf_shift {g : GlfParams} (hB : g.B ≠ 0) (off d v : ℝ) :
    inverseGlf g (off + d) v = inverseGlf g off v + d := by
  unfold inverseGlf; field_simp; ring

end SimCATS
