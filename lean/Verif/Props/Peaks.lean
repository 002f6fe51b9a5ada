import Verif.Model.Peaks
import Mathlib.Tactic.LinearCombination
import Mathlib.Tactic.Positivity
import Mathlib.Tactic.FieldSimp

/-! Property C20: sensor peaks are peaks. -/

namespace SimCATS

/-- C20: every constructed peak with positive height lies strictly above its offset, has the unique maximum
`offset + height` at `mu0` and strictly decreases with the distance from `mu0` (hence is symmetric). -/
theorem C20_peak (p q : Peak) (hq : p.mk? = .ok q) (hh : 0 < p.height) :
    (∀ mu, q.offset < q.eval mu) ∧
    q.eval q.mu0 = q.offset + q.height ∧
    (∀ mu, mu ≠ q.mu0 → q.eval mu < q.offset + q.height) ∧
    (∀ mu nu, |mu - q.mu0| < |nu - q.mu0| → q.eval nu < q.eval mu) ∧
    (∀ mu nu, |mu - q.mu0| = |nu - q.mu0| → q.eval nu = q.eval mu) := by
  have hw : 0 < p.width ∧ q = p := by
    unfold Peak.mk? at hq
    split_ifs at hq with h
    exact ⟨not_le.mp h, by cases hq; rfl⟩
  obtain ⟨hw, rfl⟩ := hw
  obtain ⟨kind, mu0, w, h, o⟩ := q
  simp only at hw hh
  have anti : ∀ mu nu : ℝ, |mu - mu0| < |nu - mu0| →
      Peak.eval ⟨kind, mu0, w, h, o⟩ nu < Peak.eval ⟨kind, mu0, w, h, o⟩ mu := by
    intro mu nu hd
    have hs : (mu - mu0) ^ 2 < (nu - mu0) ^ 2 := sq_lt_sq.mpr hd
    cases kind with
    | gaussian =>
      simp only [Peak.eval, gaussResponse]
      have : Real.exp (-((nu - mu0) / w) ^ 2) < Real.exp (-((mu - mu0) / w) ^ 2) := by
        apply Real.exp_lt_exp.mpr
        rw [div_pow, div_pow]
        have : (mu - mu0) ^ 2 / w ^ 2 < (nu - mu0) ^ 2 / w ^ 2 := div_lt_div_of_pos_right hs (by positivity)
        linarith
      linarith [mul_lt_mul_of_pos_left this hh]
    | lorentzian =>
      simp only [Peak.eval, lorentzResponse]
      have : h * w ^ 2 / (w ^ 2 + (nu - mu0) ^ 2) < h * w ^ 2 / (w ^ 2 + (mu - mu0) ^ 2) := by
        apply div_lt_div_of_pos_left (by positivity) (by positivity)
        linarith
      linarith
  have top : Peak.eval ⟨kind, mu0, w, h, o⟩ mu0 = o + h := by
    cases kind with
    | gaussian => simp [Peak.eval, gaussResponse]
    | lorentzian =>
      simp only [Peak.eval, lorentzResponse, sub_self]
      field_simp
      ring
  refine ⟨?_, top, ?_, anti, ?_⟩
  · intro mu
    cases kind with
    | gaussian =>
      simp only [Peak.eval, gaussResponse]
      have : 0 < h * Real.exp (-((mu - mu0) / w) ^ 2) := by positivity
      linarith
    | lorentzian =>
      simp only [Peak.eval, lorentzResponse]
      have : 0 < h * w ^ 2 / (w ^ 2 + (mu - mu0) ^ 2) := by positivity
      linarith
  · intro mu hmu
    rw [← top]
    apply anti
    simpa using sub_ne_zero.mpr hmu
  · intro mu nu hd
    have hs : (mu - mu0) ^ 2 = (nu - mu0) ^ 2 := (sq_eq_sq_iff_abs_eq_abs _ _).mpr hd
    cases kind with
    | gaussian => simp only [Peak.eval, gaussResponse, div_pow, hs]
    | lorentzian => simp only [Peak.eval, lorentzResponse, hs]

/-- C20: a peak object can be created exactly if its width is positive; otherwise `ValueError`. -/
theorem C20_width_validation (p : Peak) :
    (p.mk? = .error .valueError ↔ p.width ≤ 0) ∧ (p.mk? = .ok p ↔ 0 < p.width) := by
  unfold Peak.mk?
  by_cases h : p.width ≤ 0
  · simp [h]
  · simp [h, not_le.mp h]

/-- C20: the half-width of a Lorentzian peak is its `gamma`: at distance `gamma` the peak has half its height. -/
theorem C20_lorentz_half_width (mu0 g h o : ℝ) (hg : 0 < g) :
    Peak.eval ⟨.lorentzian, mu0, g, h, o⟩ (mu0 + g) = o + h / 2 := by
  simp only [Peak.eval, lorentzResponse]
  have : g ^ 2 + (mu0 + g - mu0) ^ 2 ≠ 0 := by
    have : mu0 + g - mu0 = g := by ring
    rw [this]; positivity
  have e : mu0 + g - mu0 = g := by ring
  rw [e]
  field_simp
  ring

/-- Non-vacuity. -/
example : (⟨.lorentzian, 0, 1, 2, 3⟩ : Peak).mk? = .ok ⟨.lorentzian, 0, 1, 2, 3⟩ ∧
    (⟨.lorentzian, 0, 1, 2, 3⟩ : Peak).eval 1 = 4 := by
  constructor
  · rw [(C20_width_validation _).2]; norm_num
  · simp only [Peak.eval, lorentzResponse]; norm_num

end SimCATS
