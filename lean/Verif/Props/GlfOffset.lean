import Verif.Props.Glf
import Verif.Props.GlfShape

/-! Property C18 for denominator offsets other than 1. -/

namespace SimCATS

open Filter Topology

/-- The relative height of the value that lies the percentage `p` above the lower one of the two parameters, seen from `asymptote_left`. -/
private noncomputable def fromLeft (g : GlfParams) (p : ℝ) : ℝ := open Classical in if g.A < g.K then p else 1 - p

private theorem value_fromLeft {g : GlfParams} (p : ℝ) : |g.K - g.A| * p + min g.A g.K = g.A + (g.K - g.A) * fromLeft g p := by
  unfold fromLeft
  split_ifs with h
  · rw [min_eq_left h.le, abs_of_pos (by linarith)]; ring
  · rw [not_lt] at h
    rw [min_eq_right h, abs_of_nonpos (by linarith)]; ring

private theorem fromLeft_between {g : GlfParams} {p : ℝ} (hp : 0 < p ∧ p < 1) : 0 < fromLeft g p ∧ fromLeft g p < 1 := by
  unfold fromLeft
  split_ifs <;> constructor <;> linarith

/-- The value at the relative height `q` is taken exactly if `q ** asymmetry * denominator_offset < 1`. -/
private theorem taken {g : GlfParams} (h : g.Ok) (off : ℝ) {q : ℝ} (hq : 0 < q) :
    (q ^ g.nu * g.C < 1 → glf g off (inverseGlf g off (g.A + (g.K - g.A) * q)) = g.A + (g.K - g.A) * q) ∧
    (1 ≤ q ^ g.nu * g.C → ∀ t, glf g off t ≠ g.A + (g.K - g.A) * q) := by
  have hAK : g.A - g.K ≠ 0 := sub_ne_zero.mpr h.AK
  have hqn : 0 < q ^ g.nu := Real.rpow_pos_of_pos hq _
  constructor
  · intro hlt
    have e : (g.A - g.K) / (g.A - (g.A + (g.K - g.A) * q)) = 1 / q := by
      rw [show g.A - (g.A + (g.K - g.A) * q) = (g.A - g.K) * q by ring]
      field_simp
    refine glf_inverseGlf_of_pos h off _ (by rw [e]; positivity) ?_
    rw [e, Real.div_rpow zero_le_one hq.le, Real.one_rpow, lt_div_iff₀ hqn, mul_comm]
    exact hlt
  · intro hge t ht
    have hb := glf_base_pos h off t
    have hf : glfFrac g off t = q := by
      rw [glf_eq_frac] at ht
      exact mul_left_cancel₀ (sub_ne_zero.mpr h.AK.symm) (add_left_cancel ht)
    have hx : g.C < g.C + g.Q * Real.exp (-g.B * (t - off)) := by
      have := h.Q
      have : 0 < g.Q * Real.exp (-g.B * (t - off)) := by positivity
      linarith
    have e : q ^ g.nu = 1 / (g.C + g.Q * Real.exp (-g.B * (t - off))) := by
      rw [← hf, glfFrac, Real.div_rpow zero_le_one (Real.rpow_nonneg hb.le _), Real.one_rpow, ← Real.rpow_mul hb.le,
        one_div_mul_cancel h.nu.ne', Real.rpow_one]
    rw [e, one_div_mul_eq_div, le_div_iff₀ hb, one_mul] at hge
    linarith

/-- C18, for any denominator offset: the configured points are the points where the barrier has the configured percentage of the distance between
the parameters `asymptote_left` and `asymptote_right` above the lower one, if there are such points.  If there is none, because the function ends
below `asymptote_right`, no potential has the value (the code takes the logarithm of a number that is not positive). -/
theorem C18_barrier_points_actual (b : BarrierGlf) (h : b.g.Ok) (p : ℝ) (hp : 0 < p ∧ p < 1) :
    let q := open Classical in if b.g.A < b.g.K then p else 1 - p
    (q ^ b.g.nu * b.g.C < 1 →
      (b.pinchOffPct = p → b.getValue b.pinchOff = min b.g.A b.g.K + |b.g.K - b.g.A| * p) ∧
      (b.fullyCondPct = p → b.getValue b.fullyConductive = min b.g.A b.g.K + |b.g.K - b.g.A| * p)) ∧
    (1 ≤ q ^ b.g.nu * b.g.C → ∀ t, b.getValue t ≠ min b.g.A b.g.K + |b.g.K - b.g.A| * p) := by
  have key := taken h b.offset (fromLeft_between (g := b.g) hp).1
  have e := value_fromLeft (g := b.g) p
  intro q
  rw [add_comm (min b.g.A b.g.K), e]
  refine ⟨fun hq => ⟨fun h1 => ?_, fun h1 => ?_⟩, fun hq t => key.2 hq t⟩
  · rw [BarrierGlf.getValue, BarrierGlf.pinchOff, h1, e]
    exact key.1 hq
  · rw [BarrierGlf.getValue, BarrierGlf.fullyConductive, h1, e]
    exact key.1 hq

/-- A barrier whose right asymptote is 2, twice the parameter `asymptote_right`. -/
noncomputable def highBarrier : BarrierGlf := ⟨1 / 4, 1 / 2, ⟨0, 1, 1, 1, 1, 1 / 2⟩, 0⟩

/-- A barrier whose right asymptote is 1/2, half of the parameter `asymptote_right`. -/
noncomputable def lowBarrier : BarrierGlf := ⟨1 / 4, 3 / 4, ⟨0, 1, 1, 1, 1, 2⟩, 0⟩

example : let q := open Classical in if highBarrier.g.A < highBarrier.g.K then (1 / 4 : ℝ) else 1 - 1 / 4
    highBarrier.g.Ok ∧ highBarrier.g.C ≠ 1 ∧ q ^ highBarrier.g.nu * highBarrier.g.C < 1 := by
  refine ⟨by constructor <;> norm_num [highBarrier], by norm_num [highBarrier], ?_⟩
  norm_num [highBarrier]

/-- C18 does not hold for denominator offsets other than 1, for which the documented right asymptote is
`asymptote_left + (asymptote_right - asymptote_left) / denominator_offset ** (1 / asymmetry)`: the value at the pinch-off point is not the configured
percentage of the distance of the asymptotes above the lower one. -/
theorem C18_refuted : ∃ (b : BarrierGlf) (lower upper : ℝ), b.mk? = .ok b ∧ b.g.Ok ∧ (0 < b.pinchOffPct ∧ b.pinchOffPct < 1) ∧
    Tendsto b.getValue atBot (𝓝 lower) ∧ Tendsto b.getValue atTop (𝓝 upper) ∧ lower < upper ∧
    b.getValue b.pinchOff ≠ lower + (upper - lower) * b.pinchOffPct := by
  have hok : highBarrier.g.Ok := by constructor <;> norm_num [highBarrier]
  obtain ⟨h1, h2⟩ := C81_asymptotes highBarrier.g (by norm_num [highBarrier]) hok.Q hok.C hok.nu highBarrier.offset
  refine ⟨highBarrier, 0, 2, ?_, hok, by norm_num [highBarrier], h1, ?_, by norm_num, ?_⟩
  · unfold BarrierGlf.mk?
    rw [if_neg (by norm_num [highBarrier])]
  · have e : highBarrier.g.A + (highBarrier.g.K - highBarrier.g.A) / highBarrier.g.C ^ (1 / highBarrier.g.nu) = 2 := by
      norm_num [highBarrier]
    rw [e] at h2
    exact h2
  · have := ((C18_barrier_points_actual highBarrier hok (1 / 4) (by norm_num)).1 (by norm_num [highBarrier])).1 rfl
    rw [this]
    norm_num [highBarrier]

/-- C18 does not hold for denominator offsets above 1: no potential has the configured value of the fully conductive point. -/
theorem C18_points_refuted : ∃ b : BarrierGlf, b.mk? = .ok b ∧ b.g.Ok ∧ (0 < b.fullyCondPct ∧ b.fullyCondPct < 1) ∧
    ∀ t, b.getValue t ≠ min b.g.A b.g.K + |b.g.K - b.g.A| * b.fullyCondPct := by
  have hok : lowBarrier.g.Ok := by constructor <;> norm_num [lowBarrier]
  refine ⟨lowBarrier, ?_, hok, by norm_num [lowBarrier],
    (C18_barrier_points_actual lowBarrier hok lowBarrier.fullyCondPct (by norm_num [lowBarrier])).2 (by norm_num [lowBarrier])⟩
  unfold BarrierGlf.mk?
  rw [if_neg (by norm_num [lowBarrier])]

/-- C18: the value always lies strictly between the asymptotes, for any denominator offset. -/
theorem C18_between (b : BarrierGlf) (h : b.g.Ok) (lower upper : ℝ)
    (hl : Tendsto b.getValue atBot (𝓝 lower)) (hu : Tendsto b.getValue atTop (𝓝 upper)) (t : ℝ) :
    min lower upper < b.getValue t ∧ b.getValue t < max lower upper := by
  have hm := C17_glf_monotone b.g h b.offset
  rcases lt_or_gt_of_ne (mul_ne_zero h.B (sub_ne_zero.mpr h.AK.symm)).symm with hlt | hlt
  · have hs : StrictMono b.getValue := hm.1 hlt
    have a1 : lower < b.getValue t :=
      (hs.monotone.le_of_tendsto hl (t - 1)).trans_lt (hs (by linarith))
    have a2 : b.getValue t < upper := (hs (by linarith : t < t + 1)).trans_le (hs.monotone.ge_of_tendsto hu (t + 1))
    exact ⟨min_lt_of_left_lt a1, lt_max_of_lt_right a2⟩
  · have hs : StrictAnti b.getValue := hm.2 hlt
    have a1 : b.getValue t < lower := (hs (by linarith : t - 1 < t)).trans_le (hs.antitone.ge_of_tendsto hl (t - 1))
    have a2 : upper < b.getValue t := (hs.antitone.le_of_tendsto hu (t + 1)).trans_lt (hs (by linarith))
    exact ⟨min_lt_of_right_lt a2, lt_max_of_lt_left a1⟩

/-- The asymptotes of a barrier with a right asymptote of 2. -/
example : Tendsto highBarrier.getValue atBot (𝓝 0) ∧ Tendsto highBarrier.getValue atTop (𝓝 2) := by
  have h := C81_asymptotes highBarrier.g (by norm_num [highBarrier]) (by norm_num [highBarrier]) (by norm_num [highBarrier])
    (by norm_num [highBarrier]) highBarrier.offset
  have e : highBarrier.g.A + (highBarrier.g.K - highBarrier.g.A) / highBarrier.g.C ^ (1 / highBarrier.g.nu) = 2 := by
    norm_num [highBarrier]
  rw [e] at h
  exact h

/-- C18: if both points exist, they are ordered like the percentages (for a rising barrier, in the opposite order for a falling one), for any
denominator offset. -/
theorem C18_order (b : BarrierGlf) (h : b.g.Ok) (hp : ∃ t, b.getValue t = min b.g.A b.g.K + |b.g.K - b.g.A| * b.pinchOffPct)
    (hf : ∃ t, b.getValue t = min b.g.A b.g.K + |b.g.K - b.g.A| * b.fullyCondPct) :
    (StrictMono b.getValue → (b.pinchOff < b.fullyConductive ↔ b.pinchOffPct < b.fullyCondPct)) ∧
    (StrictAnti b.getValue → (b.fullyConductive < b.pinchOff ↔ b.pinchOffPct < b.fullyCondPct)) := by
  have e1 : b.getValue b.pinchOff = min b.g.A b.g.K + |b.g.K - b.g.A| * b.pinchOffPct := by
    rw [add_comm] at hp ⊢
    exact C17_glf_inverse_glf_range b.g h b.offset _ hp
  have e2 : b.getValue b.fullyConductive = min b.g.A b.g.K + |b.g.K - b.g.A| * b.fullyCondPct := by
    rw [add_comm] at hf ⊢
    exact C17_glf_inverse_glf_range b.g h b.offset _ hf
  have hpos : 0 < |b.g.K - b.g.A| := abs_pos.mpr (sub_ne_zero.mpr h.AK.symm)
  have hv : b.getValue b.pinchOff < b.getValue b.fullyConductive ↔ b.pinchOffPct < b.fullyCondPct := by
    rw [e1, e2, add_lt_add_iff_left, mul_lt_mul_iff_right₀ hpos]
  exact ⟨fun hm => hm.lt_iff_lt.symm.trans hv, fun hm => hm.lt_iff_gt.symm.trans hv⟩

example : (∃ t, highBarrier.getValue t = min highBarrier.g.A highBarrier.g.K + |highBarrier.g.K - highBarrier.g.A| * highBarrier.pinchOffPct) ∧
    (∃ t, highBarrier.getValue t = min highBarrier.g.A highBarrier.g.K + |highBarrier.g.K - highBarrier.g.A| * highBarrier.fullyCondPct) ∧
    StrictMono highBarrier.getValue := by
  have hok : highBarrier.g.Ok := by constructor <;> norm_num [highBarrier]
  exact ⟨⟨_, ((C18_barrier_points_actual highBarrier hok _ (by norm_num [highBarrier])).1 (by norm_num [highBarrier])).1 rfl⟩,
    ⟨_, ((C18_barrier_points_actual highBarrier hok _ (by norm_num [highBarrier])).1 (by norm_num [highBarrier])).2 rfl⟩,
    (C17_glf_monotone highBarrier.g hok highBarrier.offset).1 (by norm_num [highBarrier])⟩

end SimCATS
