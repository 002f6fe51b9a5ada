import Verif.Lemmas.Glf

/-! Properties C17, C18, C19: generalized logistic function, barriers, final rise. -/

namespace SimCATS

/-- A concrete non-degenerate GLF. -/
def sampleGlf : GlfParams := ⟨0, 2, 3, 1, 1, 1⟩

theorem sampleGlf_ok : sampleGlf.Ok := by
  constructor <;> norm_num [sampleGlf]

/-! ### C17 -/

/-- C17: `inverse_glf(glf(t)) = t` for every potential. -/
theorem C17_inverse_glf_glf (g : GlfParams) (h : g.Ok) (off t : ℝ) :
    inverseGlf g off (glf g off t) = t := inverseGlf_glf h off t

/-- C17: `glf(inverse_glf(v)) = v` for every value strictly between the asymptotes, in both orders. -/
theorem C17_glf_inverse_glf (g : GlfParams) (h : g.Ok) (hC : g.C = 1) (off v : ℝ)
    (hv : (g.A < v ∧ v < g.K) ∨ (g.K < v ∧ v < g.A)) :
    glf g off (inverseGlf g off v) = v := glf_inverseGlf h hC off v hv

/-- C17: for a general positive denominator offset the same holds for every value that `glf` takes. -/
theorem C17_glf_inverse_glf_range (g : GlfParams) (h : g.Ok) (off v : ℝ) (hv : ∃ t, glf g off t = v) :
    glf g off (inverseGlf g off v) = v := by
  obtain ⟨t, rfl⟩ := hv
  rw [inverseGlf_glf h]

/-- C17: values lie strictly between the asymptotes (denominator offset 1). -/
theorem C17_glf_between (g : GlfParams) (h : g.Ok) (hC : g.C = 1) (off t : ℝ) :
    min g.A g.K < glf g off t ∧ glf g off t < max g.A g.K := by
  have h0 := glfFrac_pos h off t
  have h1 := glfFrac_lt_one h hC.ge off t
  rw [glf_eq_frac]
  rcases lt_or_gt_of_ne h.AK with hlt | hlt
  · rw [min_eq_left hlt.le, max_eq_right hlt.le]
    constructor <;> nlinarith
  · rw [min_eq_right hlt.le, max_eq_left hlt.le]
    constructor <;> nlinarith

/-- C17: strictly increasing exactly in the directions documented: towards the right asymptote for positive growth
rate, mirrored for negative growth rate. -/
theorem C17_glf_monotone (g : GlfParams) (h : g.Ok) (off : ℝ) :
    (0 < g.B * (g.K - g.A) → StrictMono (glf g off)) ∧
    (g.B * (g.K - g.A) < 0 → StrictAnti (glf g off)) := by
  constructor
  · intro hp s t hst
    rw [glf_eq_frac, glf_eq_frac]
    rcases lt_or_gt_of_ne h.B with hB | hB
    · have := glfFrac_strictAnti h hB off hst
      nlinarith
    · have := glfFrac_strictMono h hB off hst
      nlinarith
  · intro hp s t hst
    rw [glf_eq_frac, glf_eq_frac]
    rcases lt_or_gt_of_ne h.B with hB | hB
    · have := glfFrac_strictAnti h hB off hst
      nlinarith
    · have := glfFrac_strictMono h hB off hst
      nlinarith

/-- C17: `offset` shifts the function to the right. -/
theorem C17_glf_offset (g : GlfParams) (off t : ℝ) : glf g off t = glf g 0 (t - off) := by
  have := glf_shift g 0 off (t - off)
  rw [zero_add, sub_add_cancel] at this
  exact this

example : sampleGlf.Ok ∧ sampleGlf.C = 1 ∧ sampleGlf.A < 1 ∧ 1 < sampleGlf.K ∧
    0 < sampleGlf.B * (sampleGlf.K - sampleGlf.A) :=
  ⟨sampleGlf_ok, by norm_num [sampleGlf]⟩

/-! ### C18 -/

/-- C18: at the pinch-off / fully conductive point the barrier has exactly the configured percentage of its height
above the lower asymptote.  Missing: denominator offsets other than 1, see `C18_refuted` and `C18_barrier_points_actual`. -/
theorem C18_barrier_points_partial (b : BarrierGlf) (h : b.g.Ok) (hC : b.g.C = 1)
    (hp : 0 < b.pinchOffPct ∧ b.pinchOffPct < 1) (hf : 0 < b.fullyCondPct ∧ b.fullyCondPct < 1) :
    b.getValue b.pinchOff = min b.g.A b.g.K + |b.g.K - b.g.A| * b.pinchOffPct ∧
    b.getValue b.fullyConductive = min b.g.A b.g.K + |b.g.K - b.g.A| * b.fullyCondPct := by
  have key : ∀ p, 0 < p → p < 1 → (b.g.A < |b.g.K - b.g.A| * p + min b.g.A b.g.K ∧
      |b.g.K - b.g.A| * p + min b.g.A b.g.K < b.g.K) ∨ (b.g.K < |b.g.K - b.g.A| * p + min b.g.A b.g.K ∧
      |b.g.K - b.g.A| * p + min b.g.A b.g.K < b.g.A) := by
    intro p h0 h1
    rcases lt_or_gt_of_ne h.AK with hlt | hlt
    · left
      rw [min_eq_left hlt.le, abs_of_pos (by linarith)]
      constructor <;> nlinarith
    · right
      rw [min_eq_right hlt.le, abs_of_neg (by linarith)]
      constructor <;> nlinarith
  constructor
  · rw [BarrierGlf.getValue, BarrierGlf.pinchOff, glf_inverseGlf h hC _ _ (key _ hp.1 hp.2)]; ring
  · rw [BarrierGlf.getValue, BarrierGlf.fullyConductive, glf_inverseGlf h hC _ _ (key _ hf.1 hf.2)]; ring

/-- C18: for a rising barrier the pinch-off point lies below the fully conductive point exactly if the percentages
are ordered that way; for a falling barrier it lies above. -/
theorem C18_barrier_order (b : BarrierGlf) (h : b.g.Ok) (hC : b.g.C = 1)
    (hp : 0 < b.pinchOffPct ∧ b.pinchOffPct < 1) (hf : 0 < b.fullyCondPct ∧ b.fullyCondPct < 1) :
    (0 < b.g.B * (b.g.K - b.g.A) → (b.pinchOff < b.fullyConductive ↔ b.pinchOffPct < b.fullyCondPct)) ∧
    (b.g.B * (b.g.K - b.g.A) < 0 → (b.fullyConductive < b.pinchOff ↔ b.pinchOffPct < b.fullyCondPct)) := by
  obtain ⟨e1, e2⟩ := C18_barrier_points_partial b h hC hp hf
  have hpos : 0 < |b.g.K - b.g.A| := abs_pos.mpr (sub_ne_zero.mpr h.AK.symm)
  have hv : b.getValue b.pinchOff < b.getValue b.fullyConductive ↔ b.pinchOffPct < b.fullyCondPct := by
    rw [e1, e2, add_lt_add_iff_left, mul_lt_mul_iff_right₀ hpos]
  constructor
  · intro hm
    rw [← hv]
    exact ((C17_glf_monotone b.g h b.offset).1 hm).lt_iff_lt.symm
  · intro hm
    rw [← hv]
    exact ((C17_glf_monotone b.g h b.offset).2 hm).lt_iff_gt.symm

/-- C18: barrier values lie strictly between the asymptotes. -/
theorem C18_barrier_between (b : BarrierGlf) (h : b.g.Ok) (hC : b.g.C = 1) (t : ℝ) :
    min b.g.A b.g.K < b.getValue t ∧ b.getValue t < max b.g.A b.g.K :=
  C17_glf_between b.g h hC b.offset t

/-- C18: for a rising barrier, "at most the pinch-off percentage" is the same as "at or below the pinch-off point".
Missing: denominator offsets other than 1, see `C18_refuted`. -/
theorem C18_pinch_off_separates_partial (b : BarrierGlf) (h : b.g.Ok) (hC : b.g.C = 1)
    (hp : 0 < b.pinchOffPct ∧ b.pinchOffPct < 1) (hf : 0 < b.fullyCondPct ∧ b.fullyCondPct < 1)
    (hm : 0 < b.g.B * (b.g.K - b.g.A)) (t : ℝ) :
    (t ≤ b.pinchOff ↔ b.getValue t ≤ min b.g.A b.g.K + |b.g.K - b.g.A| * b.pinchOffPct) ∧
    (b.fullyConductive ≤ t ↔ min b.g.A b.g.K + |b.g.K - b.g.A| * b.fullyCondPct ≤ b.getValue t) := by
  obtain ⟨e1, e2⟩ := C18_barrier_points_partial b h hC hp hf
  have mono := (C17_glf_monotone b.g h b.offset).1 hm
  rw [← e1, ← e2]
  exact ⟨mono.le_iff_le.symm, mono.le_iff_le.symm⟩

/-- C18: non-positive asymmetry is rejected. -/
theorem C18_asymmetry (b : BarrierGlf) : b.mk? = .error .valueError ↔ b.g.nu ≤ 0 := by
  unfold BarrierGlf.mk?; split_ifs with h <;> simp [h]

/-- C18: a multi-GLF barrier with one group of parameters is the same function as a single GLF barrier, and its
parameter count is checked. -/
theorem C18_multi_single (g : GlfParams) (off t : ℝ) :
    multiGlf t [g.A, g.K, g.B, g.nu, g.Q, g.C, off] = .ok (glf g off t) := by
  simp [multiGlf, sumGlf]

/-- C18: a multi-GLF is the sum of its groups, for any number of groups. -/
theorem C18_multi_sum (t : ℝ) (groups : List (GlfParams × ℝ)) :
    multiGlf t (groups.flatMap fun p => [p.1.A, p.1.K, p.1.B, p.1.nu, p.1.Q, p.1.C, p.2]) =
      .ok ((groups.map fun p => glf p.1 p.2 t).sum) := by
  have len : (groups.flatMap fun p => [p.1.A, p.1.K, p.1.B, p.1.nu, p.1.Q, p.1.C, p.2]).length % 7 = 0 := by
    induction groups with
    | nil => rfl
    | cons p ps ih =>
      rw [List.flatMap_cons, List.length_append]
      simp only [List.length_cons, List.length_nil]
      omega
  have sum : sumGlf t (groups.flatMap fun p => [p.1.A, p.1.K, p.1.B, p.1.nu, p.1.Q, p.1.C, p.2]) =
      (groups.map fun p => glf p.1 p.2 t).sum := by
    clear len
    induction groups with
    | nil => rfl
    | cons p ps ih =>
      rw [List.flatMap_cons, List.map_cons, List.sum_cons, ← ih]
      rfl
  simp [multiGlf, sum]

example : let b : BarrierGlf := ⟨0.01, 0.99, sampleGlf, 0.1⟩
    b.g.Ok ∧ b.g.C = 1 ∧ (0 < b.pinchOffPct ∧ b.pinchOffPct < 1) ∧ (0 < b.fullyCondPct ∧ b.fullyCondPct < 1) ∧
    0 < b.g.B * (b.g.K - b.g.A) := by
  refine ⟨sampleGlf_ok, ?_⟩
  norm_num [sampleGlf]

/-! ### C19 -/

/-- The value a rise is configured to have at its fully conductive point. -/
noncomputable def RiseGlf.target (r : RiseGlf) : ℝ := r.g.A + (r.g.K - r.g.A) * r.fullyCondPct

/-- C19 (part that holds): with `mu0 = 0` the rise takes its fully conductive value exactly at `offset`.
Missing: `mu0 ≠ 0`, see `C19_rise_iff` and `C19_refuted`. -/
theorem C19_rise_partial (r : RiseGlf) (h : r.g.Ok) (hC : r.g.C = 1)
    (hf : 0 < r.fullyCondPct ∧ r.fullyCondPct < 1) (h0 : r.mu0 = 0) (offset mu : ℝ) :
    r.sensorFunction mu offset = r.target ↔ mu = offset := by
  have hb : (r.g.A < (r.g.K - r.g.A) * r.fullyCondPct + r.g.A ∧ (r.g.K - r.g.A) * r.fullyCondPct + r.g.A < r.g.K) ∨
      (r.g.K < (r.g.K - r.g.A) * r.fullyCondPct + r.g.A ∧ (r.g.K - r.g.A) * r.fullyCondPct + r.g.A < r.g.A) := by
    rcases lt_or_gt_of_ne h.AK with hlt | hlt
    · left; constructor <;> nlinarith
    · right; constructor <;> nlinarith
  have e : glf r.g 0 r.fullyConductive = r.target := by
    rw [RiseGlf.fullyConductive, h0, glf_inverseGlf h hC _ _ hb, RiseGlf.target]; ring
  rw [← e, RiseGlf.sensorFunction, C17_glf_offset]
  constructor
  · intro he
    have := glf_injective h 0 he
    linarith
  · intro he; rw [he]; congr 1; ring

/-- C19: for general `mu0` the rise takes its fully conductive value exactly at `offset - mu0`. -/
theorem C19_rise_position (r : RiseGlf) (h : r.g.Ok) (hC : r.g.C = 1)
    (hf : 0 < r.fullyCondPct ∧ r.fullyCondPct < 1) (offset mu : ℝ) :
    r.sensorFunction mu offset = r.target ↔ mu = offset - r.mu0 := by
  have hb : (r.g.A < (r.g.K - r.g.A) * r.fullyCondPct + r.g.A ∧ (r.g.K - r.g.A) * r.fullyCondPct + r.g.A < r.g.K) ∨
      (r.g.K < (r.g.K - r.g.A) * r.fullyCondPct + r.g.A ∧ (r.g.K - r.g.A) * r.fullyCondPct + r.g.A < r.g.A) := by
    rcases lt_or_gt_of_ne h.AK with hlt | hlt
    · left; constructor <;> nlinarith
    · right; constructor <;> nlinarith
  have e : glf r.g r.mu0 r.fullyConductive = r.target := by
    rw [RiseGlf.fullyConductive, glf_inverseGlf h hC _ _ hb, RiseGlf.target]; ring
  rw [C17_glf_offset] at e
  rw [← e, RiseGlf.sensorFunction, C17_glf_offset]
  constructor
  · intro he
    have := glf_injective h 0 he
    linarith
  · intro he; rw [he]; congr 1; ring

/-- C19: the documented claim holds for a rise exactly if its `mu0` is zero. -/
theorem C19_rise_iff (r : RiseGlf) (h : r.g.Ok) (hC : r.g.C = 1)
    (hf : 0 < r.fullyCondPct ∧ r.fullyCondPct < 1) :
    (∀ offset, r.sensorFunction offset offset = r.target) ↔ r.mu0 = 0 := by
  simp only [C19_rise_position r h hC hf]
  constructor
  · intro h; have := h 0; linarith
  · intro h x; rw [h]; ring

/-- C19, full statement: false of the code (witness `mu0 = 1`). -/
theorem C19_refuted : ¬ ∀ (r : RiseGlf), r.g.Ok → r.g.C = 1 → 0 < r.fullyCondPct → r.fullyCondPct < 1 →
    ∀ offset, r.sensorFunction offset offset = r.target := by
  intro H
  have hf : (0 : ℝ) < 0.99 ∧ (0.99 : ℝ) < 1 := by norm_num
  have := (C19_rise_iff ⟨1, sampleGlf, 0.99⟩ sampleGlf_ok rfl hf).mp
    (H ⟨1, sampleGlf, 0.99⟩ sampleGlf_ok rfl hf.1 hf.2)
  norm_num at this

example : (⟨0, sampleGlf, 0.99⟩ : RiseGlf).g.Ok ∧ (⟨0, sampleGlf, 0.99⟩ : RiseGlf).mu0 = 0 := ⟨sampleGlf_ok, rfl⟩

end SimCATS
