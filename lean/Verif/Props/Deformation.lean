import Verif.Model.Deformation
import Verif.Spec.Geometry
import Mathlib.Topology.Order.OrderClosed
import Mathlib.Analysis.SpecialFunctions.Trigonometric.Inverse
import Mathlib.Topology.Instances.Real.Lemmas

/-! Properties C43 and C44: peak deformations and the distance handed to them. -/

namespace SimCATS

theorem clip1_eq {x : ℝ} (h0 : 0 ≤ x) : clip1 x = min x 1 := by
  unfold clip1; rw [max_eq_left (by linarith)]

theorem cos_arcsin_clip {d R : ℝ} (hd : 0 ≤ d) (hR : 0 < R) (h : d ≤ R) :
    Real.cos (Real.arcsin (clip1 (d / R))) * R = Real.sqrt (R ^ 2 - d ^ 2) := by
  have h0 : 0 ≤ d / R := by positivity
  have h1 : d / R ≤ 1 := (div_le_one hR).2 h
  rw [clip1_eq h0, min_eq_left h1, Real.cos_arcsin]
  calc Real.sqrt (1 - (d / R) ^ 2) * R = Real.sqrt (1 - (d / R) ^ 2) * Real.sqrt (R ^ 2) := by
        rw [Real.sqrt_sq hR.le]
    _ = Real.sqrt ((1 - (d / R) ^ 2) * R ^ 2) := (Real.sqrt_mul (by nlinarith) _).symm
    _ = Real.sqrt (R ^ 2 - d ^ 2) := by congr 1; field_simp

theorem cos_arcsin_clip_out {d R : ℝ} (hR : 0 < R) (h : R ≤ d) :
    Real.cos (Real.arcsin (clip1 (d / R))) = 0 := by
  have h1 : 1 ≤ d / R := (one_le_div hR).2 h
  rw [clip1_eq (by linarith), min_eq_right h1]
  simp

theorem npSign_pos {x : ℝ} (h : 0 < x) : npSign x = 1 := by
  unfold npSign; rw [if_neg (by linarith), if_pos h]

theorem npSign_neg {x : ℝ} (h : x < 0) : npSign x = -1 := by
  unfold npSign; rw [if_pos h]

/-- Inside the radius, for both signs: closed form. -/
theorem circleCalcMu_inside {radius a d mu0 : ℝ} (ha : 0 < a) (hr : radius ≠ 0) (hd : |d| ≤ |radius| / a) :
    circleCalcMu radius a d mu0 =
      mu0 - (|radius| / a - Real.sqrt ((|radius| / a) ^ 2 - d ^ 2)) * npSign radius := by
  have hR : 0 < |radius| / a := div_pos (abs_pos.2 hr) ha
  have e : |radius / a| = |radius| / a := by rw [abs_div, abs_of_pos ha]
  unfold circleCalcMu
  simp only [e]
  rw [if_pos hd, cos_arcsin_clip (abs_nonneg d) hR hd, sq_abs]

theorem circleCalcMu_outside {radius a d mu0 : ℝ} (ha : 0 < a) (hr : radius ≠ 0) (hd : |radius| / a < |d|) :
    circleCalcMu radius a d mu0 = mu0 - |radius| / a := by
  have e : |radius / a| = |radius| / a := by rw [abs_div, abs_of_pos ha]
  have e2 : radius / a * npSign (radius / a) = |radius| / a := by
    rcases lt_or_gt_of_ne hr with h | h
    · rw [npSign_neg (div_neg_of_neg_of_pos h ha), abs_of_neg h]; ring
    · rw [npSign_pos (div_pos h ha), abs_of_pos h]; ring
  unfold circleCalcMu
  simp only [e, e2]
  rw [if_neg (not_le.2 hd)]

/-- C43: on the middle line the peak stays at `mu0` (both signs). -/
theorem C43_fixed_on_middle_line (radius a mu0 : ℝ) (ha : 0 < a) (hr : radius ≠ 0) :
    circleCalcMu radius a 0 mu0 = mu0 := by
  have hR : 0 < |radius| / a := div_pos (abs_pos.2 hr) ha
  rw [circleCalcMu_inside ha hr (by simpa using hR.le)]
  simp [Real.sqrt_sq hR.le]

example := C43_fixed_on_middle_line (-5) 2 1 (by norm_num) (by norm_num)

/-- C43: the deformation is even in the distance (both signs). -/
theorem C43_even (radius a d mu0 : ℝ) : circleCalcMu radius a (-d) mu0 = circleCalcMu radius a d mu0 := by
  unfold circleCalcMu; simp only [abs_neg]

/-- C43: for both signs and distances up to the radius (in volts, `R = |radius| / a`), the returned value is the
point of the documented circle with this distance (its centre lies below `mu0` for positive and above `mu0` for
negative radius, and `mu0` is on its edge) that is closest to `mu0`. -/
theorem C43_on_circle (radius a d mu0 : ℝ) (ha : 0 < a) (hr : radius ≠ 0) (hd : |d| ≤ |radius| / a) :
    Spec.OnCircle (0, mu0 - radius / a) (radius / a) (d, circleCalcMu radius a d mu0) ∧
    ∀ y, Spec.OnCircle (0, mu0 - radius / a) (radius / a) (d, y) →
      |circleCalcMu radius a d mu0 - mu0| ≤ |y - mu0| := by
  have hR : 0 < |radius| / a := div_pos (abs_pos.2 hr) ha
  rw [circleCalcMu_inside ha hr hd]
  have hsq : 0 ≤ (|radius| / a) ^ 2 - d ^ 2 := by
    rw [← sq_abs d]; nlinarith [abs_nonneg d]
  have hs := Real.sq_sqrt hsq
  have hs0 := Real.sqrt_nonneg ((|radius| / a) ^ 2 - d ^ 2)
  set s := Real.sqrt ((|radius| / a) ^ 2 - d ^ 2) with hsdef
  clear_value s
  unfold Spec.OnCircle
  rcases lt_or_gt_of_ne hr with h | h
  · rw [npSign_neg h]
    rw [abs_of_neg h] at hs hR ⊢
    have e : -radius / a = -(radius / a) := by ring
    rw [e] at hs hR ⊢
    generalize radius / a = r at *
    have hsr : s ≤ -r := by nlinarith [sq_nonneg d]
    constructor
    · dsimp only; nlinarith
    · intro y hy
      dsimp only at hy
      have hk : (y - mu0 + r - s) * (y - mu0 + r + s) = 0 := by nlinarith
      rw [show mu0 - (-r - s) * -1 - mu0 = -r - s by ring, abs_of_nonneg (by linarith)]
      rcases mul_eq_zero.1 hk with h1 | h1
      · rw [abs_of_nonneg (by linarith)]; linarith
      · rw [abs_of_nonneg (by linarith)]; linarith
  · rw [npSign_pos h]
    rw [abs_of_pos h] at hs hR ⊢
    generalize radius / a = r at *
    have hsr : s ≤ r := by nlinarith [sq_nonneg d]
    constructor
    · dsimp only; nlinarith
    · intro y hy
      dsimp only at hy
      have hk : (y - mu0 + r - s) * (y - mu0 + r + s) = 0 := by nlinarith
      rw [show mu0 - (r - s) * 1 - mu0 = -(r - s) by ring, abs_neg, abs_of_nonneg (by linarith)]
      rcases mul_eq_zero.1 hk with h1 | h1
      · rw [abs_of_nonpos (by linarith)]; linarith
      · rw [abs_of_nonpos (by linarith)]; linarith

example := C43_on_circle (-5) 2 1 3 (by norm_num) (by norm_num) (by norm_num [abs_of_neg])

/-- C43 (positive radius only): beyond the radius the outermost value of the circle is kept, the deformation is
continuous in the distance, never raises the peak and moves it by at most `radius / a`.
Missing for the full property: negative radii (refuted below) and the unit of the radius (refuted below). -/
theorem C43_positive_radius_partial (radius a mu0 : ℝ) (ha : 0 < a) (hr : 0 < radius) :
    (∀ d, radius / a ≤ |d| → circleCalcMu radius a d mu0 = mu0 - radius / a) ∧
    Continuous (fun d => circleCalcMu radius a d mu0) ∧
    (∀ d, mu0 - radius / a ≤ circleCalcMu radius a d mu0 ∧ circleCalcMu radius a d mu0 ≤ mu0) ∧
    (∀ d e, |d| ≤ |e| → circleCalcMu radius a e mu0 ≤ circleCalcMu radius a d mu0) := by
  have hR : 0 < radius / a := div_pos hr ha
  have habs : |radius| = radius := abs_of_pos hr
  have form : ∀ d, circleCalcMu radius a d mu0 = mu0 - (radius / a - Real.sqrt (max ((radius / a) ^ 2 - d ^ 2) 0)) := by
    intro d
    rcases le_or_gt |d| (radius / a) with h | h
    · rw [circleCalcMu_inside ha hr.ne' (by rwa [habs]), habs, npSign_pos hr, mul_one, max_eq_left]
      rw [← sq_abs d]; nlinarith [abs_nonneg d]
    · rw [circleCalcMu_outside ha hr.ne' (by rwa [habs]), habs, max_eq_right, Real.sqrt_zero, sub_zero]
      rw [← sq_abs d]; nlinarith [abs_nonneg d]
  refine ⟨?_, ?_, ?_, ?_⟩
  · intro d hd
    rw [form, max_eq_right, Real.sqrt_zero, sub_zero]
    rw [← sq_abs d]; nlinarith [abs_nonneg d]
  · rw [show (fun d => circleCalcMu radius a d mu0) = _ from funext form]
    fun_prop
  · intro d
    rw [form]
    have h0 := Real.sqrt_nonneg (max ((radius / a) ^ 2 - d ^ 2) 0)
    have h1 : Real.sqrt (max ((radius / a) ^ 2 - d ^ 2) 0) ≤ radius / a := by
      rw [Real.sqrt_le_left hR.le]
      exact max_le (by nlinarith [sq_nonneg d]) (by positivity)
    constructor <;> linarith
  · intro d e hde
    rw [form, form]
    have : d ^ 2 ≤ e ^ 2 := sq_le_sq.2 hde
    have h2 : Real.sqrt (max ((radius / a) ^ 2 - e ^ 2) 0) ≤ Real.sqrt (max ((radius / a) ^ 2 - d ^ 2) 0) :=
      Real.sqrt_le_sqrt (max_le_max_right _ (by linarith))
    linarith

example := C43_positive_radius_partial 5 2 3 (by norm_num) (by norm_num)

/-- C43 refuted for negative radii: at the radius the peak sits at `mu0 + R`, and immediately beyond it jumps to
`mu0 - R`; the deformation is not continuous, whatever the (negative) radius. -/
theorem C43_negative_radius_refuted (radius a mu0 : ℝ) (ha : 0 < a) (hr : radius < 0) :
    circleCalcMu radius a (-radius / a) mu0 = mu0 + -radius / a ∧
    (∀ d, -radius / a < d → circleCalcMu radius a d mu0 = mu0 - -radius / a) ∧
    ¬ Continuous (fun d => circleCalcMu radius a d mu0) := by
  have hR : 0 < -radius / a := div_pos (by linarith) ha
  have habs : |radius| = -radius := abs_of_neg hr
  have h1 : circleCalcMu radius a (-radius / a) mu0 = mu0 + -radius / a := by
    rw [circleCalcMu_inside ha hr.ne (by rw [habs, abs_of_pos hR]), habs, npSign_neg hr, sub_self, Real.sqrt_zero]
    ring
  have h2 : ∀ d, -radius / a < d → circleCalcMu radius a d mu0 = mu0 - -radius / a := by
    intro d hd
    rw [circleCalcMu_outside ha hr.ne (by rw [habs, abs_of_pos (by linarith)]; exact hd), habs]
  refine ⟨h1, h2, fun hc => ?_⟩
  have hclosed : IsClosed {d | circleCalcMu radius a d mu0 ≤ mu0} := isClosed_le hc continuous_const
  have hsub : Set.Ioi (-radius / a) ⊆ {d | circleCalcMu radius a d mu0 ≤ mu0} := by
    intro d hd
    show circleCalcMu radius a d mu0 ≤ mu0
    rw [h2 d hd]; linarith
  have hmem : -radius / a ∈ closure (Set.Ioi (-radius / a)) := by
    rw [closure_Ioi]; exact Set.self_mem_Ici
  have := hclosed.closure_subset_iff.2 hsub hmem
  have h3 : circleCalcMu radius a (-radius / a) mu0 ≤ mu0 := this
  rw [h1] at h3; linarith

example := C43_negative_radius_refuted (-5) 2 3 (by norm_num) (by norm_num)

/-- C43 refuted for the unit of the radius: the radius is documented as a potential, but with a lever arm norm
different from one the largest shift is not the radius; for norms below one it exceeds the radius. -/
theorem C43_unit_refuted :
    ∃ radius a d mu0 : ℝ, 0 < radius ∧ 0 < a ∧ radius < |circleCalcMu radius a d mu0 - mu0| := by
  refine ⟨1, 1 / 10, 11, 0, by norm_num, by norm_num, ?_⟩
  rw [circleCalcMu_outside (by norm_num) (by norm_num) (by norm_num [abs_of_pos])]
  norm_num [abs_of_pos, abs_of_neg]

/-- C43: the linear deformation keeps the peak on the middle line and is odd around it; its shift is proportional to
the distance converted to a potential. -/
theorem C43_linear (angle a mu0 d : ℝ) :
    linearCalcMu angle a 0 mu0 = mu0 ∧
    linearCalcMu angle a (-d) mu0 - mu0 = -(linearCalcMu angle a d mu0 - mu0) ∧
    linearCalcMu angle a d mu0 - mu0 = d * a * (Real.cos angle / Real.sin angle) := by
  unfold linearCalcMu
  refine ⟨by simp, by ring, ?_⟩
  rw [Real.tan_eq_sin_div_cos, one_div_div]; ring

example : |(3 : ℝ)| ≤ |(5 : ℝ)| / 1 ∧ circleCalcMu 5 1 3 0 = -1 ∧ circleCalcMu (-5) 1 3 0 = 1 := by
  have e : Real.sqrt (16 : ℝ) = 4 := by
    rw [show (16 : ℝ) = 4 ^ 2 by norm_num, Real.sqrt_sq (by norm_num)]
  refine ⟨by norm_num [abs_of_pos], ?_, ?_⟩
  · rw [circleCalcMu_inside (by norm_num) (by norm_num) (by norm_num [abs_of_pos]), npSign_pos (by norm_num)]
    norm_num [abs_of_pos, e]
  · rw [circleCalcMu_inside (by norm_num) (by norm_num) (by norm_num [abs_of_pos]), npSign_neg (by norm_num)]
    norm_num [abs_of_pos, e]

/-! ### C44 -/

/-- C44 refuted: every point strictly above the middle line gets a negative distance and every point strictly below
a positive one, the opposite of the documentation. -/
theorem C44_refuted (mid p : ℝ × ℝ) (m : ℝ) :
    (mid.2 + m * (p.1 - mid.1) < p.2 → middleLineDist mid m p < 0) ∧
    (p.2 < mid.2 + m * (p.1 - mid.1) → 0 < middleLineDist mid m p) := by
  have hn : 0 < norm2 (1, m) := Real.sqrt_pos.2 (by positivity)
  unfold middleLineDist signedDist cross2
  simp only [add_sub_cancel_left, Prod.fst_sub, Prod.snd_sub]
  constructor
  · intro h
    exact div_neg_of_neg_of_pos (by linarith) hn
  · intro h
    exact div_pos (by linarith) hn

/-- C44: the magnitude is right (it is the documented distance up to the sign): the distance is zero exactly on the
middle line, and its negation has the documented sign. Missing: the sign itself (refuted above). -/
theorem C44_negated_partial (mid p : ℝ × ℝ) (m : ℝ) :
    (middleLineDist mid m p = 0 ↔ p.2 = mid.2 + m * (p.1 - mid.1)) ∧
    (0 < -middleLineDist mid m p ↔ mid.2 + m * (p.1 - mid.1) < p.2) ∧
    |middleLineDist mid m p| = |p.2 - (mid.2 + m * (p.1 - mid.1))| / Real.sqrt (1 + m ^ 2) := by
  have hn : 0 < norm2 (1, m) := Real.sqrt_pos.2 (by positivity)
  have hR := C44_refuted mid p m
  have form : middleLineDist mid m p = -(p.2 - (mid.2 + m * (p.1 - mid.1))) / norm2 (1, m) := by
    unfold middleLineDist signedDist cross2
    simp only [add_sub_cancel_left, Prod.fst_sub, Prod.snd_sub]
    ring
  refine ⟨?_, ?_, ?_⟩
  · rw [form, div_eq_zero_iff]
    constructor
    · rintro (h | h)
      · linarith
      · exact absurd h hn.ne'
    · intro h; left; linarith
  · constructor
    · intro h
      by_contra hc
      rcases lt_or_eq_of_le (not_lt.1 hc) with h2 | h2
      · linarith [hR.2 h2]
      · rw [form, h2] at h; simp at h
    · intro h; linarith [hR.1 h]
  · rw [form, abs_div, abs_neg, abs_of_pos hn]
    unfold norm2; simp

/-- C44: consequence for the linear deformation, whose angle is documented relative to points above the line: for an
angle below a right angle, points above the middle line are shifted down although the documented (positive) distance
would shift them up. -/
theorem C44_linear_deformation_refuted (mid p : ℝ × ℝ) (m angle a mu0 : ℝ) (ha : 0 < a) (h0 : 0 < angle)
    (h1 : angle < Real.pi / 2) (hp : mid.2 + m * (p.1 - mid.1) < p.2) :
    linearCalcMu angle a (middleLineDist mid m p) mu0 < mu0 := by
  have h := (C44_refuted mid p m).1 hp
  have hm : 0 < 1 / Real.tan angle := one_div_pos.2 (Real.tan_pos_of_pos_of_lt_pi_div_two h0 h1)
  unfold linearCalcMu
  have : 1 / Real.tan angle * middleLineDist mid m p * a < 0 :=
    mul_neg_of_neg_of_pos (mul_neg_of_pos_of_neg hm h) ha
  simp only; linarith

example := C44_linear_deformation_refuted (0, 0) (0, 1) 1 (Real.pi / 4) 2 3 (by norm_num) (by positivity) (by linarith [Real.pi_pos]) (by norm_num)

example : middleLineDist (0, 0) 1 (0, 1) < 0 := (C44_refuted (0, 0) (0, 1) 1).1 (by norm_num)

end SimCATS
