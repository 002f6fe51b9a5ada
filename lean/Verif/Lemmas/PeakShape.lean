import Verif.Spec.PeakShape
import Verif.Lemmas.RiseSignal
import Verif.Props.SensorScan
import Verif.Props.Deformation
import Verif.Props.ScanSignal
import Verif.Props.Peaks

/-! Lemmas for the shape of deformed peaks. -/

namespace SimCATS

open Spec

theorem arm_pos {s : ScanSensor} {o v q : ℝ × ℝ} (h : MiddleLine s o v q) : 0 < armLength s :=
  Real.sqrt_pos.2 (by have := h.dir; positivity)

theorem arm_norm (s : ScanSensor) : s.alphaNorm = armLength s := rfl

/-- The distance that the sensor computes is positive to the right of the middle line. -/
theorem middle_dist (a q w : ℝ × ℝ) (ha : 0 < a.1) : middleLineDist q (a.2 / a.1) w = rightDist a q w := by
  have h1 : norm2 (1, a.2 / a.1) = Real.sqrt (a.1 ^ 2 + a.2 ^ 2) / a.1 := by
    have : a.1 ^ 2 + a.2 ^ 2 = a.1 ^ 2 * (1 ^ 2 + (a.2 / a.1) ^ 2) := by field_simp
    rw [this, Real.sqrt_mul (by positivity), Real.sqrt_sq ha.le, mul_div_cancel_left₀ _ ha.ne']
    rfl
  have hs : 0 < Real.sqrt (a.1 ^ 2 + a.2 ^ 2) := Real.sqrt_pos.2 (by positivity)
  unfold middleLineDist signedDist cross2 rightDist
  rw [add_sub_cancel_left, h1]
  simp only [Prod.fst_sub, Prod.snd_sub]
  field_simp
  ring

/-- All points of the middle line give the same distances from it. -/
theorem right_shift {a q p : ℝ × ℝ} (ha : 0 < a.1) (h : rightDist a q p = 0) (w : ℝ × ℝ) : rightDist a q w = rightDist a p w := by
  have hs : Real.sqrt (a.1 ^ 2 + a.2 ^ 2) ≠ 0 := (Real.sqrt_pos.2 (by positivity)).ne'
  unfold rightDist at *
  rw [div_eq_zero_iff, or_iff_left hs] at h
  rw [div_left_inj' hs]
  linarith

/-- Potential of the sensor dot at the distance from the point of the peak. -/
theorem potential_along (s : ScanSensor) (o v p w : ℝ × ℝ) (h : 0 < armLength s) :
    potentialAt s 0 o v w = potentialAt s 0 o v p + armLength s * alongDist (s.alphaSensor 0) p w := by
  have e : armLength s * alongDist (s.alphaSensor 0) p w =
      (w.1 - p.1) * (s.alphaSensor 0).1 + (w.2 - p.2) * (s.alphaSensor 0).2 := mul_div_cancel₀ _ h.ne'
  rw [e]
  unfold potentialAt
  ring

/-- The middle point that the sensor computes. -/
theorem middle_point {s : ScanSensor} {o v q : ℝ × ℝ} (h : MiddleLine s o v q) (x : ScanState) (hx : firstOcc x.occ = .ok o)
    (hv : (x.g1.1, x.g2.1) = v) : s.calcPoint x s.barrier1.pinchOff s.barrier2.pinchOff true = .ok q := by
  obtain ⟨m, hm⟩ : ∃ m, s.calcPoint x s.barrier1.pinchOff s.barrier2.pinchOff true = .ok m := by
    unfold ScanSensor.calcPoint
    rw [hx]
    exact ⟨_, rfl⟩
  obtain ⟨h1, h2⟩ := C24_partial s x _ _ o m h.det h.eps hx hm h.occ
  rw [hv, mu_at] at h1 h2
  rw [hm, point_unique s o v m q h.det (h1.trans h.pinch1.symm) (h2.trans h.pinch2.symm)]

/-- Signals of the direct use of a sensor with deformations. -/
theorem direct_run {s : ScanSensor} {o q : ℝ × ℝ} {g1 g2 : VoltArg} (h : MiddleLine s o (g1.lims.1, g2.lims.1) q) (hd : s.defs ≠ [])
    (r c : ℕ) (hr : 2 ≤ r) (hc : 2 ≤ c) (h1 : g1.isArr = false) (h2 : g2.isArr = false) (s1 s2 : ℝ × ℝ) (st : Option ScanState) :
    ((s.potential (.d2 r c fun _ _ => o) g1 g2 (.arr s1) (.arr s2) >>= fun mu => s.response mu) st).1 =
      .ok (.d2 r c fun i j => withDot s o (g1.lims.1, g2.lims.1) (sweepVolt s1 c j, sweepVolt s2 r i)
        (s.peakFunc (potentialAt s 0 o (g1.lims.1, g2.lims.1) (sweepVolt s1 c j, sweepVolt s2 r i)) (sweepVolt s1 c j, sweepVolt s2 r i) q)) := by
  have hm : s.calcPoint ⟨g1.lims, g2.lims, s1, s2, .d2 r c fun _ _ => o⟩ s.barrier1.pinchOff s.barrier2.pinchOff true = .ok q :=
    middle_point h _ (by simp only [firstOcc]; rw [dif_pos (by omega)]) rfl
  rw [C26_direct_partial s hd r c hr hc (fun _ _ => o) g1 g2 h1 h2 s1 s2 q hm st]
  simp only [bentResponse, withDot, mu_at, series_inSeries]

/-- The peaks with their deformations. -/
theorem peakFunc_some {s : ScanSensor} {ps : List Peak} (hp : s.peaks = some ps) (mu : ℝ) (w q : ℝ × ℝ) :
    s.peakFunc mu w q = (ps.mapIdx fun idx p =>
      match lookupDef s.defs idx with
      | some d => ({ p with mu0 := d.calcMu s.alphaNorm (middleLineDist q s.slope w) p.mu0 } : Peak).eval mu
      | none => p.eval mu).sum := by
  unfold ScanSensor.peakFunc
  rw [hp]
  rfl

/-- Moving a peak is moving the potential. -/
theorem peak_moved (p : Peak) (m mu mu' : ℝ) (h : mu - m = mu' - p.mu0) : ({ p with mu0 := m } : Peak).eval mu = p.eval mu' := by
  obtain ⟨k, c, w, y, z⟩ := p
  simp only at h
  cases k <;> simp only [Peak.eval, gaussResponse, lorentzResponse, h]

/-- A peak is at its top exactly at its own potential, also in series with open barriers. -/
theorem top_iff {s : ScanSensor} {o v w : ℝ × ℝ} {p : Peak} (hw : 0 < p.width) (hh : 0 < p.height) (ho : 0 ≤ p.offset)
    (b1 : 0 < s.barrier1.value (potentialAt s 1 o v w)) (b2 : 0 < s.barrier2.value (potentialAt s 2 o v w)) (mu : ℝ) :
    withDot s o v w (p.eval mu) ≤ withDot s o v w (p.offset + p.height) ∧
      (withDot s o v w (p.eval mu) = withDot s o v w (p.offset + p.height) ↔ mu = p.mu0) := by
  obtain ⟨c1, c2, c3, -, -⟩ := C20_peak p p ((C20_width_validation p).2.2 hw) hh
  have hpos : 0 < p.eval mu := lt_of_le_of_lt ho (c1 mu)
  unfold withDot
  rw [← series_inSeries, ← series_inSeries]
  by_cases h : mu = p.mu0
  · rw [h, c2]
    exact ⟨le_rfl, iff_of_true rfl rfl⟩
  · have := series_strictMono_first _ _ _ _ hpos b1 b2 (c3 mu h)
    exact ⟨this.le, iff_of_false this.ne h⟩

/-- The deformation of a peak in the dictionary. -/
theorem lookup_def (defs : List (ℕ × Deform)) (k : ℕ) : lookupDef defs k = defs.lookup k := by
  unfold lookupDef
  induction defs with
  | nil => rfl
  | cons e l ih =>
    obtain ⟨a, d⟩ := e
    rw [List.find?_cons, List.lookup_cons]
    by_cases h : a = k
    · subst h
      simp
    · have h1 : (a == k) = false := by simpa using h
      have h2 : (k == a) = false := by simpa using fun e : k = a => h e.symm
      simp only [h1, h2]
      exact ih

/-- Signals of the direct use of a sensor with one deformed peak. -/
theorem direct_one {s : ScanSensor} {o q : ℝ × ℝ} {g1 g2 : VoltArg} (h : MiddleLine s o (g1.lims.1, g2.lims.1) q) {p : Peak} {d : Deform}
    (hp : s.peaks = some [p]) (hd : s.defs = [(0, d)]) (r c : ℕ) (hr : 2 ≤ r) (hc : 2 ≤ c) (h1 : g1.isArr = false) (h2 : g2.isArr = false)
    (s1 s2 p0 : ℝ × ℝ) (h0 : PeakPoint s o (g1.lims.1, g2.lims.1) q p.mu0 p0) (st : Option ScanState) :
    ((s.potential (.d2 r c fun _ _ => o) g1 g2 (.arr s1) (.arr s2) >>= fun mu => s.response mu) st).1 =
      .ok (.d2 r c fun i j => withDot s o (g1.lims.1, g2.lims.1) (sweepVolt s1 c j, sweepVolt s2 r i)
        (({ p with mu0 := d.calcMu (armLength s) (rightDist (s.alphaSensor 0) p0 (sweepVolt s1 c j, sweepVolt s2 r i)) p.mu0 } : Peak).eval
          (p.mu0 + armLength s * alongDist (s.alphaSensor 0) p0 (sweepVolt s1 c j, sweepVolt s2 r i)))) := by
  rw [direct_run h (by rw [hd]; exact List.cons_ne_nil _ _) r c hr hc h1 h2 s1 s2 st]
  congr 2
  funext i j
  rw [peakFunc_some hp, potential_along s o _ p0 _ (arm_pos h), h0.2, ← right_shift h.dir h0.1, ← middle_dist _ _ _ h.dir, hd]
  simp only [List.mapIdx_cons, List.mapIdx_nil, List.sum_cons, List.sum_nil, add_zero, lookupDef, List.find?_cons, beq_self_eq_true,
    Option.map_some]
  rfl

/-- Points of a tilted line. -/
theorem tilted_iff (a p : ℝ × ℝ) (angle : ℝ) (w : ℝ × ℝ) (h : Real.sin angle ≠ 0) :
    OnTilted a p angle w ↔ alongDist a p w = rightDist a p w * (Real.cos angle / Real.sin angle) := by
  constructor
  · rintro ⟨t, e1, e2⟩
    rw [e1, e2]
    field_simp
  · intro e
    exact ⟨rightDist a p w / Real.sin angle, by rw [e]; field_simp, by field_simp⟩

/-- The potential of a circle at a distance up to the radius. -/
theorem circle_iff {radius a x y : ℝ} (ha : 0 < a) (hr : radius ≠ 0) (hy : |y| ≤ |radius| / a) :
    a * x = -((|radius| / a - Real.sqrt ((|radius| / a) ^ 2 - y ^ 2)) * npSign radius) ↔
      (a * x + radius / a) ^ 2 + y ^ 2 = (radius / a) ^ 2 ∧ 0 ≤ radius / a * (a * x + radius / a) := by
  have hR : 0 < |radius| / a := div_pos (abs_pos.2 hr) ha
  have hsq : 0 ≤ (|radius| / a) ^ 2 - y ^ 2 := by
    rw [← sq_abs y]
    nlinarith [abs_nonneg y]
  have hs := Real.sq_sqrt hsq
  have hs0 := Real.sqrt_nonneg ((|radius| / a) ^ 2 - y ^ 2)
  generalize Real.sqrt ((|radius| / a) ^ 2 - y ^ 2) = t at *
  rcases lt_or_gt_of_ne hr with h | h
  · rw [npSign_neg h, abs_of_neg h] at *
    rw [neg_div] at hR hs ⊢
    generalize radius / a = k at hR hs ⊢
    clear hsq hy
    constructor
    · intro hx
      have : a * x + k = -t := by linarith
      rw [this]
      constructor <;> nlinarith
    · rintro ⟨h1, h2⟩
      have h3 : a * x + k ≤ 0 := by nlinarith
      have h4 : (a * x + k) ^ 2 = t ^ 2 := by nlinarith
      have h5 : a * x + k = -t := by
        rcases sq_eq_sq_iff_eq_or_eq_neg.1 h4 with e | e
        · linarith
        · exact e
      linarith
  · rw [npSign_pos h, abs_of_pos h] at *
    generalize radius / a = k at *
    constructor
    · intro hx
      have : a * x + k = t := by linarith
      rw [this]
      constructor <;> nlinarith
    · rintro ⟨h1, h2⟩
      have h3 : 0 ≤ a * x + k := by nlinarith
      have h4 : (a * x + k) ^ 2 = t ^ 2 := by nlinarith
      have h5 : a * x + k = t := by
        rcases sq_eq_sq_iff_eq_or_eq_neg.1 h4 with e | e
        · exact e
        · linarith
      linarith

end SimCATS
