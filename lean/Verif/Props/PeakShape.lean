import Verif.Lemmas.PeakShape

/-! Property C102: deformed peaks have the documented shape in the plane of the sensor gate voltages. -/

namespace SimCATS

open Spec

/-- C102, the part that holds for linear deformations: used directly (`sensor_potential` followed by `sensor_response`), the sensor sums its
peaks, each at the distance of the pixel from its own straight line, which goes through the point of the middle line with the potential of the
peak and is perpendicular to the middle line or tilted to the angle of its deformation. Missing: `measure_sensor_scan`, see `C102_scan_actual`. -/
theorem C102_lines_partial (s : ScanSensor) (o q : ℝ × ℝ) (g1 g2 : VoltArg) (h : MiddleLine s o (g1.lims.1, g2.lims.1) q) (ps : List Peak)
    (hp : s.peaks = some ps) (hd : s.defs ≠ []) (hl : ∀ e ∈ s.defs, ∃ angle, e.2 = .linear angle ∧ Real.sin angle ≠ 0) (r c : ℕ) (hr : 2 ≤ r) (hc : 2 ≤ c)
    (h1 : g1.isArr = false) (h2 : g2.isArr = false) (s1 s2 : ℝ × ℝ) (p0 : ℕ → ℝ × ℝ)
    (h0 : ∀ k p, ps[k]? = some p → PeakPoint s o (g1.lims.1, g2.lims.1) q p.mu0 (p0 k)) (st : Option ScanState) :
    ∃ f, ((s.potential (.d2 r c fun _ _ => o) g1 g2 (.arr s1) (.arr s2) >>= fun mu => s.response mu) st).1 = .ok (.d2 r c f) ∧
      ∀ i j, f i j = withDot s o (g1.lims.1, g2.lims.1) (sweepVolt s1 c j, sweepVolt s2 r i)
        (ps.mapIdx fun k p => peakSignal p (p.mu0 + armLength s *
          behindLine (s.alphaSensor 0) (p0 k) (s.defs.lookup k) (sweepVolt s1 c j, sweepVolt s2 r i))).sum := by
  refine ⟨_, direct_run h hd r c hr hc h1 h2 s1 s2 st, fun i j => ?_⟩
  generalize (sweepVolt s1 c j, sweepVolt s2 r i) = w
  rw [peakFunc_some hp]
  congr 2
  apply List.ext_getElem?
  intro k
  rw [List.getElem?_mapIdx, List.getElem?_mapIdx]
  cases hk : ps[k]? with
  | none => rfl
  | some p =>
    have hk0 := h0 k p hk
    simp only [Option.map_some, Option.some.injEq]
    rw [lookup_def, ← peak_eval_signal, potential_along s o _ (p0 k) w (arm_pos h), hk0.2]
    cases hx : s.defs.lookup k with
    | none => rfl
    | some d =>
      obtain ⟨angle, rfl⟩ : ∃ angle, d = .linear angle := by
        have : ∀ l : List (ℕ × Deform), (∀ e ∈ l, ∃ angle, e.2 = .linear angle ∧ Real.sin angle ≠ 0) → l.lookup k = some d → ∃ angle, d = .linear angle := by
          intro l
          induction l with
          | nil => intro _ e; exact nomatch e
          | cons e l ih =>
            intro ha e'
            rw [List.lookup_cons] at e'
            split at e'
            · cases e'
              obtain ⟨angle, ha, -⟩ := ha _ List.mem_cons_self
              exact ⟨angle, ha⟩
            · exact ih (fun e he => ha e (List.mem_cons_of_mem _ he)) e'
        exact this s.defs hl hx
      refine peak_moved p _ _ _ ?_
      have hm : middleLineDist q s.slope w = rightDist (s.alphaSensor 0) (p0 k) w :=
        (middle_dist _ _ _ h.dir).trans (right_shift h.dir hk0.1 w)
      simp only [Deform.calcMu, behindLine, hm]
      have := (C43_linear angle s.alphaNorm p.mu0 (rightDist (s.alphaSensor 0) (p0 k) w)).2.2
      rw [arm_norm] at *
      linarith

/-- C102, the part that holds: used directly, a sensor with one linearly deformed peak shows the top of the peak exactly at the pixels on the
straight line through the point of the middle line with the potential of the peak, at the documented angle to the middle line (above the line
and to the right of the middle line), and less signal at all others. -/
theorem C102_line_partial (s : ScanSensor) (o q : ℝ × ℝ) (g1 g2 : VoltArg) (h : MiddleLine s o (g1.lims.1, g2.lims.1) q) (p : Peak)
    (angle : ℝ) (hp : s.peaks = some [p]) (hd : s.defs = [(0, .linear angle)]) (ha : Real.sin angle ≠ 0) (hw : 0 < p.width)
    (hh : 0 < p.height) (ho : 0 ≤ p.offset) (r c : ℕ) (hr : 2 ≤ r) (hc : 2 ≤ c) (h1 : g1.isArr = false) (h2 : g2.isArr = false)
    (s1 s2 p0 : ℝ × ℝ) (h0 : PeakPoint s o (g1.lims.1, g2.lims.1) q p.mu0 p0) (st : Option ScanState) :
    ∃ f, ((s.potential (.d2 r c fun _ _ => o) g1 g2 (.arr s1) (.arr s2) >>= fun mu => s.response mu) st).1 = .ok (.d2 r c f) ∧
      ∀ (i : Fin r) (j : Fin c) (w : ℝ × ℝ), w = (sweepVolt s1 c j, sweepVolt s2 r i) →
        0 < s.barrier1.value (potentialAt s 1 o (g1.lims.1, g2.lims.1) w) → 0 < s.barrier2.value (potentialAt s 2 o (g1.lims.1, g2.lims.1) w) →
        f i j ≤ withDot s o (g1.lims.1, g2.lims.1) w (p.offset + p.height) ∧
        (f i j = withDot s o (g1.lims.1, g2.lims.1) w (p.offset + p.height) ↔ OnTilted (s.alphaSensor 0) p0 angle w) := by
  refine ⟨_, direct_one h hp hd r c hr hc h1 h2 s1 s2 p0 h0 st, ?_⟩
  rintro i j w rfl b1 b2
  generalize (sweepVolt s1 c j, sweepVolt s2 r i) = w at *
  have hA := arm_pos h
  set m := Deform.calcMu (.linear angle) (armLength s) (rightDist (s.alphaSensor 0) p0 w) p.mu0 with hm
  have key := top_iff (p := { p with mu0 := m }) hw hh ho b1 b2 (p.mu0 + armLength s * alongDist (s.alphaSensor 0) p0 w)
  refine ⟨key.1, key.2.trans ?_⟩
  rw [tilted_iff _ _ _ _ ha]
  have e : m - p.mu0 = _ := (C43_linear angle (armLength s) p.mu0 (rightDist (s.alphaSensor 0) p0 w)).2.2
  have e' : m = p.mu0 + armLength s * (rightDist (s.alphaSensor 0) p0 w * (Real.cos angle / Real.sin angle)) := by linarith
  change _ = m ↔ _
  rw [e', add_right_inj, mul_right_inj' hA.ne']

/-- C102, exact behaviour of circles: used directly, a sensor with one peak that is deformed with a circle shows the top of the peak, at distances
from the middle line of at most the radius in volts (radius / length of the lever arms), exactly at the pixels on half an ellipse: the circle
divided by the length of the lever arms in the direction of the middle line. Farther away, the top is on a straight line perpendicular to the
middle line. -/
theorem C102_circle_actual (s : ScanSensor) (o q : ℝ × ℝ) (g1 g2 : VoltArg) (h : MiddleLine s o (g1.lims.1, g2.lims.1) q) (p : Peak)
    (radius : ℝ) (hp : s.peaks = some [p]) (hd : s.defs = [(0, .circle radius)]) (ha : radius ≠ 0) (hw : 0 < p.width)
    (hh : 0 < p.height) (ho : 0 ≤ p.offset) (r c : ℕ) (hr : 2 ≤ r) (hc : 2 ≤ c) (h1 : g1.isArr = false) (h2 : g2.isArr = false)
    (s1 s2 p0 : ℝ × ℝ) (h0 : PeakPoint s o (g1.lims.1, g2.lims.1) q p.mu0 p0) (st : Option ScanState) :
    ∃ f, ((s.potential (.d2 r c fun _ _ => o) g1 g2 (.arr s1) (.arr s2) >>= fun mu => s.response mu) st).1 = .ok (.d2 r c f) ∧
      ∀ (i : Fin r) (j : Fin c) (w : ℝ × ℝ), w = (sweepVolt s1 c j, sweepVolt s2 r i) →
        0 < s.barrier1.value (potentialAt s 1 o (g1.lims.1, g2.lims.1) w) → 0 < s.barrier2.value (potentialAt s 2 o (g1.lims.1, g2.lims.1) w) →
        f i j ≤ withDot s o (g1.lims.1, g2.lims.1) w (p.offset + p.height) ∧
        (|rightDist (s.alphaSensor 0) p0 w| ≤ |radius| / armLength s →
          (f i j = withDot s o (g1.lims.1, g2.lims.1) w (p.offset + p.height) ↔
            OnStretchedArc (s.alphaSensor 0) p0 (armLength s) (radius / armLength s) w)) ∧
        (|radius| / armLength s < |rightDist (s.alphaSensor 0) p0 w| →
          (f i j = withDot s o (g1.lims.1, g2.lims.1) w (p.offset + p.height) ↔
            alongDist (s.alphaSensor 0) p0 w = -(|radius| / armLength s) / armLength s)) := by
  refine ⟨_, direct_one h hp hd r c hr hc h1 h2 s1 s2 p0 h0 st, ?_⟩
  rintro i j w rfl b1 b2
  generalize (sweepVolt s1 c j, sweepVolt s2 r i) = w at *
  have hA := arm_pos h
  set m := Deform.calcMu (.circle radius) (armLength s) (rightDist (s.alphaSensor 0) p0 w) p.mu0 with hm
  have key := top_iff (p := { p with mu0 := m }) hw hh ho b1 b2 (p.mu0 + armLength s * alongDist (s.alphaSensor 0) p0 w)
  refine ⟨key.1, fun hy => key.2.trans ?_, fun hy => key.2.trans ?_⟩
  · have e : m = _ := circleCalcMu_inside (mu0 := p.mu0) hA ha hy
    change _ = m ↔ _
    unfold OnStretchedArc
    rw [← circle_iff hA ha hy, e, sub_eq_add_neg, add_right_inj]
  · have e : m = _ := circleCalcMu_outside (mu0 := p.mu0) hA ha hy
    change _ = m ↔ _
    rw [e, sub_eq_add_neg, add_right_inj, eq_div_iff hA.ne', mul_comm]

/-- C102, the part that holds for circles: if the lever arms of the sensor dot have length 1, the top of a peak that is deformed with a circle is
on the documented circle. -/
theorem C102_circle_partial (s : ScanSensor) (o q : ℝ × ℝ) (g1 g2 : VoltArg) (h : MiddleLine s o (g1.lims.1, g2.lims.1) q) (p : Peak)
    (radius : ℝ) (hp : s.peaks = some [p]) (hd : s.defs = [(0, .circle radius)]) (ha : radius ≠ 0) (hA : armLength s = 1) (hw : 0 < p.width)
    (hh : 0 < p.height) (ho : 0 ≤ p.offset) (r c : ℕ) (hr : 2 ≤ r) (hc : 2 ≤ c) (h1 : g1.isArr = false) (h2 : g2.isArr = false)
    (s1 s2 p0 : ℝ × ℝ) (h0 : PeakPoint s o (g1.lims.1, g2.lims.1) q p.mu0 p0) (st : Option ScanState) :
    ∃ f, ((s.potential (.d2 r c fun _ _ => o) g1 g2 (.arr s1) (.arr s2) >>= fun mu => s.response mu) st).1 = .ok (.d2 r c f) ∧
      ∀ (i : Fin r) (j : Fin c) (w : ℝ × ℝ), w = (sweepVolt s1 c j, sweepVolt s2 r i) →
        0 < s.barrier1.value (potentialAt s 1 o (g1.lims.1, g2.lims.1) w) → 0 < s.barrier2.value (potentialAt s 2 o (g1.lims.1, g2.lims.1) w) →
        |rightDist (s.alphaSensor 0) p0 w| ≤ |radius| →
        (f i j = withDot s o (g1.lims.1, g2.lims.1) w (p.offset + p.height) ↔ OnArc (s.alphaSensor 0) p0 radius w) := by
  obtain ⟨f, e, hf⟩ := C102_circle_actual s o q g1 g2 h p radius hp hd ha hw hh ho r c hr hc h1 h2 s1 s2 p0 h0 st
  refine ⟨f, e, fun i j w hw' b1 b2 hy => ?_⟩
  have := (hf i j w hw' b1 b2).2.1 (by rw [hA, div_one]; exact hy)
  rw [this, hA, div_one]
  simp only [OnStretchedArc, OnArc, one_mul]

/-- C102, what happens in `measure_sensor_scan`: each peak is moved by the same potential at all pixels, so that its line stays straight and
perpendicular to the middle line, whatever its deformation is. -/
theorem C102_scan_actual {τ : Type} (sim : ScanSim τ) (hd : sim.sensor.defs ≠ []) (hp : sim.potD = none) (hr : sim.respD = none)
    (ps : List Peak) (hps : sim.sensor.peaks = some ps) (rq : ScanRequest) (s s' : Option ScanState × τ) (scan : Scan ℝ) (area peaks : Scan ℕ)
    (h : measureSensorScan sim rq s = (.ok (scan, area, peaks), s')) :
    ∃ (r1 r2 : ℝ × ℝ) (at_ : ℕ → ℝ) (occ : Scan (ℝ × ℝ)) (mu : Scan (Fin 3 → ℝ)) (st st' : Option ScanState),
      scanCheck sim.lim true rq = .ok (r1, r2) ∧ sim.sensor.potential occ rq.g1 rq.g2 (.arr r1) (.arr r2) st = (.ok mu, st') ∧
      scan = mu.map fun m => inSeries (ps.mapIdx fun k p => peakSignal { p with mu0 := at_ k } (m 0)).sum
        (sim.sensor.barrier1.value (m 1)) (sim.sensor.barrier2.value (m 2)) := by
  obtain ⟨r1, r2, w, mid, occ, mu, st, st', e1, e2, e3⟩ := C26_actual sim hd hp hr rq s s' scan area peaks h
  refine ⟨r1, r2, fun k => match sim.sensor.defs.lookup k, ps[k]? with
    | some d, some p => d.calcMu sim.sensor.alphaNorm (middleLineDist mid sim.sensor.slope w) p.mu0
    | none, some p => p.mu0
    | _, none => 0, occ, mu, st, st', e1, e2, ?_⟩
  rw [e3]
  congr 1
  funext m
  unfold bentResponse
  rw [series_inSeries, peakFunc_some hps]
  congr 2
  apply List.ext_getElem?
  intro k
  rw [List.getElem?_mapIdx, List.getElem?_mapIdx]
  cases hk : ps[k]? with
  | none => rfl
  | some p =>
    simp only [Option.map_some, Option.some.injEq, lookup_def, ← peak_eval_signal, hk]
    cases sim.sensor.defs.lookup k <;> rfl

theorem bent_middle (d : Deform) : MiddleLine { bentPeak with defs := [(0, d)] } (0, 0) (0, 0) (-10, -10) := by
  refine ⟨?_, ?_, Or.inl rfl, Or.inl rfl, ?_, ?_⟩
  · change (0 : ℝ) < 1
    norm_num
  · change (1 : ℝ) * 1 - 0 * 0 ≠ 0
    norm_num
  · change (0 : ℝ) + (0 * 0 + 0 * 0) + (0 * 0 + 0 * 0) + (1 * -10 + 0 * -10) = -10
    norm_num
  · change (0 : ℝ) + (0 * 0 + 0 * 0) + (0 * 0 + 0 * 0) + (0 * -10 + 1 * -10) = -10
    norm_num

theorem bent_point (d : Deform) : PeakPoint { bentPeak with defs := [(0, d)] } (0, 0) (0, 0) (-10, -10) 0 (0, 0) := by
  constructor
  · change ((0 - -10 : ℝ) * 1 - (0 - -10) * 1) / Real.sqrt (1 ^ 2 + 1 ^ 2) = 0
    norm_num
  · change (0 : ℝ) + (0 * 0 + 0 * 0) + (0 * 0 + 0 * 0) + (1 * 0 + 1 * 0) = 0
    norm_num

/-- C102 is refuted for `measure_sensor_scan`: the first pixel, at the sensor gate voltages 1 and 0, is on the line of the peak, but does not
show its top. -/
theorem C102_scan_refuted : ∃ (sim : ScanSim Unit) (rq : ScanRequest) (f : Fin 2 → ℝ) (c p : Scan ℕ) (t : Option ScanState × Unit),
    sim.sensor = bentPeak ∧ sim.potD = none ∧ sim.respD = none ∧ rq = ⟨[1, 2], [0, 0], .none, .none, .int 2⟩ ∧
    measureSensorScan sim rq (none, ()) = (.ok (.d1 2 f, c, p), t) ∧ OnTilted (bentPeak.alphaSensor 0) (0, 0) (Real.pi / 4) (1, 0) ∧
    f 0 ≠ withDot bentPeak (0, 0) (0, 0) (1, 0) (0 + 1) := by
  obtain ⟨sim, rq, f, f', c, p, t, t', h1, h2, h3, h4, h5, -, h7, -⟩ := C26_refuted
  refine ⟨sim, rq, f, c, p, t, h1, h2, h3, h4, h5, ?_, ?_⟩
  · refine ⟨1, ?_, ?_⟩
    · rw [Real.cos_pi_div_four]
      change ((1 - 0 : ℝ) * 1 + (0 - 0) * 1) / Real.sqrt (1 ^ 2 + 1 ^ 2) = _
      rw [show (1 : ℝ) ^ 2 + 1 ^ 2 = 2 by norm_num, div_eq_iff (by positivity)]
      have := Real.mul_self_sqrt (show (0 : ℝ) ≤ 2 by norm_num)
      nlinarith
    · rw [Real.sin_pi_div_four]
      change ((1 - 0 : ℝ) * 1 - (0 - 0) * 1) / Real.sqrt (1 ^ 2 + 1 ^ 2) = _
      rw [show (1 : ℝ) ^ 2 + 1 ^ 2 = 2 by norm_num, div_eq_iff (by positivity)]
      have := Real.mul_self_sqrt (show (0 : ℝ) ≤ 2 by norm_num)
      nlinarith
  · rw [h7]
    change (1 / 4 : ℝ) ≠ inSeries (0 + 1) 1 1
    norm_num [inSeries]

/-- C102 is refuted for circles: with lever arms (1, 1) and radius 2, the pixel at the sensor gate voltages 0 and -2 is on the documented circle
(its radius is 2 divided by the length of the lever arms), but does not show the top of the peak. -/
theorem C102_circle_refuted (st : Option ScanState) : ∃ f : Fin 2 → Fin 2 → ℝ,
    (({ bentPeak with defs := [(0, .circle 2)] }.potential (.d2 2 2 fun _ _ => (0, 0)) .none .none (.arr (0, 1)) (.arr (-2, 0)) >>=
      fun mu => ScanSensor.response { bentPeak with defs := [(0, .circle 2)] } mu) st).1 = .ok (.d2 2 2 f) ∧
    OnArc (bentPeak.alphaSensor 0) (0, 0) (2 / armLength bentPeak) (0, -2) ∧ f 0 0 ≠ withDot bentPeak (0, 0) (0, 0) (0, -2) (0 + 1) := by
  obtain ⟨f, e, hf⟩ := C102_circle_actual { bentPeak with defs := [(0, .circle 2)] } (0, 0) (-10, -10) .none .none (bent_middle _)
    ⟨.lorentzian, 0, 1, 1, 0⟩ 2 rfl rfl (by norm_num) (by norm_num) (by norm_num) le_rfl 2 2 le_rfl le_rfl rfl rfl (0, 1) (-2, 0) (0, 0)
    (bent_point _) st
  refine ⟨f, e, ?_, ?_⟩
  · have ea : alongDist (bentPeak.alphaSensor 0) (0, 0) (0, -2) = -(2 / armLength bentPeak) := by
      change ((0 - 0 : ℝ) * 1 + (-2 - 0) * 1) / armLength bentPeak = _
      rw [← neg_div]
      norm_num
    have eb : rightDist (bentPeak.alphaSensor 0) (0, 0) (0, -2) = 2 / armLength bentPeak := by
      change ((0 - 0 : ℝ) * 1 - (-2 - 0) * 1) / armLength bentPeak = _
      norm_num
    unfold OnArc
    rw [ea, eb]
    constructor
    · ring
    · simp
  · intro htop
    have ew : ((0 : ℝ), (-2 : ℝ)) = (sweepVolt (0, 1) 2 (0 : Fin 2), sweepVolt (-2, 0) 2 (0 : Fin 2)) := by simp [sweepVolt]
    have hL : armLength bentPeak = Real.sqrt 2 := by
      change Real.sqrt (1 ^ 2 + 1 ^ 2) = _
      norm_num
    have hs : 0 < Real.sqrt 2 := by positivity
    have hs2 := Real.mul_self_sqrt (show (0 : ℝ) ≤ 2 by norm_num)
    have h2 := ((hf 0 0 (0, -2) ew (by change (0 : ℝ) < 1; norm_num) (by change (0 : ℝ) < 1; norm_num)).2.1 (by
      change |((0 - 0 : ℝ) * 1 - (-2 - 0) * 1) / armLength bentPeak| ≤ |2| / armLength bentPeak
      rw [abs_div, abs_of_pos (a := armLength bentPeak) (by rw [hL]; exact hs)]
      norm_num)).1 htop
    have h3 := h2.1
    change (armLength bentPeak * (((0 - 0 : ℝ) * 1 + (-2 - 0) * 1) / armLength bentPeak) + 2 / armLength bentPeak) ^ 2 +
      (((0 - 0 : ℝ) * 1 - (-2 - 0) * 1) / armLength bentPeak) ^ 2 = (2 / armLength bentPeak) ^ 2 at h3
    rw [mul_div_cancel₀ _ (by rw [hL]; exact hs.ne'), hL] at h3
    rw [show (0 - 0 : ℝ) * 1 + (-2 - 0) * 1 = -2 by norm_num, show (0 - 0 : ℝ) * 1 - (-2 - 0) * 1 = 2 by norm_num] at h3
    have h4 : (-2 + 2 / Real.sqrt 2) = 0 := by
      have : (-2 + 2 / Real.sqrt 2) ^ 2 = 0 := by linarith
      exact pow_eq_zero_iff (two_ne_zero) |>.1 this
    have h5 : 2 / Real.sqrt 2 = 2 := by linarith
    rw [div_eq_iff hs.ne'] at h5
    nlinarith

/-- Non-vacuity: the peak of the sensor is tilted to a horizontal line (angle of 45 degrees to the diagonal): in an image of 3 × 3 pixels the middle row
shows its top, the pixel in the middle of the first row does not. -/
example : ∃ f : Fin 3 → Fin 3 → ℝ, ((bentPeak.potential (.d2 3 3 fun _ _ => (0, 0)) .none .none (.arr (-1, 1)) (.arr (-1, 1)) >>=
      fun mu => bentPeak.response mu) none).1 = .ok (.d2 3 3 f) ∧ f 1 0 = 1 / 3 ∧ f 0 1 < 1 / 3 := by
  have hsin : Real.sin (Real.pi / 4) ≠ 0 := by
    rw [Real.sin_pi_div_four]
    positivity
  obtain ⟨f, e, hf⟩ := C102_line_partial bentPeak (0, 0) (-10, -10) .none .none (bent_middle _)
    ⟨.lorentzian, 0, 1, 1, 0⟩ (Real.pi / 4) rfl rfl hsin (by norm_num) (by norm_num) le_rfl 3 3 (by norm_num) (by norm_num) rfl rfl
    (-1, 1) (-1, 1) (0, 0) (bent_point _) none
  have htop : ∀ w, withDot bentPeak (0, 0) (0, 0) w (0 + 1) = 1 / 3 := by
    intro w
    change inSeries (0 + 1) 1 1 = _
    norm_num [inSeries]
  have ht : ∀ w : ℝ × ℝ, OnTilted (bentPeak.alphaSensor 0) (0, 0) (Real.pi / 4) w ↔ w.2 = 0 := by
    intro w
    rw [tilted_iff _ _ _ _ hsin, Real.sin_pi_div_four, Real.cos_pi_div_four, div_self (by positivity), mul_one]
    change ((w.1 - 0) * 1 + (w.2 - 0) * 1) / Real.sqrt (1 ^ 2 + 1 ^ 2) = ((w.1 - 0) * 1 - (w.2 - 0) * 1) / Real.sqrt (1 ^ 2 + 1 ^ 2) ↔ _
    rw [div_left_inj' (by positivity)]
    constructor <;> intro h <;> linarith
  refine ⟨f, e, ?_, ?_⟩
  · have h := (hf 1 0 _ rfl (by change (0 : ℝ) < 1; norm_num) (by change (0 : ℝ) < 1; norm_num)).2
    exact (h.2 ((ht _).2 (by norm_num [sweepVolt]))).trans (htop _)
  · have h := hf 0 1 _ rfl (by change (0 : ℝ) < 1; norm_num) (by change (0 : ℝ) < 1; norm_num)
    have h1 := h.1.trans_eq (htop _)
    refine lt_of_le_of_ne h1 fun hc => ?_
    have := (ht _).1 (h.2.1 (hc.trans (htop _).symm))
    norm_num [sweepVolt] at this

/-- Non-vacuity of the circle: a sensor with lever arms of length 1. -/
example : ∃ s : ScanSensor, s.defs = [(0, .circle 2)] ∧ MiddleLine s (0, 0) (0, 0) (-10, -10) ∧ armLength s = 1 ∧
    PeakPoint s (0, 0) (0, 0) (-10, -10) 0 (0, -10) := by
  refine ⟨{ bentPeak with defs := [(0, .circle 2)], alphaSensor := ![(1, 0), (1, 0), (0, 1)] }, rfl, ⟨?_, ?_, Or.inl rfl, Or.inl rfl, ?_, ?_⟩, ?_, ?_, ?_⟩
  · change (0 : ℝ) < 1
    norm_num
  · change (1 : ℝ) * 1 - 0 * 0 ≠ 0
    norm_num
  · change (0 : ℝ) + (0 * 0 + 0 * 0) + (0 * 0 + 0 * 0) + (1 * -10 + 0 * -10) = -10
    norm_num
  · change (0 : ℝ) + (0 * 0 + 0 * 0) + (0 * 0 + 0 * 0) + (0 * -10 + 1 * -10) = -10
    norm_num
  · change Real.sqrt (1 ^ 2 + 0 ^ 2) = 1
    norm_num
  · change ((0 - -10 : ℝ) * 0 - (-10 - -10) * 1) / Real.sqrt (1 ^ 2 + 0 ^ 2) = 0
    norm_num
  · change (0 : ℝ) + (0 * 0 + 0 * 0) + (0 * 0 + 0 * 0) + (1 * 0 + 0 * -10) = 0
    norm_num

end SimCATS
