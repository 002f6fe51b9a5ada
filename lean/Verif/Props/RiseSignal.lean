import Verif.Lemmas.RiseSignal

/-!
Property C86: the signal at a point depends on the point only, whatever scan it is part of.
Property C87: the final rise begins where both barriers are fully conductive.
-/

namespace SimCATS

open Spec

/-! ### C86: one signal per point -/

/-- C86, the part that holds: without final rise and deformations, all CSDs and sensor scans that contain a point (occupation, plunger
voltages and sensor gate voltages) show the same signal there. -/
theorem C86_partial (sens : ScanSensor) (hd : sens.defs = []) (hr : sens.rise = none) (o v w : ℝ × ℝ) (y y' : ℝ)
    (h : Shows sens o v w y) (h' : Shows sens o v w y') : y = y' := by
  have key : ∀ y, Shows sens o v w y → y = scanSignal sens o v w := by
    rintro y (⟨v0, o0, both, τ, sim, a1, b1, a2, b2, w1, w2, res, s, s', csd, occ, lead, hs, h2, h3, hm, -, ho, -, rfl, hp⟩ |
      ⟨τ, sim, w1, w2, g1, g2, res, s, s', scan, m1, m2, rfl, h2, h3, hm, ho, rfl, hp⟩)
    · have := csd_signal hs h2 h3 (Or.inl hd) hm ho hp
      unfold signalFrom at this
      rw [hr] at this
      exact this
    · obtain ⟨q, this⟩ := scan_signal hd h2 h3 hm ho hp
      unfold signalFrom at this
      rw [hr] at this
      exact this
  rw [key y h, key y' h']

/-- C86, the part that holds with a final rise: all sensor scans at the same plunger voltages and occupation show the same signal at the
same sensor gate voltages. -/
theorem C86_scan_partial (sens : ScanSensor) (hd : sens.defs = []) (o v w : ℝ × ℝ) (y y' : ℝ) (h : ScanShows sens o v w y)
    (h' : ScanShows sens o v w y') : y = y' := by
  obtain ⟨τ, sim, w1, w2, g1, g2, res, s, t, scan, m1, m2, rfl, h2, h3, hm, ho, rfl, hp⟩ := h
  obtain ⟨τ', sim', w1', w2', g1', g2', res', s', t', scan', m1', m2', hs, h2', h3', hm', ho', hv, hp'⟩ := h'
  obtain ⟨q, e⟩ := scan_signal hd h2 h3 hm ho hp
  obtain ⟨q', e'⟩ := scan_signal (by rw [hs]; exact hd) h2' h3' hm' ho' hp'
  rw [hs, ← hv] at e'
  have hv1 := congrArg Prod.fst hv
  simp only at hv1
  rw [e, e', ← hv1, scan_off _ _ q q']

/-- C86, the part that holds with a final rise: all CSDs that start at the same voltages and occupation, and agree in whether they sweep both
plunger gates, show the same signal at the same point. -/
theorem C86_start_partial (sens : ScanSensor) (hd : sens.defs = []) (v0 o0 : ℝ × ℝ) (both : Prop) (o v w : ℝ × ℝ) (y y' : ℝ)
    (h : CsdFrom sens v0 o0 both o v w y) (h' : CsdFrom sens v0 o0 both o v w y') : y = y' := by
  obtain ⟨τ, sim, a1, b1, a2, b2, w1, w2, res, s, s', csd, occ, lead, hs, h2, h3, hm, rfl, ho, hb, rfl, hp⟩ := h
  obtain ⟨τ', sim', a1', b1', a2', b2', w1', w2', res', t, t', csd', occ', lead', hs', h2', h3', hm', hv0, ho', hb', hw, hp'⟩ := h'
  have e := csd_signal hs h2 h3 (Or.inl hd) hm ho hp
  have e' := csd_signal hs' h2' h3' (Or.inl hd) hm' ho' hp'
  simp only [Prod.mk.injEq] at hv0
  obtain ⟨rfl, rfl⟩ := hv0
  rw [← hw] at e'
  have hsw : ∀ a1 b1 a2 b2 w occ, (csdState a1 b1 a2 b2 w occ).sensorSwept = true ↔ ¬ (a1 ≠ b1 ∧ a2 ≠ b2) := by
    intro a1 b1 a2 b2 w occ
    unfold ScanState.sensorSwept csdState eqB
    simp only [Bool.or_eq_true, decide_eq_true_eq]
    tauto
  have hoff : riseOff sens (csdState a1 b1 a2 b2 (w1.getD 0, w2.getD 0) occ) o0 =
      riseOff sens (csdState a1 b1' a2 b2' (w1.getD 0, w2.getD 0) occ') o0 := by
    have : (csdState a1 b1 a2 b2 (w1.getD 0, w2.getD 0) occ).sensorSwept =
        (csdState a1 b1' a2 b2' (w1.getD 0, w2.getD 0) occ').sensorSwept := by
      rw [Bool.eq_iff_iff, hsw, hsw, ← hb, ← hb']
    unfold riseOff openPoint ScanSensor.gateOffset
    rw [this]
    rfl
  rw [e, e', hoff]

/-- C86 is refuted: with a final rise, two CSDs over ranges that both contain the plunger voltages (1, 1), with the same occupation and the
same sensor gate voltages, show different signals there, because they start at different voltages. -/
theorem C86_refuted : ∃ y y', CsdShows sampleSensor (0, 0) (1, 1) (0, 0) y ∧ CsdShows sampleSensor (0, 0) (1, 1) (0, 0) y' ∧ y ≠ y' := by
  obtain ⟨y, hy, e⟩ := sampleSensor_csd 0 1 (by norm_num) 1
  obtain ⟨y', hy', e'⟩ := sampleSensor_csd 1 2 (by norm_num) 0
  have h1 : argVoltage (.arr (0, 1)) 2 ((1 : Fin 2) : ℕ) = 1 := by norm_num [argVoltage]
  have h2 : argVoltage (.arr (1, 2)) 2 ((0 : Fin 2) : ℕ) = 1 := by norm_num [argVoltage]
  rw [h1] at hy e
  rw [h2] at hy' e'
  refine ⟨y, y', hy, hy', ?_⟩
  rw [e, e']
  exact ne_of_gt (sampleSensor_signal _ _ _ _ _ (by linarith))

/-- C86 is refuted also between CSDs and sensor scans: at the same plunger voltages, sensor gate voltages and occupation they show
different signals. -/
theorem C86_scan_refuted : ∃ y y', CsdShows sampleSensor (0, 0) (1, 1) (0, 0) y ∧ ScanShows sampleSensor (0, 0) (1, 1) (0, 0) y' ∧
    y ≠ y' := by
  obtain ⟨y, hy, e⟩ := sampleSensor_csd 0 1 (by norm_num) 1
  obtain ⟨y', hy', e'⟩ := sampleSensor_scan 1 1
  have h1 : argVoltage (.arr (0, 1)) 2 ((1 : Fin 2) : ℕ) = 1 := by norm_num [argVoltage]
  rw [h1] at hy e
  refine ⟨y, y', hy, hy', ?_⟩
  rw [e, e']
  exact ne_of_lt (sampleSensor_signal _ _ _ _ _ (by linarith))

/-- Non-vacuity: a sensor without final rise, shown in a CSD and in a sensor scan at the same point. -/
example : ∃ y y', CsdShows (twoPeaks []) (0, 0) (1, 1) (0, 0) y ∧ ScanShows (twoPeaks []) (0, 0) (1, 1) (0, 0) y' ∧ y = y' := by
  obtain ⟨y, hy⟩ := csd_exists (twoPeaks []) rfl 1 (fun _ => (0, 0)) 0 1 0 1 0 0 1
  obtain ⟨y', hy'⟩ := scan_exists (twoPeaks []) rfl _ rfl 1 1 1 (0, 1) (0, 1) 0
  have h1 : (argVoltage (.arr (0, 1)) (1 + 1) ((1 : Fin 2) : ℕ), argVoltage (.arr (0, 1)) (1 + 1) ((1 : Fin 2) : ℕ)) = ((1, 1) : ℝ × ℝ) := by
    norm_num [argVoltage]
  have h2 : (argVoltage (.arr (0, 1)) (1 + 1) ((0 : Fin 2) : ℕ), argVoltage (.arr (0, 1)) (1 + 1) ((0 : Fin 2) : ℕ)) = ((0, 0) : ℝ × ℝ) := by
    norm_num [argVoltage]
  rw [h1] at hy
  rw [h2] at hy'
  exact ⟨y, y', ⟨_, _, _, hy⟩, hy', C86_partial (twoPeaks []) rfl rfl _ _ _ _ _ (Or.inl ⟨_, _, _, hy⟩) (Or.inr hy')⟩

/-! ### C87: where the final rise begins -/

/-- What sensor scans do: the final rise begins at the potential of the sensor dot at the point at which the barriers are fully conductive
if the voltage of plunger gate 1 is applied to both plunger gates; for barrier 1 the occupation of dot 1 also stands for that of dot 2. -/
theorem C87_scan_actual (sens : ScanSensor) (hd : sens.defs = []) (rise : ℝ → ℝ → ℝ) (hr : sens.rise = some rise)
    (hdet : barrierDet sens ≠ 0) (heps : (sens.alphaSensor 1).2 = 0 ∨ floatEps ≤ |(sens.alphaSensor 1).2|) (o v w : ℝ × ℝ) (y : ℝ)
    (h : ScanShows sens o v w y) :
    ∃ p, potentialAt sens 1 o (v.1, v.1) p = sens.barrier1.fullyConductive + (sens.alphaDot 1).2 * (o.2 - o.1) ∧
      potentialAt sens 2 o (v.1, v.1) p = sens.barrier2.fullyConductive ∧
      y = riseSignal sens rise (potentialAt sens 0 o (v.1, v.1) p) o v w := by
  obtain ⟨τ, sim, w1, w2, g1, g2, res, s, s', scan, m1, m2, rfl, h2, h3, hm, ho, rfl, hp⟩ := h
  obtain ⟨q, e⟩ := scan_signal hd h2 h3 hm ho hp
  unfold signalFrom at e
  rw [hr] at e
  have hx : (scanState (argVoltage g1 1 0) q o).sensorSwept = true := by
    unfold ScanState.sensorSwept scanState
    simp only [eqB_self]
    rfl
  obtain ⟨k1, k2⟩ := openPoint_fixed sim.sensor _ o hx hdet heps
  exact ⟨_, k1, k2, e⟩

/-- C87, the part that holds: in sensor scans with equal voltages of the plunger gates, and equal occupations or a barrier 1 that does not feel
dot 2, the final rise begins at the potential of the sensor dot at the sensor gate voltages that make both barriers fully conductive. -/
theorem C87_scan_partial (sens : ScanSensor) (hd : sens.defs = []) (rise : ℝ → ℝ → ℝ) (hr : sens.rise = some rise)
    (hdet : barrierDet sens ≠ 0) (heps : (sens.alphaSensor 1).2 = 0 ∨ floatEps ≤ |(sens.alphaSensor 1).2|) (o v w : ℝ × ℝ) (y : ℝ)
    (h : ScanShows sens o v w y) (hv : v.1 = v.2) (ho : o.1 = o.2 ∨ (sens.alphaDot 1).2 = 0) :
    (∃ p, Opens sens o v p) ∧ ∀ p, Opens sens o v p → y = riseSignal sens rise (potentialAt sens 0 o v p) o v w := by
  obtain ⟨p, k1, k2, e⟩ := C87_scan_actual sens hd rise hr hdet heps o v w y h
  have hvv : (v.1, v.1) = v := Prod.ext rfl hv
  rw [hvv] at k1 k2 e
  have k1' : potentialAt sens 1 o v p = sens.barrier1.fullyConductive := by
    rw [k1]
    rcases ho with h | h <;> rw [h] <;> ring
  refine ⟨⟨p, k1', k2⟩, fun p' hp' => ?_⟩
  rw [point_unique sens o v p' p hdet (hp'.1.trans k1'.symm) (hp'.2.trans k2.symm)]
  exact e

/-- What CSDs with a fixed plunger gate do: the final rise begins, for all pixels, at the potential of the sensor dot at the point at which
the barriers are fully conductive for the first pixel (up to the occupation used for barrier 1). -/
theorem C87_csd_actual (sens : ScanSensor) (hd : sens.defs = []) (rise : ℝ → ℝ → ℝ) (hr : sens.rise = some rise)
    (hdet : barrierDet sens ≠ 0) (heps : (sens.alphaSensor 1).2 = 0 ∨ floatEps ≤ |(sens.alphaSensor 1).2|) (v0 o0 o v w : ℝ × ℝ) (y : ℝ)
    (h : CsdFrom sens v0 o0 False o v w y) :
    ∃ p, potentialAt sens 1 o0 v0 p = sens.barrier1.fullyConductive + (sens.alphaDot 1).2 * (o0.2 - o0.1) ∧
      potentialAt sens 2 o0 v0 p = sens.barrier2.fullyConductive ∧
      y = riseSignal sens rise (potentialAt sens 0 o0 v0 p) o v w := by
  obtain ⟨τ, sim, a1, b1, a2, b2, w1, w2, res, s, s', csd, occ, lead, hs, h2, h3, hm, rfl, ho, hb, rfl, hp⟩ := h
  have e := csd_signal hs h2 h3 (Or.inl hd) hm ho hp
  unfold signalFrom at e
  rw [hr] at e
  have hx : (csdState a1 b1 a2 b2 (w1.getD 0, w2.getD 0) occ).sensorSwept = true := by
    unfold ScanState.sensorSwept csdState eqB
    simp only [Bool.or_eq_true, decide_eq_true_eq]
    tauto
  obtain ⟨k1, k2⟩ := openPoint_fixed sens _ o0 hx hdet heps
  exact ⟨_, k1, k2, e⟩

/-- What CSDs over both plunger gates do: the code searches the point at which the barriers are fully conductive with the plunger gates at 0 V
and the voltage of sensor gate 1 added to both sensor gates; the final rise of all pixels begins at the potential of the sensor dot at these
sensor gate voltages and the plunger voltages and occupation of the first pixel. -/
theorem C87_csd_both_actual (sens : ScanSensor) (hd : sens.defs = []) (rise : ℝ → ℝ → ℝ) (hr : sens.rise = some rise)
    (hdet : barrierDet sens ≠ 0) (heps : (sens.alphaSensor 1).2 = 0 ∨ floatEps ≤ |(sens.alphaSensor 1).2|) (v0 o0 o v w : ℝ × ℝ) (y : ℝ)
    (h : CsdFrom sens v0 o0 True o v w y) :
    ∃ p, potentialAt sens 1 o0 (0, 0) (p.1 + w.1, p.2 + w.1) = sens.barrier1.fullyConductive + (sens.alphaDot 1).2 * (o0.2 - o0.1) ∧
      potentialAt sens 2 o0 (0, 0) (p.1 + w.1, p.2 + w.1) = sens.barrier2.fullyConductive ∧
      y = riseSignal sens rise (potentialAt sens 0 o0 v0 p) o v w := by
  obtain ⟨τ, sim, a1, b1, a2, b2, w1, w2, res, s, s', csd, occ, lead, hs, h2, h3, hm, rfl, ho, hb, rfl, hp⟩ := h
  have e := csd_signal hs h2 h3 (Or.inl hd) hm ho hp
  unfold signalFrom at e
  rw [hr] at e
  have hx : (csdState a1 b1 a2 b2 (w1.getD 0, w2.getD 0) occ).sensorSwept = false := by
    have := hb.1 trivial
    unfold ScanState.sensorSwept csdState eqB
    simp [this.1, this.2]
  obtain ⟨k1, k2⟩ := openPoint_swept sens _ o0 hx hdet heps
  exact ⟨_, k1, k2, e⟩

/-- C87, the part that holds for CSDs: with a fixed plunger gate, the first pixel (and all pixels at the same plunger voltages and
occupation) gets the right final rise, if its occupations are equal or barrier 1 does not feel dot 2. -/
theorem C87_csd_partial (sens : ScanSensor) (hd : sens.defs = []) (rise : ℝ → ℝ → ℝ) (hr : sens.rise = some rise)
    (hdet : barrierDet sens ≠ 0) (heps : (sens.alphaSensor 1).2 = 0 ∨ floatEps ≤ |(sens.alphaSensor 1).2|) (o v w : ℝ × ℝ) (y : ℝ)
    (h : CsdFrom sens v o False o v w y) (ho : o.1 = o.2 ∨ (sens.alphaDot 1).2 = 0) :
    (∃ p, Opens sens o v p) ∧ ∀ p, Opens sens o v p → y = riseSignal sens rise (potentialAt sens 0 o v p) o v w := by
  obtain ⟨p, k1, k2, e⟩ := C87_csd_actual sens hd rise hr hdet heps v o o v w y h
  have k1' : potentialAt sens 1 o v p = sens.barrier1.fullyConductive := by
    rw [k1]
    rcases ho with h | h <;> rw [h] <;> ring
  refine ⟨⟨p, k1', k2⟩, fun p' hp' => ?_⟩
  rw [point_unique sens o v p' p hdet (hp'.1.trans k1'.symm) (hp'.2.trans k2.symm)]
  exact e

/-- C87 is refuted for sensor scans with different voltages of the plunger gates, 0 V and 1 V. -/
theorem C87_scan_refuted : ∃ y p, ScanShows sampleSensor (0, 0) (0, 1) (0, 0) y ∧ Opens sampleSensor (0, 0) (0, 1) p ∧
    y ≠ riseSignal sampleSensor ((⟨0, ⟨0, 1, 1, 1, 1, 1⟩, 1 / 2⟩ : RiseGlf).sensorFunction)
      (potentialAt sampleSensor 0 (0, 0) (0, 1) p) (0, 0) (0, 1) (0, 0) := by
  obtain ⟨y, hy, e⟩ := sampleSensor_scan 0 1
  set F := sampleSensor.barrier1.fullyConductive with hF
  refine ⟨y, (F - 1, F - 1), hy, ⟨?_, ?_⟩, ?_⟩
  · rw [(sampleSensor_at _ _ _).2.1, ← hF]
    norm_num
  · rw [(sampleSensor_at _ _ _).2.2]
    change _ = F
    norm_num
  · rw [e, (sampleSensor_at _ _ _).1]
    refine ne_of_lt (sampleSensor_signal _ _ (0, 0) (0, 1) (0, 0) ?_)
    simp only
    linarith

/-- C87 is refuted for CSDs over both plunger gates. -/
theorem C87_csd_refuted : ∃ y p, CsdShows sampleSensor (0, 0) (1, 1) (0, 0) y ∧ Opens sampleSensor (0, 0) (1, 1) p ∧
    y ≠ riseSignal sampleSensor ((⟨0, ⟨0, 1, 1, 1, 1, 1⟩, 1 / 2⟩ : RiseGlf).sensorFunction)
      (potentialAt sampleSensor 0 (0, 0) (1, 1) p) (0, 0) (1, 1) (0, 0) := by
  obtain ⟨y, hy, e⟩ := sampleSensor_csd 0 1 (by norm_num) 1
  have h1 : argVoltage (.arr (0, 1)) 2 ((1 : Fin 2) : ℕ) = 1 := by norm_num [argVoltage]
  rw [h1] at hy e
  set F := sampleSensor.barrier1.fullyConductive with hF
  refine ⟨y, (F - 2, F - 2), hy, ⟨?_, ?_⟩, ?_⟩
  · rw [(sampleSensor_at _ _ _).2.1, ← hF]
    norm_num
  · rw [(sampleSensor_at _ _ _).2.2]
    change _ = F
    norm_num
  · rw [e, (sampleSensor_at _ _ _).1]
    refine ne_of_lt (sampleSensor_signal _ _ (0, 0) (1, 1) (0, 0) ?_)
    simp only
    linarith

/-- Non-vacuity: the sensor with final rise in a sensor scan with both plunger gates at 1 V, and in CSDs. -/
example : (∃ y, ScanShows sampleSensor (0, 0) (1, 1) (0, 0) y) ∧ (∃ y v w, CsdFrom sampleSensor (0, 0) (1, 2) False (1, 2) v w y) ∧
    (∃ y v w, CsdFrom sampleSensor (0, 0) (1, 2) True (1, 2) v w y) ∧ barrierDet sampleSensor ≠ 0 := by
  refine ⟨(sampleSensor_scan 1 1).imp fun y h => h.1, ?_, ?_, sampleSensor_det.1⟩
  · obtain ⟨y, hy⟩ := csd_exists sampleSensor rfl 2 (fun _ => (1, 2)) 0 1 0 0 0 0 1
    have : ((0 : ℝ) ≠ 1 ∧ (0 : ℝ) ≠ 0) = False := by simp
    rw [this] at hy
    exact ⟨y, _, _, hy⟩
  · obtain ⟨y, hy⟩ := csd_exists sampleSensor rfl 2 (fun _ => (1, 2)) 0 1 0 1 0 0 1
    have : ((0 : ℝ) ≠ 1 ∧ (0 : ℝ) ≠ 1) = True := by simp
    rw [this] at hy
    exact ⟨y, _, _, hy⟩

end SimCATS
