import Verif.Model.ResetScan
import Verif.Props.Sensor
import Verif.Props.ScanSensor
import Verif.Lemmas.ScanAgree
import Verif.Spec.ChargeMonotone

/-!
C112: `reset_offset_mu_sens` on a simulation with a `SensorScanSensorGeneric`.  It raises `ValueError` for every geometric
CSD: the potentials of the two pixels are combined with the three offsets.
Also: with a `SensorGeneric` the call always succeeds (C22).
-/

namespace SimCATS

theorem idealAt2_line {cfg : IdealCfg} (ok : CfgOk cfg) (lab : Labelling) (g1 g2 : ℝ × ℝ) :
    ∃ occ lead, idealCsd cfg lab [g1.1, g1.2] [g2.1, g2.2] (.int 2) = .ok (.d1 2 occ lead) ∧
      idealAt2 cfg lab g1 g2 = .ok (.d1 2 occ) := by
  obtain ⟨occ, lead, h⟩ := line_exists ok lab g1.1 g1.2 g2.1 g2.2 2
  refine ⟨occ, lead, h, ?_⟩
  have h' : idealCsd cfg lab [g1.1, g1.2] [g2.1, g2.2] (.int 2) = .ok (.d1 2 occ lead) := h
  unfold idealAt2
  rw [h']
  rfl

/-- C22: with a geometric CSD and a `SensorGeneric` the reset always succeeds. -/
theorem C22_succeeds (cfg : IdealCfg) (ok : CfgOk cfg) (lab : Labelling) (s : SensorGeneric) (target : ℝ) (g1 g2 : ℝ × ℝ) :
    ∃ s', resetOffset s (idealAt2 cfg lab) target g1 g2 = .ok s' := by
  obtain ⟨occ, lead, -, h⟩ := idealAt2_line ok lab g1 g2
  refine ⟨{ s with offset := target - ((dot2 (occ 0) s.alphaDot +
    dot2 (linspace g1.1 g1.2 2 0, linspace g2.1 g2.2 2 0) s.alphaGate + s.offset) - s.offset) }, ?_⟩
  unfold resetOffset
  rw [h]
  rfl

/-- Non-vacuity: the default-like configuration. -/
example (lab : Labelling) : ∃ s', resetOffset ⟨none, (-1, -2), (1, 2), 10⟩ (idealAt2 sampleCfg lab) 7 (3, 4) (5, 6) = .ok s' :=
  C22_succeeds sampleCfg sampleCfg_ok lab _ 7 (3, 4) (5, 6)

/-- C112 as it is: with a scan sensor and a geometric CSD the call raises `ValueError` for all arguments.  The offsets are
not changed (no sensor is returned), but the sensor remembers the voltages and occupations of the call. -/
theorem C112_reset_actual (cfg : IdealCfg) (ok : CfgOk cfg) (lab : Labelling) (s : ScanSensor) (target : ℝ) (g1 g2 : ℝ × ℝ)
    (st : Option ScanState) : ∃ occ lead, idealCsd cfg lab [g1.1, g1.2] [g2.1, g2.2] (.int 2) = .ok (.d1 2 occ lead) ∧
      resetOffsetScan s (idealAt2 cfg lab) target g1 g2 st =
        (.error .valueError, some ⟨g1, g2, (0, 0), (0, 0), .d1 2 occ⟩) := by
  obtain ⟨occ, lead, h0, h⟩ := idealAt2_line ok lab g1 g2
  refine ⟨occ, lead, h0, ?_⟩
  unfold resetOffsetScan
  rw [h]
  rfl

/-- Non-vacuity: a valid configuration and a sensor, before any other call. -/
example (lab : Labelling) : ∃ occ lead, idealCsd sampleCfg lab [3, 4] [5, 6] (.int 2) = .ok (.d1 2 occ lead) ∧
    resetOffsetScan sampleSensor (idealAt2 sampleCfg lab) 7 (3, 4) (5, 6) none =
      (.error .valueError, some ⟨(3, 4), (5, 6), (0, 0), (0, 0), .d1 2 occ⟩) :=
  C112_reset_actual sampleCfg sampleCfg_ok lab sampleSensor 7 (3, 4) (5, 6) none

/-- C112 is violated: there are a valid configuration, a sensor and arguments for which the call does not return. -/
theorem C112_reset_refuted (lab : Labelling) : ¬ ∀ (cfg : IdealCfg) (s : ScanSensor) (target : ℝ) (g1 g2 : ℝ × ℝ)
    (st : Option ScanState), CfgOk cfg → ∃ s' st', resetOffsetScan s (idealAt2 cfg lab) target g1 g2 st = (.ok s', st') := by
  intro h
  obtain ⟨s', st', e⟩ := h sampleCfg sampleSensor 7 (3, 4) (5, 6) none sampleCfg_ok
  obtain ⟨_, _, -, e'⟩ := C112_reset_actual sampleCfg sampleCfg_ok lab sampleSensor 7 (3, 4) (5, 6) none
  rw [e] at e'
  cases e'

/-- C112: for other CSD generators, the call succeeds exactly if they return a line of one or three pixels. -/
theorem C112_succeeds_iff (s : ScanSensor) (csd : ℝ × ℝ → ℝ × ℝ → Py (Scan (ℝ × ℝ))) (target : ℝ) (g1 g2 : ℝ × ℝ)
    (st : Option ScanState) : (∃ s' st', resetOffsetScan s csd target g1 g2 st = (.ok s', st')) ↔
      (∃ o : Fin 1 → ℝ × ℝ, csd g1 g2 = .ok (.d1 1 o)) ∨ ∃ o : Fin 3 → ℝ × ℝ, csd g1 g2 = .ok (.d1 3 o) := by
  constructor
  · rintro ⟨s', st', h⟩
    unfold resetOffsetScan at h
    cases hc : csd g1 g2 with
    | error e => rw [hc] at h; cases h
    | ok occ =>
      rw [hc] at h
      cases occ with
      | d0 x => cases h
      | d1 n o =>
        match n, o, h with
        | 0, _, h => cases h
        | 1, o, _ => exact Or.inl ⟨o, rfl⟩
        | 2, _, h => cases h
        | 3, o, _ => exact Or.inr ⟨o, rfl⟩
        | n + 4, _, h => cases h
      | d2 r c o =>
        exfalso
        dsimp only [ScanSensor.potential, ScanSensor.potentialArray] at h
        by_cases hr : r = 0 ∨ c = 0
        · simp [VoltArg.isArr, hr] at h
        · simp [VoltArg.isArr, hr] at h
  · rintro (⟨o, h⟩ | ⟨o, h⟩)
    · exact ⟨_, _, by unfold resetOffsetScan; rw [h]; rfl⟩
    · exact ⟨_, _, by unfold resetOffsetScan; rw [h]; rfl⟩

/-- Non-vacuity: a generator that ignores the resolution. -/
example : ∃ s' st', resetOffsetScan sampleSensor (fun _ _ => .ok (.d1 1 fun _ => (1, 0))) 7 (3, 4) (5, 6) none = (.ok s', st') :=
  (C112_succeeds_iff _ _ _ _ _ _).2 (Or.inl ⟨_, rfl⟩)

/-- C112 (partial): if the generator returns one pixel, the potential of the sensor dot at the starting voltages with this
occupation is the requested one after the call, the potentials of the barriers are shifted by the same amount as that of
the sensor dot, nothing else of the sensor changes, and a second reset changes nothing.  Missing: all other generators, in
particular the geometric CSD. -/
theorem C112_reset_partial (s s' : ScanSensor) (csd : ℝ × ℝ → ℝ × ℝ → Py (Scan (ℝ × ℝ))) (target : ℝ) (g1 g2 : ℝ × ℝ)
    (st st' : Option ScanState) (o : Fin 1 → ℝ × ℝ) (hc : csd g1 g2 = .ok (.d1 1 o))
    (h : resetOffsetScan s csd target g1 g2 st = (.ok s', st')) :
    s'.mu 0 (o 0) (g1.1, g2.1) (0, 0) = target ∧
      (∀ k p v w, s'.mu k p v w - s.mu k p v w = target - s.mu 0 (o 0) (g1.1, g2.1) (0, 0)) ∧
      s' = { s with offset := s'.offset } ∧ resetOffsetScan s' csd target g1 g2 st' = (.ok s', st') := by
  have hl : linspace g1.1 g1.2 1 0 = g1.1 ∧ linspace g2.1 g2.2 1 0 = g2.1 ∧ linspace (0 : ℝ) 0 1 0 = 0 := by
    simp [linspace, linAt]
  have step : ∀ (q : ScanSensor) (x : Option ScanState), resetOffsetScan q csd target g1 g2 x =
      (.ok { q with offset := fun k => target - (q.mu 0 (o 0) (g1.1, g2.1) (0, 0) - q.offset k) },
        some ⟨g1, g2, (0, 0), (0, 0), .d1 1 o⟩) := by
    intro q x
    have e : resetOffsetScan q csd target g1 g2 x = (.ok { q with offset := fun k => target -
        (q.mu 0 (o 0) (linspace g1.1 g1.2 1 0, linspace g2.1 g2.2 1 0) (linspace 0 0 1 0, linspace 0 0 1 0) - q.offset k) },
        some ⟨g1, g2, (0, 0), (0, 0), .d1 1 o⟩) := by
      unfold resetOffsetScan
      rw [hc]
      rfl
    rw [e, hl.1, hl.2.1, hl.2.2]
  rw [step] at h
  cases h
  have hfix : ∀ k p v w, ({ s with offset := fun k => target - (s.mu 0 (o 0) (g1.1, g2.1) (0, 0) - s.offset k) } : ScanSensor).mu
      k p v w = s.mu k p v w + (target - s.mu 0 (o 0) (g1.1, g2.1) (0, 0)) := by
    intro k p v w
    simp only [ScanSensor.mu]
    ring
  refine ⟨?_, fun k p v w => ?_, rfl, ?_⟩
  · rw [hfix]; ring
  · rw [hfix]; ring
  · rw [step, hfix]
    congr 3
    funext k
    ring

/-- Non-vacuity: a sensor whose dot is at another potential before the call. -/
example : ∃ s' st', resetOffsetScan sampleSensor (fun _ _ => .ok (.d1 1 fun _ => (1, 0))) 7 (3, 4) (5, 6) none = (.ok s', st') ∧
    sampleSensor.mu 0 (1, 0) (3, 5) (0, 0) = 8 ∧ s'.mu 0 (1, 0) (3, 5) (0, 0) = 7 := by
  obtain ⟨s', st', h⟩ := (C112_succeeds_iff sampleSensor (fun _ _ => .ok (.d1 1 fun _ => (1, 0))) 7 (3, 4) (5, 6) none).2
    (Or.inl ⟨_, rfl⟩)
  refine ⟨s', st', h, ?_, (C112_reset_partial _ _ _ 7 (3, 4) (5, 6) _ _ _ rfl h).1⟩
  norm_num [ScanSensor.mu, sampleSensor, dot2]

/-- C112 (partial): if the generator returns three pixels, the potential of the sensor dot at the first of them is the requested
one after the call, too, but the barriers are shifted by the difference of the requested potential and that of the sensor dot at
the second and third pixel. -/
theorem C112_three_partial (s s' : ScanSensor) (csd : ℝ × ℝ → ℝ × ℝ → Py (Scan (ℝ × ℝ))) (target : ℝ) (g1 g2 : ℝ × ℝ)
    (st st' : Option ScanState) (o : Fin 3 → ℝ × ℝ) (hc : csd g1 g2 = .ok (.d1 3 o))
    (h : resetOffsetScan s csd target g1 g2 st = (.ok s', st')) :
    s'.mu 0 (o 0) (g1.1, g2.1) (0, 0) = target ∧
      (∀ (k : Fin 3) p v w, s'.mu k p v w - s.mu k p v w = target - s.mu 0 (o k) (Spec.lineVoltages g1.1 g1.2 g2.1 g2.2 3 k) (0, 0)) ∧
      s' = { s with offset := s'.offset } ∧ st' = some ⟨g1, g2, (0, 0), (0, 0), .d1 3 o⟩ := by
  have e : resetOffsetScan s csd target g1 g2 st = (.ok { s with offset := fun k => target -
      (s.mu 0 (o k) (linspace g1.1 g1.2 3 k, linspace g2.1 g2.2 3 k) (linspace 0 0 3 k, linspace 0 0 3 k) - s.offset k) },
      some ⟨g1, g2, (0, 0), (0, 0), .d1 3 o⟩) := by
    unfold resetOffsetScan
    rw [hc]
    rfl
  have hl : ∀ (k : Fin 3) (a b : ℝ), linspace a b 3 k = a + (k : ℕ) * ((b - a) / ((3 : ℕ) - 1)) := by
    intro k a b
    unfold linspace linAt
    push_cast
    ring
  rw [e] at h
  cases h
  have hfix : ∀ (k : Fin 3) p v w, ({ s with offset := fun k => target -
      (s.mu 0 (o k) (linspace g1.1 g1.2 3 k, linspace g2.1 g2.2 3 k) (linspace 0 0 3 k, linspace 0 0 3 k) - s.offset k) } : ScanSensor).mu
      k p v w = s.mu k p v w + (target - s.mu 0 (o k) (Spec.lineVoltages g1.1 g1.2 g2.1 g2.2 3 k) (0, 0)) := by
    intro k p v w
    have z : linspace (0 : ℝ) 0 3 k = 0 := by rw [hl]; simp
    simp only [ScanSensor.mu, Spec.lineVoltages, z]
    rw [hl, hl]
    ring
  refine ⟨?_, fun k p v w => ?_, rfl, rfl⟩
  · rw [hfix]
    have : Spec.lineVoltages g1.1 g1.2 g2.1 g2.2 3 ((0 : Fin 3) : ℕ) = (g1.1, g2.1) := by simp [Spec.lineVoltages]
    rw [this]
    ring
  · rw [hfix]
    ring

/-- Non-vacuity: a generator that returns three pixels with different occupations. -/
example : ∃ s' st', resetOffsetScan sampleSensor (fun _ _ => .ok (.d1 3 ![(1, 0), (1, 1), (2, 1)])) 7 (3, 4) (5, 6) none = (.ok s', st') ∧
    s'.mu 0 (1, 0) (3, 5) (0, 0) = 7 ∧ s'.mu 1 (1, 0) (3, 5) (0, 0) - sampleSensor.mu 1 (1, 0) (3, 5) (0, 0) = -2 := by
  obtain ⟨s', st', h⟩ := (C112_succeeds_iff sampleSensor (fun _ _ => .ok (.d1 3 ![(1, 0), (1, 1), (2, 1)])) 7 (3, 4) (5, 6) none).2
    (Or.inr ⟨_, rfl⟩)
  obtain ⟨h1, h2, -⟩ := C112_three_partial _ _ _ 7 (3, 4) (5, 6) _ _ _ rfl h
  refine ⟨s', st', h, h1, ?_⟩
  rw [h2]
  norm_num [ScanSensor.mu, sampleSensor, dot2, Spec.lineVoltages]

end SimCATS
