import Verif.Lemmas.ExtendedRegions

/-!
Property C89: the ranges of the extended default configuration contain the closed and the open sensor.
-/

namespace SimCATS

open Spec

variable {τ : Type}

/-- C89, labels: whatever sensor scan a simulation with the configuration "GaAs_v2_extended_sensor" returns, with its distortions, the
conductive mask is 0 (not conductive) at all pixels with both sensor gates at -0.7 V or below and 2 (fully conductive) at all pixels with
both sensor gates at -0.3 V or above.  Neither region has peak labels. -/
theorem C89_labels (env : NoiseEnv τ) (lab : Labelling) (w1 w2 : ℝ × ℝ) (g1 g2 : VoltArg) (res : Resolution)
    (s s' : Option ScanState × NoiseState τ) (scan : Scan ℝ) (cond peaks : Scan ℕ)
    (h : measureSensorScan (extendedSim env lab) ⟨[w1.1, w1.2], [w2.1, w2.2], g1, g2, res⟩ s = (.ok (scan, cond, peaks), s')) (w : ℝ × ℝ)
    (l m : ℕ) (hl : SensorPixel w1 w2 cond w l) (hm : SensorPixel w1 w2 peaks w m) :
    (w.1 ≤ -0.7 → w.2 ≤ -0.7 → l = 0 ∧ m = 0) ∧ (-0.3 ≤ w.1 → -0.3 ≤ w.2 → l = 2 ∧ m = 0) := by
  obtain ⟨o, full, -, hpt, hfull, hlab, hzero⟩ := ext_labels rfl rfl rfl h
  constructor
  · intro h1 h2
    refine ⟨(hlab w l hl).trans (ext_conductive_closed hpt h1 h2), peaks_zero (fun l' hl' => ?_) hzero hm⟩
    rw [hlab w l' hl', ext_conductive_closed hpt h1 h2]
    norm_num
  · intro h1 h2
    refine ⟨(hlab w l hl).trans (ext_conductive_open hpt (hfull w h1 h2) h1 h2), peaks_zero (fun l' hl' => ?_) hzero hm⟩
    rw [hlab w l' hl', ext_conductive_open hpt (hfull w h1 h2) h1 h2]
    norm_num

/-- Non-vacuity: a scan of the whole range with 100 x 100 pixels and all distortions active has both regions. -/
example (lab : Labelling) (st : Option ScanState × NoiseState Unit) : ∃ scan cond peaks st',
    measureSensorScan (extendedSim (plainEnv (fun _ => true) true) lab)
      ⟨[-1, 0.4], [-1, 0.4], .num true (-0.1), .num true (-0.1), .arr [(100 : ℕ), (100 : ℕ)]⟩ st =
      (.ok (.d2 100 100 scan, .d2 100 100 cond, .d2 100 100 peaks), st') ∧ cond 0 0 = 0 ∧ cond 99 99 = 2 := by
  obtain ⟨scan, cond, peaks, st', e⟩ := C88_scan_image_partial _ (plainEnv_total (fun _ => true) true) lab (-1) 0.4 (-1) 0.4
    (by unfold Within; norm_num) (by unfold Within; norm_num) (by norm_num) (by norm_num) 100 100 (by norm_num) (by norm_num)
    (Or.inl (by rw [abs_of_nonneg (by norm_num)]; norm_num)) (.num true (-0.1)) (.num true (-0.1))
    (Or.inr ⟨_, _, rfl, rfl, by norm_num, by norm_num⟩) st
  refine ⟨scan, cond, peaks, st', e, ?_, ?_⟩
  · refine ((C89_labels _ lab (-1, 0.4) (-1, 0.4) _ _ _ _ _ _ _ _ e (-1, -1) _ (peaks 0 0) (Or.inr ⟨_, _, _, rfl, 0, 0, rfl, ?_⟩)
      (Or.inr ⟨_, _, _, rfl, 0, 0, rfl, ?_⟩)).1 (by norm_num) (by norm_num)).1 <;> norm_num [argVoltage]
  · refine ((C89_labels _ lab (-1, 0.4) (-1, 0.4) _ _ _ _ _ _ _ _ e (0.4, 0.4) _ (peaks 99 99) (Or.inr ⟨_, _, _, rfl, 99, 99, rfl, ?_⟩)
      (Or.inr ⟨_, _, _, rfl, 99, 99, rfl, ?_⟩)).2 (by norm_num) (by norm_num)).1 <;>
    · change _ = (argVoltage _ _ 99, argVoltage _ _ 99)
      norm_num [argVoltage]

/-- C89, signal: in sensor scans without distortions the signal is positive, at most 0.0003 at all pixels
with both sensor gates at -0.7 V or below and at least 0.0599 at all pixels with both sensor gates at -0.3 V or above. -/
theorem C89_signal_partial (env : NoiseEnv τ) (lab : Labelling) (w1 w2 : ℝ × ℝ) (g1 g2 : VoltArg) (res : Resolution)
    (s s' : Option ScanState × NoiseState τ) (scan : Scan ℝ) (cond peaks : Scan ℕ)
    (h : measureSensorScan (quiet (extendedSim env lab)) ⟨[w1.1, w1.2], [w2.1, w2.2], g1, g2, res⟩ s =
      (.ok (scan, cond, peaks), s')) (w : ℝ × ℝ) (y : ℝ) (hp : SensorPixel w1 w2 scan w y) :
    (w.1 ≤ -0.7 → w.2 ≤ -0.7 → 0 < y ∧ y ≤ 0.0003) ∧ (-0.3 ≤ w.1 → -0.3 ≤ w.2 → 0.0599 ≤ y) := by
  obtain ⟨o, full, ho, hpt, -, -, -⟩ := ext_labels (sim := quiet (extendedSim env lab)) rfl rfl rfl h
  obtain ⟨q, hy⟩ := scan_signal (sim := quiet (extendedSim env lab)) rfl rfl rfl h ho hp
  rw [hy]
  constructor
  · exact fun h1 h2 => ext_signal_closed _ hpt h1 h2
  · intro h1 h2
    refine ext_signal_open hpt (le_of_lt ?_) h1 h2
    change riseOff extendedSensor _ o < _
    have hsw : (scanState (argVoltage g1 1 0) q o).sensorSwept = true := by
      unfold ScanState.sensorSwept scanState
      simp only [eqB_self]
      rfl
    have hpq := ext_point (argVoltage g1 1 0, argVoltage g1 1 0) o (openPoint extendedSensor (scanState (argVoltage g1 1 0) q o) o)
      (scanState (argVoltage g1 1 0) q o) rfl rfl (by
        unfold ScanSensor.calcPoint openPoint
        rw [hsw]
        rfl)
    exact ext_above hpt (Or.inr rfl) h1 h2 hpq.1 hpq.2

/-- Non-vacuity: a scan of the whole range without distortions has both regions. -/
example (env : NoiseEnv τ) (lab : Labelling) (st : Option ScanState × NoiseState τ) : ∃ scan cond peaks st',
    measureSensorScan (quiet (extendedSim env lab)) ⟨[-1, 0.4], [-1, 0.4], .none, .none, .arr [(100 : ℕ), (100 : ℕ)]⟩ st =
      (.ok (.d2 100 100 scan, .d2 100 100 cond, .d2 100 100 peaks), st') ∧ scan 0 0 ≤ 0.0003 ∧ 0.0599 ≤ scan 99 99 := by
  obtain ⟨scan, cond, peaks, st', e⟩ := quiet_scan env lab (a1 := -1) (b1 := 0.4) (a2 := -1) (b2 := 0.4)
    (by unfold Within; norm_num) (by unfold Within; norm_num) (by norm_num) (by norm_num) 100 100 (by norm_num) (by norm_num)
    (Or.inl ⟨rfl, rfl⟩) st
  refine ⟨scan, cond, peaks, st', e, ?_, ?_⟩
  · refine ((C89_signal_partial _ lab (-1, 0.4) (-1, 0.4) _ _ _ _ _ _ _ _ e (-1, -1) _ (Or.inr ⟨_, _, _, rfl, 0, 0, rfl, ?_⟩)).1
      (by norm_num) (by norm_num)).2
    norm_num [argVoltage]
  · refine (C89_signal_partial _ lab (-1, 0.4) (-1, 0.4) _ _ _ _ _ _ _ _ e (0.4, 0.4) _ (Or.inr ⟨_, _, _, rfl, 99, 99, rfl, ?_⟩)).2
      (by norm_num) (by norm_num)
    change _ = (argVoltage _ _ 99, argVoltage _ _ 99)
    norm_num [argVoltage]

/-! ### CSDs -/

/-- C89, CSDs with closed sensor: in CSDs without distortions, the signal is positive and at most 0.0003 at all pixels if both sensor gates
are at -0.7 V or below. -/
theorem C89_csd_closed_partial (env : NoiseEnv τ) (lab : Labelling) (a1 b1 a2 b2 w1 w2 : ℝ) (res : Resolution)
    (s s' : Option ScanState × NoiseState τ) (csd : Scan ℝ) (occ : Scan (ℝ × ℝ)) (lead : Scan ℕ)
    (h : measure (quiet (extendedSim env lab)).csd ⟨[a1, b1], [a2, b2], some w1, some w2, res⟩ s = (.ok (csd, occ, lead), s'))
    (h1 : w1 ≤ -0.7) (h2 : w2 ≤ -0.7) (o v : ℝ × ℝ) (y : ℝ) (hp : CsdPixel (a1, b1) (a2, b2) csd occ o v y) : 0 < y ∧ y ≤ 0.0003 := by
  obtain ⟨o0, ho, -⟩ := quiet_first h
  rw [csd_signal (sens := extendedSensor) rfl rfl rfl (Or.inl rfl) h ho hp]
  exact ext_signal_closed _ (quiet_pixel h hp) h1 h2

/-! ### CSDs with open sensor -/

/-- C89, the start of CSDs with open sensor: in every CSD over both plunger gates that starts at (-0.087 V, -0.047 V), the upper limits of the
configuration, with both sensor gates at -0.28 V, the signal of the first pixel is at most 0.003. -/
theorem C89_csd_start_actual (env : NoiseEnv τ) (lab : Labelling) (b1 b2 : ℝ) (n1 : -0.087 ≠ b1) (n2 : -0.047 ≠ b2) (res : Resolution)
    (s s' : Option ScanState × NoiseState τ) (csd : Scan ℝ) (occ : Scan (ℝ × ℝ)) (lead : Scan ℕ)
    (h : measure (quiet (extendedSim env lab)).csd ⟨[-0.087, b1], [-0.047, b2], some (-0.28), some (-0.28), res⟩ s = (.ok (csd, occ, lead), s')) :
    (∀ n f, csd = .d1 (n + 1) f → f 0 ≤ 0.003) ∧ ∀ r c f, csd = .d2 (r + 1) (c + 1) f → f 0 0 ≤ 0.003 := by
  obtain ⟨mu, t, t', hpot, hresp⟩ := csd_parts (sens := extendedSensor) rfl rfl rfl h
  obtain ⟨o, ho, hob⟩ := quiet_first h
  have v0 : ∀ (a b : ℝ) (n : ℕ), argVoltage (.arr (a, b)) n 0 = a := by
    intro a b n
    unfold argVoltage
    dsimp only
    split_ifs <;> simp
  have key : ∀ y, CsdPixel (-0.087, b1) (-0.047, b2) csd occ o (-0.087, -0.047) y → y ≤ 0.003 := by
    intro y hp
    rw [csd_signal (sens := extendedSensor) rfl rfl rfl (Or.inl rfl) h ho hp]
    exact csd_start_low n1 n2 occ hob
  obtain ⟨t1, hrun⟩ := response_run extendedSensor mu ⟨(-0.087, b1), (-0.047, b2), (voltOfOption (some (-0.28))).lims,
    (voltOfOption (some (-0.28))).lims, occ⟩ o (firstOcc_spec ho) (Or.inl rfl)
  have hcsd := (Prod.mk.inj (hresp.symm.trans hrun)).1
  simp only [Except.ok.injEq] at hcsd
  have hmu := (potential_full hpot).2
  constructor
  · rintro n f rfl
    refine key _ (Or.inl ?_)
    rcases hmu with ⟨m, g, -, rfl, rfl⟩ | ⟨r, c, g, -, -, -, rfl⟩
    · cases hcsd
      refine ⟨_, _, g, rfl, rfl, 0, rfl, ?_, ?_⟩
      · rcases ho with ⟨m, e, he, rfl⟩ | ⟨r, c, e, he, rfl⟩
        · cases he; rfl
        · cases he
      · change _ = (argVoltage _ _ 0, argVoltage _ _ 0)
        rw [v0, v0]
    · cases hcsd
  · rintro r c f rfl
    refine key _ (Or.inr ?_)
    rcases hmu with ⟨m, g, -, rfl, rfl⟩ | ⟨r, c, g, -, -, rfl, rfl⟩
    · cases hcsd
    · cases hcsd
      refine ⟨_, _, _, g, rfl, rfl, 0, 0, rfl, ?_, ?_⟩
      · rcases ho with ⟨m, e, he, rfl⟩ | ⟨r, c, e, he, rfl⟩
        · cases he
        · cases he; rfl
      · change _ = (argVoltage _ _ 0, argVoltage _ _ 0)
        rw [v0, v0]

/-- Non-vacuity: a diagonal scan with 100 pixels, with closed sensor and from the upper limits with open sensor. -/
example (env : NoiseEnv τ) (lab : Labelling) (st : Option ScanState × NoiseState τ) :
    (∃ csd occ lead st', measure (quiet (extendedSim env lab)).csd ⟨[-0.2, -0.087], [-0.2, -0.047], some (-0.8), some (-0.7), .int (100 : ℕ)⟩ st =
      (.ok (.d1 100 csd, .d1 100 occ, .d1 100 lead), st') ∧ ∀ i, 0 < csd i ∧ csd i ≤ 0.0003) ∧
    ∃ csd occ lead st', measure (quiet (extendedSim env lab)).csd ⟨[-0.087, -0.1], [-0.047, -0.1], some (-0.28), some (-0.28), .int (100 : ℕ)⟩ st =
      (.ok (.d1 100 csd, .d1 100 occ, .d1 100 lead), st') ∧ csd 0 ≤ 0.003 := by
  constructor
  · obtain ⟨csd, o, l, s, e⟩ := quiet_line env lab (a1 := -0.2) (b1 := -0.087) (a2 := -0.2) (b2 := -0.047) (by unfold Within; norm_num)
      (by unfold Within; norm_num) (by norm_num) 100 (by omega) (s1 := -0.8) (s2 := -0.7) (by norm_num) (by norm_num) st
    exact ⟨csd, o, l, s, e, fun i => C89_csd_closed_partial env lab _ _ _ _ _ _ _ _ _ _ _ _ e (by norm_num) (by norm_num) _ _ _
      (Or.inl ⟨_, _, _, rfl, rfl, i, rfl, rfl, rfl⟩)⟩
  · obtain ⟨csd, o, l, s, e⟩ := quiet_line env lab (a1 := -0.087) (b1 := -0.1) (a2 := -0.047) (b2 := -0.1) (by unfold Within; norm_num)
      (by unfold Within; norm_num) (by norm_num) 100 (by omega) (s1 := -0.28) (s2 := -0.28) (by norm_num) (by norm_num) st
    exact ⟨csd, o, l, s, e, (C89_csd_start_actual env lab _ _ (by norm_num) (by norm_num) _ _ _ _ _ _ e).1 99 csd rfl⟩

/-- C89 is false for CSDs with open sensor: with both sensor gates at -0.28 V, every diagonal scan from the lower to the upper limits of the
plunger gates shows at least 0.0599 at its last pixel, and the same scan in the opposite direction shows at most 0.003 at its first pixel,
which has the same voltages. -/
theorem C89_csd_refuted (env : NoiseEnv τ) (lab : Labelling) (n : ℕ) (hn : 1 ≤ n) (st : Option ScanState × NoiseState τ) :
    ∃ (up down : Fin (n + 1) → ℝ) (o o' : Scan (ℝ × ℝ)) (l l' : Scan ℕ) (s s' : Option ScanState × NoiseState τ),
      measure (quiet (extendedSim env lab)).csd ⟨[-0.2, -0.087], [-0.2, -0.047], some (-0.28), some (-0.28), .int (n + 1 : ℕ)⟩ st =
        (.ok (.d1 (n + 1) up, o, l), s) ∧
      measure (quiet (extendedSim env lab)).csd ⟨[-0.087, -0.2], [-0.047, -0.2], some (-0.28), some (-0.28), .int (n + 1 : ℕ)⟩ st =
        (.ok (.d1 (n + 1) down, o', l'), s') ∧
      0.0599 ≤ up (Fin.last n) ∧ down 0 ≤ 0.003 := by
  obtain ⟨up, o, l, s, e⟩ := quiet_line env lab (a1 := -0.2) (b1 := -0.087) (a2 := -0.2) (b2 := -0.047) (by unfold Within; norm_num)
    (by unfold Within; norm_num) (by norm_num) (n + 1) (by omega) (s1 := -0.28) (s2 := -0.28) (by norm_num) (by norm_num) st
  obtain ⟨down, o', l', s', e'⟩ := quiet_line env lab (a1 := -0.087) (b1 := -0.2) (a2 := -0.047) (b2 := -0.2) (by unfold Within; norm_num)
    (by unfold Within; norm_num) (by norm_num) (n + 1) (by omega) (s1 := -0.28) (s2 := -0.28) (by norm_num) (by norm_num) st
  refine ⟨up, down, _, _, _, _, s, s', e, e', ?_, (C89_csd_start_actual env lab _ _ (by norm_num) (by norm_num) _ _ _ _ _ _ e').1 n down rfl⟩
  obtain ⟨o0, ho, hob⟩ := quiet_first e
  have vl : ∀ a b : ℝ, argVoltage (.arr (a, b)) (n + 1) n = b := by
    intro a b
    unfold argVoltage
    dsimp only
    rw [if_neg (by omega)]
    have : (n : ℝ) ≠ 0 := by exact_mod_cast (by omega : n ≠ 0)
    push_cast
    rw [add_sub_cancel_right, div_self this]
    ring
  have hp : CsdPixel (-0.2, -0.087) (-0.2, -0.047) (.d1 (n + 1) up) (.d1 (n + 1) o) (o (Fin.last n)) (-0.087, -0.047) (up (Fin.last n)) := by
    refine Or.inl ⟨_, _, _, rfl, rfl, Fin.last n, rfl, rfl, ?_⟩
    rw [Fin.val_last, vl, vl]
  rw [csd_signal (sens := extendedSensor) rfl rfl rfl (Or.inl rfl) e ho hp]
  exact csd_end_high _ (quiet_pixel e hp) hob

end SimCATS
