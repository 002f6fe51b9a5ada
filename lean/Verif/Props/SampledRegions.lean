import Verif.Lemmas.SampledRegions
import Verif.Props.SampledSim

/-!
Property C92: sampled sensor scan sensors can be closed and opened within the voltage limits of their sensor gates.
-/

namespace SimCATS

open Spec

variable {ρ τ : Type}

/-- C92, barriers: the fully conductive points of both barriers of a sampled sensor lie between 0.22 and 0.443 above the pinch-off points. -/
theorem C92_barriers (rng : CfgRng ρ) (hv : rng.Valid) (hz : rng.NormalNonzero) (q : ℝ) (h0 : 0 < q) (h1 : q ≤ 1) (comp : Bool) (s s' : ρ)
    (d : ScanSensor) (h : sampleScanSensor rng q comp s (.ok d, s')) :
    (0.22 ≤ d.barrier1.fullyConductive - d.barrier1.pinchOff ∧ d.barrier1.fullyConductive - d.barrier1.pinchOff ≤ 0.443) ∧
      (0.22 ≤ d.barrier2.fullyConductive - d.barrier2.pinchOff ∧ d.barrier2.fullyConductive - d.barrier2.pinchOff ≤ 0.443) := by
  obtain ⟨base, hb⟩ := sampled_regions hv hz h0 h1 h
  exact ⟨⟨hb.full1.1, hb.full1.2.trans (by norm_num)⟩, ⟨hb.full2.1, hb.full2.2.trans (by norm_num)⟩⟩

/-- Non-vacuity: a sensor is sampled. -/
example (comp : Bool) : ∃ d s', sampleScanSensor fairRng 0.5 comp 0 (.ok d, s') := fair_returns_scan comp

/-- C92, labels: whatever sensor scan a simulation with a sampled configuration returns, with its distortions, the conductive mask is 0 (not
conductive) at all pixels with both sensor gates at -0.688 V or below and not 0 at all pixels with both sensor gates at -0.3 V or above.  The
closed region has no peak labels. -/
theorem C92_labels (rng : CfgRng ρ) (hv : rng.Valid) (hz : rng.NormalNonzero) (lab : Labelling) (ty : String) (q : ℝ)
    (comp steepest : Bool) (t t' : ρ) (c : SampledConfig) (hc : sampleConfig rng lab ty q comp steepest t (.ok c, t'))
    (env : SampledEnv τ) (lab' : Labelling) (w1 w2 : ℝ × ℝ) (g1 g2 : VoltArg) (res : Resolution) (s s' : Option ScanState × NoiseState τ)
    (scan : Scan ℝ) (cond peaks : Scan ℕ)
    (h : c.measureScan env lab' ⟨[w1.1, w1.2], [w2.1, w2.2], g1, g2, res⟩ s = (.ok (scan, cond, peaks), s')) (w : ℝ × ℝ) (l m : ℕ)
    (hl : SensorPixel w1 w2 cond w l) (hm : SensorPixel w1 w2 peaks w m) :
    (w.1 ≤ -0.688 → w.2 ≤ -0.688 → l = 0 ∧ m = 0) ∧ (-0.3 ≤ w.1 → -0.3 ≤ w.2 → l ≠ 0) := by
  obtain ⟨d, hd, h⟩ := measureScan_scan h
  obtain ⟨-, h1, base, o, p, x, hb, -, hpt, -, -, -, -, -, hlab, hzero⟩ := sampled_view hv hz hc hd (sim := c.scanSim env lab' d) rfl rfl rfl
    (sampled_transitions hv hz hc) h
  constructor
  · intro a1 a2
    have hclosed := conductive_closed (full := potentialAt d 0 o (argVoltage g1 1 0, argVoltage g1 1 0) p)
      (mu := fun k => potentialAt d k o (argVoltage g1 1 0, argVoltage g2 1 0) w) (region_closed h1 hb hpt a1 a2)
    refine ⟨(hlab w l hl).trans hclosed, peaks_zero (fun l' hl' => ?_) hzero hm⟩
    rw [hlab w l' hl', hclosed]
    norm_num
  · intro a1 a2
    rw [hlab w l hl]
    exact conductive_ne_zero (region_conductive h1 hb hpt le_rfl a1 a2)

/-- Non-vacuity: an image of the whole range with all distortions active. -/
example (lab lab' : Labelling) (st : Option ScanState × NoiseState Unit) : ∃ c s' scan cond peaks st',
    sampleConfig fairRng lab "SensorScanSensorGeneric" 0.5 true false 0 (.ok c, s') ∧
    c.measureScan (plainSampledEnv (fun _ => true) true) lab' ⟨[-1, 0], [-1, 0], .num true (-0.1), .num true (-0.1), .arr [(100 : ℕ), (100 : ℕ)]⟩ st =
      (.ok (.d2 100 100 scan, .d2 100 100 cond, .d2 100 100 peaks), st') ∧ cond 0 0 = 0 ∧ cond 99 99 ≠ 0 := by
  obtain ⟨c, s', h⟩ := fair_config lab _ (Or.inr rfl) false
  obtain ⟨scan, cond, peaks, st', e⟩ := fair_image lab' h (.num true (-0.1)) (.num true (-0.1)) (Or.inr ⟨_, _, rfl, rfl, by norm_num, by norm_num⟩) st
  refine ⟨c, s', scan, cond, peaks, st', h, e, ?_, ?_⟩
  · exact ((C92_labels fairRng fairRng_valid fairRng_nonzero lab _ 0.5 true false 0 s' c h _ lab' (-1, 0) (-1, 0) _ _ _ _ _ _ _ _ e _ _ _
      (corner_pixels cond).1 (corner_pixels peaks).1).1 (by norm_num) (by norm_num)).1
  · exact (C92_labels fairRng fairRng_valid fairRng_nonzero lab _ 0.5 true false 0 s' c h _ lab' (-1, 0) (-1, 0) _ _ _ _ _ _ _ _ e _ _ _
      (corner_pixels cond).2 (corner_pixels peaks).2).2 (by norm_num) (by norm_num)

/-- C92, signal: in sensor scans without distortions, the signal of pixels with both sensor gates at -0.688 V or below is between 0 and
0.1% of the height of the barriers (0.25 times the quality multiplier). -/
theorem C92_signal (rng : CfgRng ρ) (hv : rng.Valid) (hz : rng.NormalNonzero) (lab : Labelling) (ty : String) (q : ℝ)
    (comp steepest : Bool) (t t' : ρ) (c : SampledConfig) (hc : sampleConfig rng lab ty q comp steepest t (.ok c, t')) (d : ScanSensor)
    (hd : c.sensor = .scan d) (env : SampledEnv τ) (lab' : Labelling) (w1 w2 : ℝ × ℝ) (g1 g2 : VoltArg) (res : Resolution)
    (s s' : Option ScanState × NoiseState τ) (scan : Scan ℝ) (cond peaks : Scan ℕ)
    (h : measureSensorScan (quiet (c.scanSim env lab' d)) ⟨[w1.1, w1.2], [w2.1, w2.2], g1, g2, res⟩ s = (.ok (scan, cond, peaks), s'))
    (w : ℝ × ℝ) (y : ℝ) (hy : SensorPixel w1 w2 scan w y) (a1 : w.1 ≤ -0.688) (a2 : w.2 ≤ -0.688) : 0 ≤ y ∧ y ≤ 0.001 * (0.25 * q) := by
  obtain ⟨h0, h1, base, o, p, x, hb, ho, hpt, -, -, -, -, -, -, -⟩ := sampled_view hv hz hc hd (sim := quiet (c.scanSim env lab' d)) rfl rfl rfl
    (sampled_transitions hv hz hc) h
  obtain ⟨r, e⟩ := scan_signal (sim := quiet (c.scanSim env lab' d)) hb.scan.undeformed rfl rfl h ho hy
  rw [e]
  have := region_signal h0 hb (riseOff d (scanState (argVoltage g1 1 0) r o) o) (region_closed h1 hb hpt a1 a2)
  refine ⟨this.1, this.2.trans (le_of_eq ?_)⟩
  norm_num
  ring

/-- Non-vacuity: an image of the whole range without distortions. -/
example (lab lab' : Labelling) (env : SampledEnv τ) (st : Option ScanState × NoiseState τ) : ∃ c s' d scan cond peaks st',
    sampleConfig fairRng lab "SensorScanSensorGeneric" 0.5 true false 0 (.ok c, s') ∧ c.sensor = .scan d ∧
    measureSensorScan (quiet (c.scanSim env lab' d)) ⟨[-1, 0], [-1, 0], .num true (-0.1), .num true (-0.1), .arr [(100 : ℕ), (100 : ℕ)]⟩ st =
      (.ok (.d2 100 100 scan, .d2 100 100 cond, .d2 100 100 peaks), st') ∧ scan 0 0 ≤ 0.001 * (0.25 * 0.5) := by
  obtain ⟨c, s', h⟩ := fair_config lab _ (Or.inr rfl) false
  obtain ⟨d, hd⟩ := sampled_scan_sensor fairRng_valid fairRng_nonzero h
  obtain ⟨scan, cond, peaks, st', e⟩ := sampled_quiet (sampled_parts fairRng_valid fairRng_nonzero h) hd env lab' (a1 := -1) (b1 := 0) (a2 := -1)
    (b2 := 0) (by unfold Within; norm_num) (by unfold Within; norm_num) (by norm_num) (by norm_num) 100 100 (by norm_num) (by norm_num)
    (g1 := .num true (-0.1)) (g2 := .num true (-0.1)) (Or.inr ⟨_, _, rfl, rfl, by norm_num, by norm_num⟩) st
  exact ⟨c, s', d, scan, cond, peaks, st', h, hd, e, (C92_signal fairRng fairRng_valid fairRng_nonzero lab _ 0.5 true false 0 s' c h d hd env lab'
    (-1, 0) (-1, 0) _ _ _ _ _ _ _ _ e _ _ (corner_pixels scan).1 (by norm_num) (by norm_num)).2⟩

/-- C92, open without plunger voltages: in sensor scans without plunger voltages, the conductive mask is 2 (fully conductive) at all pixels
with both sensor gates at -0.07 V or above, and there are no peak labels.
Missing: scans with plunger voltages, for which the claim is false without compensated lever arms (`C92_open_refuted`). -/
theorem C92_open_partial (rng : CfgRng ρ) (hv : rng.Valid) (hz : rng.NormalNonzero) (lab : Labelling) (ty : String) (q : ℝ)
    (comp steepest : Bool) (t t' : ρ) (c : SampledConfig) (hc : sampleConfig rng lab ty q comp steepest t (.ok c, t'))
    (env : SampledEnv τ) (lab' : Labelling) (w1 w2 : ℝ × ℝ) (res : Resolution) (s s' : Option ScanState × NoiseState τ)
    (scan : Scan ℝ) (cond peaks : Scan ℕ)
    (h : c.measureScan env lab' ⟨[w1.1, w1.2], [w2.1, w2.2], .none, .none, res⟩ s = (.ok (scan, cond, peaks), s')) (w : ℝ × ℝ) (l m : ℕ)
    (hl : SensorPixel w1 w2 cond w l) (hm : SensorPixel w1 w2 peaks w m) (a1 : -0.07 ≤ w.1) (a2 : -0.07 ≤ w.2) : l = 2 ∧ m = 0 := by
  obtain ⟨d, hd, h⟩ := measureScan_scan h
  obtain ⟨-, h1, base, o, p, x, hb, ho, hpt, -, -, hx, hfo, hp, hlab, hzero⟩ := sampled_view hv hz hc hd (sim := c.scanSim env lab' d) rfl rfl rfl
    (sampled_transitions hv hz hc) h
  have ho' : o = (0, 0) := ho
  subst ho'
  have hopen := conductive_open (d := d) (full := potentialAt d 0 (0, 0) (0, 0) p) (mu := fun k => potentialAt d k (0, 0) (0, 0) w)
    (region_conductive h1 hb hpt le_rfl (w := w) (le_trans (by norm_num) a1) (le_trans (by norm_num) a2))
    (region_open hb hx hfo hp a1 a2)
  refine ⟨(hlab w l hl).trans hopen, peaks_zero (fun l' hl' => ?_) hzero hm⟩
  rw [hlab w l' hl']
  exact fun e => absurd (e.symm.trans hopen) (by norm_num)

/-- Non-vacuity: an image of the whole range with all distortions active. -/
example (lab lab' : Labelling) (st : Option ScanState × NoiseState Unit) : ∃ c s' scan cond peaks st',
    sampleConfig fairRng lab "SensorScanSensorGeneric" 0.5 true false 0 (.ok c, s') ∧
    c.measureScan (plainSampledEnv (fun _ => true) true) lab' ⟨[-1, 0], [-1, 0], .none, .none, .arr [(100 : ℕ), (100 : ℕ)]⟩ st =
      (.ok (.d2 100 100 scan, .d2 100 100 cond, .d2 100 100 peaks), st') ∧ cond 99 99 = 2 := by
  obtain ⟨c, s', h⟩ := fair_config lab _ (Or.inr rfl) false
  obtain ⟨scan, cond, peaks, st', e⟩ := fair_image lab' h .none .none (Or.inl ⟨rfl, rfl⟩) st
  exact ⟨c, s', scan, cond, peaks, st', h, e, (C92_open_partial fairRng fairRng_valid fairRng_nonzero lab _ 0.5 true false 0 s' c h _ lab'
    (-1, 0) (-1, 0) _ _ _ _ _ _ e _ _ _ (corner_pixels cond).2 (corner_pixels peaks).2 (by norm_num) (by norm_num)).1⟩

/-- C92, open with plunger voltages: if the lever arms are compensated and the dots have at most 25 electrons at the plunger voltages of the
sensor scan, the conductive mask is 2 (fully conductive) at all pixels with both sensor gates at -0.03 V or above, and there are no peak labels.
Missing: more electrons, and sensors without compensated lever arms. -/
theorem C92_open_compensated_partial (rng : CfgRng ρ) (hv : rng.Valid) (hz : rng.NormalNonzero) (lab : Labelling) (ty : String) (q : ℝ)
    (steepest : Bool) (t t' : ρ) (c : SampledConfig) (hc : sampleConfig rng lab ty q true steepest t (.ok c, t'))
    (env : SampledEnv τ) (lab' : Labelling) (w1 w2 : ℝ × ℝ) (g1 g2 : VoltArg) (res : Resolution) (s s' : Option ScanState × NoiseState τ)
    (hN : ∀ o, ScanOccupation (some (idealGen c.ideal lab')) g1 g2 s o → o.1 + o.2 ≤ 25)
    (scan : Scan ℝ) (cond peaks : Scan ℕ)
    (h : c.measureScan env lab' ⟨[w1.1, w1.2], [w2.1, w2.2], g1, g2, res⟩ s = (.ok (scan, cond, peaks), s')) (w : ℝ × ℝ) (l m : ℕ)
    (hl : SensorPixel w1 w2 cond w l) (hm : SensorPixel w1 w2 peaks w m) (a1 : -0.03 ≤ w.1) (a2 : -0.03 ≤ w.2) : l = 2 ∧ m = 0 := by
  obtain ⟨d, hd, h⟩ := measureScan_scan h
  obtain ⟨-, h1, base, o, p, x, hb, ho, hpt, -, -, hx, hfo, hp, hlab, hzero⟩ := sampled_view hv hz hc hd (sim := c.scanSim env lab' d) rfl rfl rfl
    (sampled_transitions hv hz hc) h
  have hpt : RegionPoint o (argVoltage g1 1 0, argVoltage g2 1 0) 25 := ⟨hpt.o1, hpt.o2, by exact_mod_cast hN o ho, hpt.v1, hpt.v2⟩
  have hopen := conductive_open (d := d) (full := potentialAt d 0 o (argVoltage g1 1 0, argVoltage g1 1 0) p)
    (mu := fun k => potentialAt d k o (argVoltage g1 1 0, argVoltage g2 1 0) w) (region_conductive h1 hb hpt (by norm_num) (w := w) (le_trans (by norm_num) a1) (le_trans (by norm_num) a2))
    (region_open_compensated h1 hb hpt hx hfo hp a1 a2)
  refine ⟨(hlab w l hl).trans hopen, peaks_zero (fun l' hl' => ?_) hzero hm⟩
  rw [hlab w l' hl']
  exact fun e => absurd (e.symm.trans hopen) (by norm_num)

/-- C92, open at low plunger voltages: with compensated lever arms, the conductive mask is 2 (fully conductive) at all pixels with both sensor
gates at -0.03 V or above in all sensor scans with low plunger voltages, for example with both plunger gates at -0.122 V or below, and there are
no peak labels.
Missing: higher plunger voltages, and sensors without compensated lever arms. -/
theorem C92_open_low_partial (rng : CfgRng ρ) (hv : rng.Valid) (hz : rng.NormalNonzero) (lab : Labelling) (ty : String) (q : ℝ)
    (steepest : Bool) (t t' : ρ) (c : SampledConfig) (hc : sampleConfig rng lab ty q true steepest t (.ok c, t'))
    (env : SampledEnv τ) (lab' : Labelling) (w1 w2 : ℝ × ℝ) (b1 b2 : Bool) (v1 v2 : ℝ) (hlow : v1 + v2 + 0.54688 * |v1 - v2| ≤ -0.244)
    (res : Resolution) (s s' : Option ScanState × NoiseState τ) (scan : Scan ℝ) (cond peaks : Scan ℕ)
    (h : c.measureScan env lab' ⟨[w1.1, w1.2], [w2.1, w2.2], .num b1 v1, .num b2 v2, res⟩ s = (.ok (scan, cond, peaks), s')) (w : ℝ × ℝ) (l m : ℕ)
    (hl : SensorPixel w1 w2 cond w l) (hm : SensorPixel w1 w2 peaks w m) (a1 : -0.03 ≤ w.1) (a2 : -0.03 ≤ w.2) : l = 2 ∧ m = 0 := by
  obtain ⟨s3, hi⟩ := sampled_ideal hv hz hc
  exact C92_open_compensated_partial rng hv hz lab ty q steepest t t' c hc env lab' w1 w2 _ _ res s s' (fun o ho => sampled_few hv hi hlow ho)
    scan cond peaks h w l m hl hm a1 a2

/-- Non-vacuity of both theorems: an image of the whole range with both plunger gates at -0.13 V and all distortions active. -/
example (lab lab' : Labelling) (st : Option ScanState × NoiseState Unit) : ∃ c s' scan cond peaks st',
    sampleConfig fairRng lab "SensorScanSensorGeneric" 0.5 true false 0 (.ok c, s') ∧
    (∀ o, ScanOccupation (some (idealGen c.ideal lab')) (.num true (-0.13)) (.num true (-0.13)) st o → o.1 + o.2 ≤ 25) ∧
    c.measureScan (plainSampledEnv (fun _ => true) true) lab' ⟨[-1, 0], [-1, 0], .num true (-0.13), .num true (-0.13), .arr [(100 : ℕ), (100 : ℕ)]⟩ st =
      (.ok (.d2 100 100 scan, .d2 100 100 cond, .d2 100 100 peaks), st') ∧ cond 99 99 = 2 := by
  obtain ⟨c, s', h⟩ := fair_config lab _ (Or.inr rfl) false
  obtain ⟨s3, hi⟩ := sampled_ideal fairRng_valid fairRng_nonzero h
  obtain ⟨scan, cond, peaks, st', e⟩ := fair_image lab' h (.num true (-0.13)) (.num true (-0.13)) (Or.inr ⟨_, _, rfl, rfl, by norm_num, by norm_num⟩) st
  exact ⟨c, s', scan, cond, peaks, st', h, fun o ho => sampled_few fairRng_valid hi (by norm_num) ho, e,
    (C92_open_low_partial fairRng fairRng_valid fairRng_nonzero lab _ 0.5 false 0 s' c h _ lab' (-1, 0) (-1, 0) _ _ _ _ (by norm_num) _ _ _ _ _ _ e _ _ _
      (corner_pixels cond).2 (corner_pixels peaks).2 (by norm_num) (by norm_num)).1⟩

/-- C92 is false with plunger voltages: there is a sampled configuration with uncompensated lever arms whose sensor is nowhere fully
conductive, in no sensor scan within the limits, with the plunger gates at -0.06 V and -0.2 V. -/
theorem C92_open_refuted (lab : Labelling) (steepest : Bool) : ∃ (rng : CfgRng ℕ) (c : SampledConfig) (t' : ℕ), rng.Valid ∧ rng.NormalNonzero ∧
    sampleConfig rng lab "SensorScanSensorGeneric" 1 false steepest 0 (.ok c, t') ∧
    ∀ (τ : Type) (env : SampledEnv τ) (lab' : Labelling) (w1 w2 : ℝ × ℝ) (res : Resolution) (s s' : Option ScanState × NoiseState τ)
      (scan : Scan ℝ) (cond peaks : Scan ℕ),
      c.measureScan env lab' ⟨[w1.1, w1.2], [w2.1, w2.2], .num true (-0.06), .num true (-0.2), res⟩ s = (.ok (scan, cond, peaks), s') →
      ∀ w l, SensorPixel w1 w2 cond w l → l ≠ 2 := by
  obtain ⟨c, t', hc⟩ := steered_config lab steepest
  refine ⟨steeredRng, c, t', steered_valid, steered_nonzero, hc, ?_⟩
  intro τ env lab' w1 w2 res s s' scan cond peaks h w l hl
  obtain ⟨d, hd, h⟩ := measureScan_scan h
  obtain ⟨h0, h1, base, o, p, x, hb, -, hpt, hw1, hw2, hx, hfo, hp, hlab, -⟩ := sampled_view steered_valid steered_nonzero hc hd
    (sim := c.scanSim env lab' d) rfl rfl rfl (sampled_transitions steered_valid steered_nonzero hc) h
  obtain ⟨-, -, s1, s2, hs⟩ := sampled_scan hc hd
  obtain ⟨v1, v2⟩ := pixel_mem hl hw1 hw2
  rw [hlab w l hl]
  exact conductive_not_open (steered_closed h1 le_rfl hb (steered_scan h0 _ _ _ hs) hpt hx hfo hp v1.2 v2.2)

/-- Non-vacuity: the sensor scans of the theorem exist, for example an image of the whole range with all distortions active. -/
example (lab lab' : Labelling) (steepest : Bool) (st : Option ScanState × NoiseState Unit) (c : SampledConfig) (t' : ℕ)
    (hc : sampleConfig steeredRng lab "SensorScanSensorGeneric" 1 false steepest 0 (.ok c, t')) : ∃ scan cond peaks st',
    c.measureScan (plainSampledEnv (fun _ => true) true) lab' ⟨[-1, 0], [-1, 0], .num true (-0.06), .num true (-0.2), .arr [(100 : ℕ), (100 : ℕ)]⟩ st =
      (.ok (.d2 100 100 scan, .d2 100 100 cond, .d2 100 100 peaks), st') := by
  refine C91_scan_image_partial steeredRng steered_valid steered_nonzero lab 1 false steepest 0 t' c hc _ (plainSampledEnv_total _ _) lab' _ _ _ _
    (by unfold Within; norm_num) (by unfold Within; norm_num) (by norm_num) (by norm_num) 100 100 (by norm_num) (by norm_num) (Or.inl ?_) _ _
    (Or.inr ⟨_, _, rfl, rfl, by norm_num, by norm_num⟩) st
  rw [abs_of_nonneg (by norm_num)]; norm_num

end SimCATS
