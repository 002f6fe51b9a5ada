import Verif.Lemmas.SampledSim

/-! Measurements with sampled configurations. -/

namespace SimCATS

open Spec

variable {ρ τ : Type}

/-! ### Charge stability diagrams -/

/-- C91, images: a simulation created from a sampled configuration (any kind of sensor, quality and random numbers of the sampler), including
its distortions, returns an image for all plunger voltages in the limits and all given sensor gate voltages in the limits, whatever the random
numbers of the distortions and the previous measurements are, if both sides of a pixel are at most 0.14 V / 12 long and, with numpy 2, there
are at most 256 rows.
Missing: measurements without sensor gate voltages (see `C91_omitted_refuted`), more rows with numpy 2, coarser images (see
`C91_coarse_refuted`). -/
theorem C91_image_partial (rng : CfgRng ρ) (hv : rng.Valid) (hz : rng.NormalNonzero) (lab : Labelling) (ty : String) (q : ℝ)
    (comp steepest : Bool) (t t' : ρ) (c : SampledConfig) (hc : sampleConfig rng lab ty q comp steepest t (.ok c, t'))
    (env : SampledEnv τ) (henv : SampledTotal env) (lab' : Labelling) (a1 b1 a2 b2 : ℝ) (w1 : Within (-0.2) (-0.06) a1 b1)
    (w2 : Within (-0.2) (-0.06) a2 b2) (n1 : a1 ≠ b1) (n2 : a2 ≠ b2) (m n : ℕ) (hm : 2 ≤ m) (hn : 2 ≤ n)
    (d1 : |b1 - a1| ≤ 0.14 / 12 * ((n : ℝ) - 1)) (d2 : |b2 - a2| ≤ 0.14 / 12 * ((m : ℝ) - 1)) (hm' : (m : ℝ) ≤ 1e20 * |b1 - a1|)
    (hn' : (n : ℝ) ≤ 1e20 * |b2 - a2|) (h256 : env.np2 = true → m ≤ 256) (s1 s2 : ℝ) (hs1 : -1 ≤ s1 ∧ s1 ≤ 0) (hs2 : -1 ≤ s2 ∧ s2 ≤ 0)
    (st : Option ScanState × NoiseState τ) :
    ∃ csd occ lead st', c.measure env lab' ⟨[a1, b1], [a2, b2], some s1, some s2, .arr [n, m]⟩ st =
      (.ok (.d2 m n csd, .d2 m n occ, .d2 m n lead), st') := by
  obtain ⟨p, st⟩ := st
  have hp := sampled_parts hv hz hc
  have hm1 : (0 : ℝ) < (m : ℝ) - 1 := by
    have : (2 : ℝ) ≤ m := by exact_mod_cast hm
    linarith
  have hn1 : (0 : ℝ) < (n : ℝ) - 1 := by
    have : (2 : ℝ) ≤ n := by exact_mod_cast hn
    linarith
  have hf : FineBelow (-0.06) (-0.06) sampledPixel (a1, b1) (a2, b2) m n := ⟨⟨w1.1.2, w1.2.2⟩, ⟨w2.1.2, w2.2.2⟩, n1, n2, hm, hn,
    (div_le_iff₀ hn1).2 d1, (div_le_iff₀ hm1).2 d2⟩
  obtain ⟨o, l, s', e, rfl⟩ := (hp.csd lab' st).two _ _ _ _ st rfl hf
  obtain ⟨o', l', gen', s2', e2⟩ := plain_occ2d sampledPixel_down (hp.csd lab') (sampled_plain henv) hf hm' hn' h256 o l s'
  rw [← sampled_occ] at e2
  obtain ⟨k, hk, hpx⟩ := hf.rtn sampledPixel_sides
  have hk' : ∀ y : Scan ℝ, SameShape (Scan.d2 m n o') y → rtnFactor (a1, b1) (a2, b2) y = some k := by
    intro y hy
    cases hy
    exact hk _
  obtain ⟨csd, st', er, hcsd⟩ := sampled_run hp (sampled_check w1 w2 hs1 hs2 (res := .arr [n, m]) (by
    unfold resCheck
    simp [n1, n2]
    omega)) (p := p) e e2 (by
      intro d
      obtain ⟨f, ef⟩ := generic_pot2d d (g1 := (a1, b1)) (g2 := (a2, b2)) hm hn o'
      exact ⟨_, ef, .d2 _ _ _ _⟩) (by
      intro d
      obtain ⟨f, ef⟩ := potential_d2 d (r := m) (c := n) (by omega) (by omega) o' (.arr (a1, b1)) (.arr (a2, b2)) (.num true s1) (.num true s2)
        (Or.inr ⟨rfl, rfl⟩)
      exact ⟨_, _, _, ef, show firstOcc (.d2 m n o') = .ok (o' ⟨0, by omega⟩ ⟨0, by omega⟩) from dif_pos ⟨by omega, by omega⟩, .d2 _ _ _ _⟩)
    (sampled_pot henv hk' hpx) (sampled_resp henv hk' (by norm_num at hpx ⊢; linarith))
  cases hcsd with
  | d2 _ _ _ g => exact ⟨g, o', l', st', er⟩

/-- Non-vacuity: sampled configurations of both kinds, the whole range with 100 x 100 pixels, all distortions active. -/
example (lab lab' : Labelling) (ty : String) (hty : ty = "SensorGeneric" ∨ ty = "SensorScanSensorGeneric") :
    ∃ c s', sampleConfig fairRng lab ty 0.5 true false 0 (.ok c, s') ∧ ∀ st, ∃ csd occ lead st',
      c.measure (plainSampledEnv (fun _ => true) true) lab' ⟨[-0.06, -0.2], [-0.2, -0.06], some (-0.5), some (-0.5), .arr [(100 : ℕ), (100 : ℕ)]⟩ st =
        (.ok (.d2 100 100 csd, .d2 100 100 occ, .d2 100 100 lead), st') := by
  obtain ⟨c, s', h⟩ := fair_config lab ty hty false
  refine ⟨c, s', h, fun st => ?_⟩
  refine C91_image_partial fairRng fairRng_valid fairRng_nonzero lab ty 0.5 true false 0 s' c h _ (plainSampledEnv_total _ _) lab' _ _ _ _
    (by unfold Within; norm_num) (by unfold Within; norm_num) (by norm_num) (by norm_num) 100 100 (by norm_num) (by norm_num) ?_ ?_ ?_ ?_
    (by norm_num) _ _ (by norm_num) (by norm_num) st
  · rw [abs_of_nonpos (by norm_num)]; norm_num
  · rw [abs_of_nonneg (by norm_num)]; norm_num
  · rw [abs_of_nonpos (by norm_num)]; norm_num
  · rw [abs_of_nonneg (by norm_num)]; norm_num

/-- C91, 1D scans of both plunger gates.
Missing: scans of one gate (see `C91_fixed_refuted`), scans with more than 22.37 mV per pixel, more than 256 pixels with numpy 2, and
measurements without sensor gate voltages. -/
theorem C91_line_partial (rng : CfgRng ρ) (hv : rng.Valid) (hz : rng.NormalNonzero) (lab : Labelling) (ty : String) (q : ℝ)
    (comp steepest : Bool) (t t' : ρ) (c : SampledConfig) (hc : sampleConfig rng lab ty q comp steepest t (.ok c, t'))
    (env : SampledEnv τ) (henv : SampledTotal env) (lab' : Labelling) (a1 b1 a2 b2 : ℝ) (w1 : Within (-0.2) (-0.06) a1 b1)
    (w2 : Within (-0.2) (-0.06) a2 b2) (n1 : a1 ≠ b1) (n2 : a2 ≠ b2) (n : ℕ) (hn : 1 ≤ n)
    (d1 : |b1 - a1| ≤ 0.02237 * n) (d2 : |b2 - a2| ≤ 0.02237 * n) (hm' : (n : ℝ) ≤ 1e20 * |b1 - a1|)
    (hn' : (n : ℝ) ≤ 1e20 * |b2 - a2|) (h256 : env.np2 = true → n ≤ 256) (s1 s2 : ℝ) (hs1 : -1 ≤ s1 ∧ s1 ≤ 0) (hs2 : -1 ≤ s2 ∧ s2 ≤ 0)
    (st : Option ScanState × NoiseState τ) :
    ∃ csd occ lead st', c.measure env lab' ⟨[a1, b1], [a2, b2], some s1, some s2, .int n⟩ st =
      (.ok (.d1 n csd, .d1 n occ, .d1 n lead), st') := by
  obtain ⟨p, st⟩ := st
  have hp := sampled_parts hv hz hc
  have hf : LineBelow (-0.06) (-0.06) (a1, b1) (a2, b2) n := ⟨⟨w1.1.2, w1.2.2⟩, ⟨w2.1.2, w2.2.2⟩, hn, Or.inl n1⟩
  obtain ⟨o, l, s', e, rfl⟩ := (hp.csd lab' st).one _ _ _ st rfl hf
  obtain ⟨o', l', gen', s2', e2⟩ := plain_occ1d (hp.csd lab') (sampled_plain henv) hf n1 n2 hm' hn' h256 o l s'
  rw [← sampled_occ] at e2
  have p1 : 0 < |b1 - a1| := abs_pos.mpr (sub_ne_zero.mpr n1.symm)
  have hmx : 0 < max |b1 - a1| |b2 - a2| := lt_of_lt_of_le p1 (le_max_left _ _)
  have hk' : ∀ y : Scan ℝ, SameShape (Scan.d1 n o') y → rtnFactor (a1, b1) (a2, b2) y = some (n / max |b1 - a1| |b2 - a2|) := by
    intro y hy
    cases hy
    exact line_rtn hn n1 _
  have hpx : 1 ≤ 0.0223701 * ((n : ℝ) / max |b1 - a1| |b2 - a2|) := by
    rw [← mul_div_assoc, le_div_iff₀ hmx, one_mul]
    have hn' : (0 : ℝ) ≤ n := by positivity
    refine max_le ?_ ?_
    · norm_num at d1 ⊢
      linarith
    · norm_num at d2 ⊢
      linarith
  obtain ⟨csd, st', er, hcsd⟩ := sampled_run hp (sampled_check w1 w2 hs1 hs2 (res := .int n) rfl) (p := p) e e2 (by
      intro d
      obtain ⟨f, ef⟩ := generic_pot1d d (g1 := (a1, b1)) (g2 := (a2, b2)) hn o'
      exact ⟨_, ef, .d1 _ _ _⟩) (by
      intro d
      obtain ⟨f, ef⟩ := potential_d1 d (n := n) (by omega) o' (.arr (a1, b1)) (.arr (a2, b2)) (.num true s1) (.num true s2) (Or.inr ⟨rfl, rfl⟩)
      exact ⟨_, _, _, ef, show firstOcc (.d1 n o') = .ok (o' ⟨0, by omega⟩) from dif_pos (by omega), .d1 _ _ _⟩)
    (sampled_pot henv hk' hpx) (sampled_resp henv hk' (by norm_num at hpx ⊢; linarith))
  cases hcsd with
  | d1 _ _ g => exact ⟨g, o', l', st', er⟩

/-- Non-vacuity: sampled configurations of both kinds, a diagonal scan of the whole range, all distortions active. -/
example (lab lab' : Labelling) (ty : String) (hty : ty = "SensorGeneric" ∨ ty = "SensorScanSensorGeneric") :
    ∃ c s', sampleConfig fairRng lab ty 0.5 true false 0 (.ok c, s') ∧ ∀ st, ∃ csd occ lead st',
      c.measure (plainSampledEnv (fun _ => true) true) lab' ⟨[-0.2, -0.06], [-0.06, -0.2], some (-0.5), some 0, .int (50 : ℕ)⟩ st =
        (.ok (.d1 50 csd, .d1 50 occ, .d1 50 lead), st') := by
  obtain ⟨c, s', h⟩ := fair_config lab ty hty false
  refine ⟨c, s', h, fun st => ?_⟩
  refine C91_line_partial fairRng fairRng_valid fairRng_nonzero lab ty 0.5 true false 0 s' c h _ (plainSampledEnv_total _ _) lab' _ _ _ _
    (by unfold Within; norm_num) (by unfold Within; norm_num) (by norm_num) (by norm_num) 50 (by norm_num) ?_ ?_ ?_ ?_
    (by norm_num) _ _ (by norm_num) (by norm_num) st
  · rw [abs_of_nonneg (by norm_num)]; norm_num
  · rw [abs_of_nonpos (by norm_num)]; norm_num
  · rw [abs_of_nonneg (by norm_num)]; norm_num
  · rw [abs_of_nonpos (by norm_num)]; norm_num

/-- C91 is false for measurements without sensor gate voltages, which are optional arguments of `measure` and are not used by the default
sensor type "SensorGeneric": the sampler sets limits of the sensor gate voltages, and with limits these measurements fail with `TypeError`,
for every sampled configuration, all plunger voltages in the limits and all resolutions. -/
theorem C91_omitted_refuted (rng : CfgRng ρ) (hv : rng.Valid) (hz : rng.NormalNonzero) (lab : Labelling) (ty : String) (q : ℝ)
    (comp steepest : Bool) (t t' : ρ) (c : SampledConfig) (hc : sampleConfig rng lab ty q comp steepest t (.ok c, t'))
    (env : SampledEnv τ) (lab' : Labelling) (a1 b1 a2 b2 : ℝ) (w1 : Within (-0.2) (-0.06) a1 b1) (w2 : Within (-0.2) (-0.06) a2 b2)
    (res : Resolution) (st : Option ScanState × NoiseState τ) :
    c.measure env lab' ⟨[a1, b1], [a2, b2], none, none, res⟩ st = (.error .typeError, st) :=
  sampled_check_error (sampled_parts hv hz hc) env lab' (sampled_omitted w1 w2 res) st

/-- Non-vacuity: sampled configurations of both kinds, the whole range with 100 x 100 pixels. -/
example (lab lab' : Labelling) (ty : String) (hty : ty = "SensorGeneric" ∨ ty = "SensorScanSensorGeneric") (env : SampledEnv τ) :
    ∃ c s', sampleConfig fairRng lab ty 0.5 true false 0 (.ok c, s') ∧ ∀ st,
      c.measure env lab' ⟨[-0.2, -0.06], [-0.2, -0.06], none, none, .arr [100, 100]⟩ st = (.error .typeError, st) := by
  obtain ⟨c, s', h⟩ := fair_config lab ty hty false
  exact ⟨c, s', h, fun st => C91_omitted_refuted fairRng fairRng_valid fairRng_nonzero lab ty 0.5 true false 0 s' c h env lab' _ _ _ _
    (by unfold Within; norm_num) (by unfold Within; norm_num) _ st⟩

/-- C91 is false for coarse images: an image of the whole range with 2 x 2 pixels fails with `IndexError`, for every sampled configuration and
all given sensor gate voltages. -/
theorem C91_coarse_refuted (rng : CfgRng ρ) (hv : rng.Valid) (hz : rng.NormalNonzero) (lab : Labelling) (ty : String) (q : ℝ)
    (comp steepest : Bool) (t t' : ρ) (c : SampledConfig) (hc : sampleConfig rng lab ty q comp steepest t (.ok c, t'))
    (env : SampledEnv τ) (lab' : Labelling) (s1 s2 : ℝ) (hs1 : -1 ≤ s1 ∧ s1 ≤ 0) (hs2 : -1 ≤ s2 ∧ s2 ≤ 0)
    (st : Option ScanState × NoiseState τ) :
    c.measure env lab' ⟨[-0.2, -0.06], [-0.2, -0.06], some s1, some s2, .arr [2, 2]⟩ st = (.error .indexError, st) := by
  obtain ⟨s, hi⟩ := sampled_ideal hv hz hc
  refine sampled_csd_error (sampled_parts hv hz hc) (sampled_check (by unfold Within; norm_num) (by unfold Within; norm_num) hs1 hs2 (by
    unfold resCheck
    norm_num)) (C62_refuted rng hv lab lab' t s c.ideal hi) st

/-- Non-vacuity: sampled configurations of both kinds. -/
example (lab lab' : Labelling) (ty : String) (hty : ty = "SensorGeneric" ∨ ty = "SensorScanSensorGeneric") (env : SampledEnv τ) :
    ∃ c s', sampleConfig fairRng lab ty 0.5 true false 0 (.ok c, s') ∧ ∀ st,
      c.measure env lab' ⟨[-0.2, -0.06], [-0.2, -0.06], some (-0.5), some (-0.5), .arr [2, 2]⟩ st = (.error .indexError, st) := by
  obtain ⟨c, s', h⟩ := fair_config lab ty hty false
  exact ⟨c, s', h, fun st => C91_coarse_refuted fairRng fairRng_valid fairRng_nonzero lab ty 0.5 true false 0 s' c h env lab' _ _
    (by norm_num) (by norm_num) st⟩

/-- C91 is false for 1D scans of one plunger gate: whenever the blurring strength is drawn and the dot jumps of gate 2 are activated
(probability 1%), a sweep of gate 1 with fixed gate 2 fails with `ValueError`, for every sampled configuration. -/
theorem C91_fixed_refuted (rng : CfgRng ρ) (hv : rng.Valid) (hz : rng.NormalNonzero) (lab : Labelling) (ty : String) (q : ℝ)
    (comp steepest : Bool) (t t' : ρ) (c : SampledConfig) (hc : sampleConfig rng lab ty q comp steepest t (.ok c, t'))
    (env : SampledEnv τ) (henv : SampledTotal env) (hb : ∀ s, ∃ s', env.jumps0.binomial 0.01 s = (.ok true, s')) (lab' : Labelling)
    (a1 b1 a2 : ℝ) (w1 : Within (-0.2) (-0.06) a1 b1) (w2 : Within (-0.2) (-0.06) a2 a2) (n1 : a1 ≠ b1) (n : ℕ) (hn : 1 ≤ n)
    (s1 s2 : ℝ) (hs1 : -1 ≤ s1 ∧ s1 ≤ 0) (hs2 : -1 ≤ s2 ∧ s2 ≤ 0) (st : Option ScanState × NoiseState τ) :
    (c.measure env lab' ⟨[a1, b1], [a2, a2], some s1, some s2, .int n⟩ st).1 = .error .valueError := by
  obtain ⟨p, st⟩ := st
  have hp := sampled_parts hv hz hc
  have hf : LineBelow (-0.06) (-0.06) (a1, b1) (a2, a2) n := ⟨⟨w1.1.2, w1.2.2⟩, ⟨w2.1.2, w2.2.2⟩, hn, Or.inl n1⟩
  obtain ⟨o, l, s', e, rfl⟩ := (hp.csd lab' st).one _ _ _ st rfl hf
  refine sampled_occ_error hp (sampled_check w1 w2 hs1 hs2 (res := .int n) rfl) e ?_
  rw [sampled_occ]
  obtain ⟨v, tv, hvv⟩ := (sampled_plain henv).blur s'
  obtain ⟨o1, ho1⟩ := blur_apply1d (env.blur fermiStrength) (g1 := (a1, b1)) (g2 := (a2, a2)) (Or.inl n1) o l v
  obtain ⟨t2, ht2⟩ := hb tv
  unfold applyOcc
  rw [M.bind_eq (blur_fresh hvv ho1 _)]
  unfold applyOcc
  refine M.bind_error (run_fst (jumps0Slot τ) ?_)
  exact C55_fixed_refuted (env.jumpsG2 0.01 (100 * 0.03 / 100) (6 * 0.03 / 100)) n o1 l (a1, b1) (a2, a2) (.inr ⟨rfl, rfl⟩) _ _
    { s' with blur := some v, gens := tv } { s' with blur := some v, gens := t2 } _ _ _ _
    (onGens_eq (x := env.jumps0.binomial 0.01) (s := { s' with blur := some v, gens := tv }) ht2) rfl rfl

/-- Non-vacuity: sampled configurations of both kinds, a sweep of gate 1 with 100 pixels. -/
example (lab lab' : Labelling) (ty : String) (hty : ty = "SensorGeneric" ∨ ty = "SensorScanSensorGeneric") :
    ∃ c s', sampleConfig fairRng lab ty 0.5 true false 0 (.ok c, s') ∧ ∀ st,
      (c.measure (plainSampledEnv (fun _ => true) true) lab' ⟨[-0.2, -0.06], [-0.1, -0.1], some 0, some 0, .int (100 : ℕ)⟩ st).1 =
        .error .valueError := by
  obtain ⟨c, s', h⟩ := fair_config lab ty hty false
  exact ⟨c, s', h, fun st => C91_fixed_refuted fairRng fairRng_valid fairRng_nonzero lab ty 0.5 true false 0 s' c h _ (plainSampledEnv_total _ _)
    (fun s => ⟨s, rfl⟩) lab' _ _ _ (by unfold Within; norm_num) (by unfold Within; norm_num) (by norm_num) 100 (by norm_num) 0 0 (by norm_num)
    (by norm_num) st⟩

/-! ### Sensor scans -/

/-- C91, sensor scan images: a simulation created from a sampled configuration with a sensor scan sensor returns a sensor scan image with both
label masks for all sensor gate voltages in the limits, without plunger voltages or with plunger voltages in the limits, if one of the gates
is swept by at most 22.37 mV per pixel (counted with the number of pixels of the other gate, see C36).
Missing: coarser images. -/
theorem C91_scan_image_partial (rng : CfgRng ρ) (hv : rng.Valid) (hz : rng.NormalNonzero) (lab : Labelling) (q : ℝ)
    (comp steepest : Bool) (t t' : ρ) (c : SampledConfig) (hc : sampleConfig rng lab "SensorScanSensorGeneric" q comp steepest t (.ok c, t'))
    (env : SampledEnv τ) (henv : SampledTotal env) (lab' : Labelling) (a1 b1 a2 b2 : ℝ) (w1 : Within (-1) 0 a1 b1)
    (w2 : Within (-1) 0 a2 b2) (n1 : a1 ≠ b1) (n2 : a2 ≠ b2) (m n : ℕ) (hm : 2 ≤ m) (hn : 2 ≤ n)
    (hs : |b1 - a1| ≤ 0.02237 * m ∨ |b2 - a2| ≤ 0.02237 * n) (g1 g2 : VoltArg) (hg : SampledFixed g1 g2) (st : Option ScanState × NoiseState τ) :
    ∃ scan cond peaks st', c.measureScan env lab' ⟨[a1, b1], [a2, b2], g1, g2, .arr [n, m]⟩ st =
      (.ok (.d2 m n scan, .d2 m n cond, .d2 m n peaks), st') := by
  obtain ⟨p, st⟩ := st
  have hp := sampled_parts hv hz hc
  obtain ⟨d, hd⟩ := sampled_scan_sensor hv hz hc
  obtain ⟨ps, hps⟩ := (hp.scan d hd).2
  rw [sampled_scanCheck hp hd env lab' hg w1 w2 (by
    unfold fixedIn2d
    simp [n1, n2]) (by
    unfold scanResCheck
    simp
    omega)]
  obtain ⟨o, ho⟩ := sampled_occ2d hp lab' hg [a1, b1] [a2, b2] m n (p, st)
  obtain ⟨f, ef⟩ := potential_d2 d (r := m) (c := n) (by omega) (by omega) (fun _ _ => o) g1 g2 (.arr (a1, b1)) (.arr (a2, b2))
    (Or.inl ⟨hg.flat.2.2.1, hg.flat.2.2.2.1⟩)
  have p1 : 0 < |b1 - a1| := abs_pos.mpr (sub_ne_zero.mpr n1.symm)
  have p2 : 0 < |b2 - a2| := abs_pos.mpr (sub_ne_zero.mpr n2.symm)
  have hm2 : (2 : ℝ) ≤ m := by exact_mod_cast hm
  have hn2 : (2 : ℝ) ≤ n := by exact_mod_cast hn
  have q1 : |b1 - a1| ≤ 1 := abs_le.2 ⟨by linarith [w1.1.1, w1.1.2, w1.2.1, w1.2.2], by linarith [w1.1.1, w1.1.2, w1.2.1, w1.2.2]⟩
  obtain ⟨scan, cond, peaks, st', e, h1, h2, h3⟩ := beside_scan (sampled_sim hp hd env lab') hps (rq := ⟨[a1, b1], [a2, b2], g1, g2, .arr [n, m]⟩)
    hg.flat.1 hg.flat.2.1 ho ef
    (show firstOcc (.d2 m n fun _ _ => o) = .ok o from dif_pos ⟨by omega, by omega⟩) (.d2 _ _ _ _)
    (sampled_pot henv (k := max ((m : ℝ) / |b1 - a1|) ((n : ℝ) / |b2 - a2|)) (by
      intro y hy
      cases hy
      exact rtn_d2 (s1 := (a1, b1)) (s2 := (a2, b2)) n1 n2 m n _) (by
      rcases hs with hs | hs
      · have q : 1 / 0.02237 ≤ (m : ℝ) / |b1 - a1| := by
          rw [le_div_iff₀ p1]
          norm_num at hs ⊢
          linarith
        have := q.trans (le_max_left _ ((n : ℝ) / |b2 - a2|))
        generalize max ((m : ℝ) / |b1 - a1|) ((n : ℝ) / |b2 - a2|) = x at this
        norm_num at this ⊢
        linarith
      · have q : 1 / 0.02237 ≤ (n : ℝ) / |b2 - a2| := by
          rw [le_div_iff₀ p2]
          norm_num at hs ⊢
          linarith
        have := q.trans (le_max_right ((m : ℝ) / |b1 - a1|) _)
        generalize max ((m : ℝ) / |b1 - a1|) ((n : ℝ) / |b2 - a2|) = x at this
        norm_num at this ⊢
        linarith))
    (sampled_resp henv (k := max ((m : ℝ) / |b1 - a1|) ((n : ℝ) / |b1 - a1|)) (by
      intro y hy
      cases hy
      exact rtn_d2 (s1 := (a1, b1)) (s2 := (a1, b1)) n1 n1 m n _) (by
      have q : 2 ≤ (m : ℝ) / |b1 - a1| := by
        rw [le_div_iff₀ p1]
        linarith
      have := q.trans (le_max_left _ ((n : ℝ) / |b1 - a1|))
      linarith))
  cases h1; cases h2; cases h3
  exact ⟨_, _, _, st', e⟩

/-- Non-vacuity: the whole range with 100 x 100 pixels, all distortions active. -/
example (lab lab' : Labelling) : ∃ c s', sampleConfig fairRng lab "SensorScanSensorGeneric" 0.5 true false 0 (.ok c, s') ∧
    ∀ st, ∃ scan cond peaks st', c.measureScan (plainSampledEnv (fun _ => true) true) lab'
      ⟨[-1, 0], [0, -1], .num true (-0.1), .num true (-0.1), .arr [(100 : ℕ), (100 : ℕ)]⟩ st =
        (.ok (.d2 100 100 scan, .d2 100 100 cond, .d2 100 100 peaks), st') := by
  obtain ⟨c, s', h⟩ := fair_config lab _ (Or.inr rfl) false
  refine ⟨c, s', h, fun st => ?_⟩
  refine C91_scan_image_partial fairRng fairRng_valid fairRng_nonzero lab 0.5 true false 0 s' c h _ (plainSampledEnv_total _ _) lab' _ _ _ _
    (by unfold Within; norm_num) (by unfold Within; norm_num) (by norm_num) (by norm_num) 100 100 (by norm_num) (by norm_num) (Or.inl ?_) _ _
    (Or.inr ⟨_, _, rfl, rfl, by norm_num, by norm_num⟩) st
  rw [abs_of_nonneg (by norm_num)]; norm_num

/-- C91, 1D sensor scans in which sensor gate 1 (or both sensor gates) are swept; with plunger voltages the number of pixels must be given as an
array of length 1, without plunger voltages as a number (see C88).
Missing: sweeps of gate 2 alone (see `C91_scan_gate2_refuted`), the other ways to give the number of pixels, and scans in which a gate is swept
by more than 22.37 mV per pixel. -/
theorem C91_scan_line_partial (rng : CfgRng ρ) (hv : rng.Valid) (hz : rng.NormalNonzero) (lab : Labelling) (q : ℝ)
    (comp steepest : Bool) (t t' : ρ) (c : SampledConfig) (hc : sampleConfig rng lab "SensorScanSensorGeneric" q comp steepest t (.ok c, t'))
    (env : SampledEnv τ) (henv : SampledTotal env) (lab' : Labelling) (a1 b1 a2 b2 : ℝ) (w1 : Within (-1) 0 a1 b1)
    (w2 : Within (-1) 0 a2 b2) (n1 : a1 ≠ b1) (n : ℕ) (hn : 1 ≤ n) (d1 : |b1 - a1| ≤ 0.02237 * n) (d2 : |b2 - a2| ≤ 0.02237 * n)
    (g1 g2 : VoltArg) (hg : SampledFixed g1 g2) (st : Option ScanState × NoiseState τ) :
    ∃ scan cond peaks st', c.measureScan env lab' ⟨[a1, b1], [a2, b2], g1, g2, if g1.isNone then .int n else .arr [(n : ℤ)]⟩ st =
      (.ok (.d1 n scan, .d1 n cond, .d1 n peaks), st') := by
  obtain ⟨p, st⟩ := st
  have hp := sampled_parts hv hz hc
  obtain ⟨d, hd⟩ := sampled_scan_sensor hv hz hc
  obtain ⟨ps, hps⟩ := (hp.scan d hd).2
  rw [sampled_scanCheck hp hd env lab' hg w1 w2 (by
    cases g1.isNone <;> simp [fixedIn2d]) (by
    cases g1.isNone <;> simp [scanResCheck])]
  obtain ⟨o, ho⟩ := sampled_occ1d hp lab' hg [a1, b1] [a2, b2] n (p, st)
  obtain ⟨f, ef⟩ := potential_d1 d (n := n) (by omega) (fun _ => o) g1 g2 (.arr (a1, b1)) (.arr (a2, b2))
    (Or.inl ⟨hg.flat.2.2.1, hg.flat.2.2.2.1⟩)
  have p1 : 0 < |b1 - a1| := abs_pos.mpr (sub_ne_zero.mpr n1.symm)
  have hn1 : (0 : ℝ) ≤ n := by positivity
  obtain ⟨scan, cond, peaks, st', e, h1, h2, h3⟩ := beside_scan (sampled_sim hp hd env lab') hps
    (rq := ⟨[a1, b1], [a2, b2], g1, g2, if g1.isNone then .int n else .arr [(n : ℤ)]⟩) hg.flat.1 hg.flat.2.1 ho ef
    (show firstOcc (.d1 n fun _ => o) = .ok o from dif_pos (by omega)) (.d1 _ _ _)
    (sampled_pot henv (k := n / max |b1 - a1| |b2 - a2|) (by
      intro y hy
      cases hy
      exact (rtn_d1 (s1 := (a1, b1)) (s2 := (a2, b2)) (Or.inl n1) n _).2) (by
      have hm : 0 < max |b1 - a1| |b2 - a2| := lt_of_lt_of_le p1 (le_max_left _ _)
      rw [← mul_div_assoc, le_div_iff₀ hm, one_mul]
      refine max_le ?_ ?_
      · norm_num at d1 ⊢
        linarith
      · norm_num at d2 ⊢
        linarith))
    (sampled_resp henv (k := n / max |b1 - a1| |b1 - a1|) (by
      intro y hy
      cases hy
      exact (rtn_d1 (s1 := (a1, b1)) (s2 := (a1, b1)) (Or.inl n1) n _).2) (by
      rw [max_self, ← mul_div_assoc, le_div_iff₀ p1, one_mul]
      norm_num at d1 ⊢
      linarith))
  cases h1; cases h2; cases h3
  exact ⟨_, _, _, st', e⟩

/-- Non-vacuity: a sweep of sensor gate 1 over the whole range with 200 pixels, all distortions active. -/
example (lab lab' : Labelling) : ∃ c s', sampleConfig fairRng lab "SensorScanSensorGeneric" 0.5 true false 0 (.ok c, s') ∧
    ∀ st, ∃ scan cond peaks st', c.measureScan (plainSampledEnv (fun _ => true) true) lab'
      ⟨[-1, 0], [0, 0], .num true (-0.1), .num true (-0.1), .arr [(200 : ℕ)]⟩ st =
        (.ok (.d1 200 scan, .d1 200 cond, .d1 200 peaks), st') := by
  obtain ⟨c, s', h⟩ := fair_config lab _ (Or.inr rfl) false
  refine ⟨c, s', h, fun st => ?_⟩
  refine C91_scan_line_partial fairRng fairRng_valid fairRng_nonzero lab 0.5 true false 0 s' c h _ (plainSampledEnv_total _ _) lab' _ _ _ _
    (by unfold Within; norm_num) (by unfold Within; norm_num) (by norm_num) 200 (by norm_num) ?_ ?_ (.num true (-0.1)) (.num true (-0.1))
    (Or.inr ⟨_, _, rfl, rfl, by norm_num, by norm_num⟩) st
  · rw [abs_of_nonneg (by norm_num)]; norm_num
  · norm_num

/-- C91 is false for 1D sensor scans of sensor gate 2 alone: the response distortions are given the voltage range of gate 1 for both gates, and
whenever the telegraph noise of the response is activated (probability 1%), the scan fails with `ValueError`, for every sampled configuration
with a sensor scan sensor and however fine the scan is. -/
theorem C91_scan_gate2_refuted (rng : CfgRng ρ) (hv : rng.Valid) (hz : rng.NormalNonzero) (lab : Labelling) (q : ℝ)
    (comp steepest : Bool) (t t' : ρ) (c : SampledConfig) (hc : sampleConfig rng lab "SensorScanSensorGeneric" q comp steepest t (.ok c, t'))
    (env : SampledEnv τ) (henv : SampledTotal env) (hb : ∀ s, ∃ s', env.resp.binomial 0.01 s = (.ok true, s')) (lab' : Labelling)
    (a1 a2 b2 : ℝ) (w1 : Within (-1) 0 a1 a1) (w2 : Within (-1) 0 a2 b2) (n2 : a2 ≠ b2) (n : ℕ) (hn : 1 ≤ n) (d2 : |b2 - a2| ≤ 0.02237 * n)
    (g1 g2 : VoltArg) (hg : SampledFixed g1 g2) (st : Option ScanState × NoiseState τ) :
    (c.measureScan env lab' ⟨[a1, a1], [a2, b2], g1, g2, if g1.isNone then .int n else .arr [(n : ℤ)]⟩ st).1 = .error .valueError := by
  obtain ⟨p, st⟩ := st
  have hp := sampled_parts hv hz hc
  obtain ⟨d, hd⟩ := sampled_scan_sensor hv hz hc
  obtain ⟨ps, hps⟩ := (hp.scan d hd).2
  rw [sampled_scanCheck hp hd env lab' hg w1 w2 (by
    cases g1.isNone <;> simp [fixedIn2d]) (by
    cases g1.isNone <;> simp [scanResCheck])]
  obtain ⟨o, ho⟩ := sampled_occ1d hp lab' hg [a1, a1] [a2, b2] n (p, st)
  obtain ⟨f, ef⟩ := potential_d1 d (n := n) (by omega) (fun _ => o) g1 g2 (.arr (a1, a1)) (.arr (a2, b2))
    (Or.inl ⟨hg.flat.2.2.1, hg.flat.2.2.2.1⟩)
  have p2 : 0 < |b2 - a2| := abs_pos.mpr (sub_ne_zero.mpr n2.symm)
  have hn1 : (0 : ℝ) ≤ n := by positivity
  refine beside_scan_error (sampled_sim hp hd env lab') hps
    (rq := ⟨[a1, a1], [a2, b2], g1, g2, if g1.isNone then .int n else .arr [(n : ℤ)]⟩) hg.flat.1 hg.flat.2.1 ho ef
    (show firstOcc (.d1 n fun _ => o) = .ok o from dif_pos (by omega)) (.d1 _ _ _)
    (sampled_pot henv (k := n / max |a1 - a1| |b2 - a2|) (by
      intro y hy
      cases hy
      exact (rtn_d1 (s1 := (a1, a1)) (s2 := (a2, b2)) (Or.inr n2) n _).2) (by
      have hm : 0 < max |a1 - a1| |b2 - a2| := lt_of_lt_of_le p2 (le_max_right _ _)
      rw [← mul_div_assoc, le_div_iff₀ hm, one_mul]
      refine max_le ?_ ?_
      · rw [sub_self, abs_zero]
        positivity
      · norm_num at d2 ⊢
        linarith)) ?_
  intro y s hy q'
  cases hy with
  | d1 _ _ g =>
    have e := rtn_zero (rng := env.resp) (sc := 10000 * 0.03 / 100) (sd := 0.047453767599999995) (he := 0.0152373696) (ratio := 0.01 * 1)
      (by rw [mul_one]; exact hb) g a1 s
    unfold distortResponse sampleRespDistortions sampledResponseRtn
    simp only [List.map_cons]
    unfold applySig
    refine M.bind_error ?_
    exact e

/-- Non-vacuity: a sweep of sensor gate 2 over the whole range with 1000 pixels. -/
example (lab lab' : Labelling) : ∃ c s', sampleConfig fairRng lab "SensorScanSensorGeneric" 0.5 true false 0 (.ok c, s') ∧
    ∀ st, (c.measureScan (plainSampledEnv (fun _ => true) true) lab'
      ⟨[-0.5, -0.5], [-1, 0], .num true (-0.1), .num true (-0.1), .arr [(1000 : ℕ)]⟩ st).1 = .error .valueError := by
  obtain ⟨c, s', h⟩ := fair_config lab _ (Or.inr rfl) false
  refine ⟨c, s', h, fun st => ?_⟩
  refine C91_scan_gate2_refuted fairRng fairRng_valid fairRng_nonzero lab 0.5 true false 0 s' c h _ (plainSampledEnv_total _ _)
    (fun s => ⟨s, rfl⟩) lab' _ _ _ (by unfold Within; norm_num) (by unfold Within; norm_num) (by norm_num) 1000 (by norm_num) ?_
    (.num true (-0.1)) (.num true (-0.1)) (Or.inr ⟨_, _, rfl, rfl, by norm_num, by norm_num⟩) st
  rw [abs_of_nonneg (by norm_num)]; norm_num

/-- C91: configurations with the sensor type "SensorGeneric" do not support sensor scans; all of them raise `ValueError`, as documented. -/
theorem C91_scan_generic_actual (rng : CfgRng ρ) (hv : rng.Valid) (hz : rng.NormalNonzero) (lab : Labelling) (q : ℝ)
    (comp steepest : Bool) (t t' : ρ) (c : SampledConfig) (hc : sampleConfig rng lab "SensorGeneric" q comp steepest t (.ok c, t'))
    (env : SampledEnv τ) (lab' : Labelling) (rq : ScanRequest) (st : Option ScanState × NoiseState τ) :
    c.measureScan env lab' rq st = (.error .valueError, st) := by
  rcases sampled_kind hv hz hc with ⟨-, d, hd⟩ | ⟨h, -⟩
  · unfold SampledConfig.measureScan
    rw [hd]
    rfl
  · exact absurd h (by decide)

/-- Non-vacuity: a sampled configuration. -/
example (lab lab' : Labelling) (env : SampledEnv τ) (rq : ScanRequest) :
    ∃ c s', sampleConfig fairRng lab "SensorGeneric" 0.5 true false 0 (.ok c, s') ∧ ∀ st, c.measureScan env lab' rq st = (.error .valueError, st) := by
  obtain ⟨c, s', h⟩ := fair_config lab _ (Or.inl rfl) false
  exact ⟨c, s', h, fun st => C91_scan_generic_actual fairRng fairRng_valid fairRng_nonzero lab 0.5 true false 0 s' c h env lab' rq st⟩

end SimCATS
