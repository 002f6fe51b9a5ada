import Verif.Lemmas.ExtendedConfig

/-! Measurements with the extended default configuration. -/

namespace SimCATS

open Spec

variable {τ : Type}

/-! ### Charge stability diagrams -/

/-- C88, images: a simulation with the default configuration "GaAs_v2_extended_sensor", including its distortions, returns an image for all
plunger voltages in the limits and all given sensor gate voltages in the limits, whatever the random numbers and the previous measurements
are, if the two sides of a pixel have a sum of at most 8.8 mV and, with numpy 2, there are at most 256 rows.
Missing: measurements without sensor gate voltages (see `C88_omitted_refuted`), more rows with numpy 2, coarser images. -/
theorem C88_image_partial (env : NoiseEnv τ) (henv : EnvTotal env) (lab : Labelling) (a1 b1 a2 b2 : ℝ) (w1 : Within (-0.2) (-0.087) a1 b1)
    (w2 : Within (-0.2) (-0.047) a2 b2) (n1 : a1 ≠ b1) (n2 : a2 ≠ b2) (r c : ℕ) (hr : 2 ≤ r) (hc : 2 ≤ c)
    (hs : |b1 - a1| / ((c : ℝ) - 1) + |b2 - a2| / ((r : ℝ) - 1) ≤ 0.0088) (hr' : (r : ℝ) ≤ 1e20 * |b1 - a1|) (hc' : (c : ℝ) ≤ 1e20 * |b2 - a2|)
    (h256 : env.np2 = true → r ≤ 256) (s1 s2 : ℝ) (hs1 : -1 ≤ s1 ∧ s1 ≤ 0.4) (hs2 : -1 ≤ s2 ∧ s2 ≤ 0.4) (st : Option ScanState × NoiseState τ) :
    ∃ csd occ lead st', measure (extendedSim env lab).csd ⟨[a1, b1], [a2, b2], some s1, some s2, .arr [c, r]⟩ st =
      (.ok (.d2 r c csd, .d2 r c occ, .d2 r c lead), st') := by
  obtain ⟨p, st⟩ := st
  have hf : Fine (a1, b1) (a2, b2) r c := ⟨⟨w1.1.2, w1.2.2⟩, ⟨w2.1.2, w2.2.2⟩, n1, n2, hr, hc, hs⟩
  rw [ext_check env lab w1 w2 hs1 hs2 (res := .arr [c, r]) (by
    unfold resCheck
    simp [n1, n2]
    omega)]
  obtain ⟨o, l, s', e, rfl⟩ := (ideal_serves lab st).two _ _ _ _ st rfl hf
  obtain ⟨o', l', gen', s2', e2⟩ := noisy_occ2d henv lab hf hr' hc' h256 o l s'
  obtain ⟨f, ef⟩ := potential_d2 extendedSensor (r := r) (c := c) (by omega) (by omega) o' (.arr (a1, b1)) (.arr (a2, b2)) (.num true s1) (.num true s2)
    (Or.inr ⟨rfl, rfl⟩)
  obtain ⟨k, hk, hpx⟩ := hf.rtn smallPixel_sides
  obtain ⟨csd, st', er, hcsd⟩ := ext_run henv lab (rq := ⟨[a1, b1], [a2, b2], some s1, some s2, .arr [c, r]⟩) rfl rfl (p := p) e e2 ef
    (show firstOcc (.d2 r c o') = .ok (o' ⟨0, by omega⟩ ⟨0, by omega⟩) from dif_pos ⟨by omega, by omega⟩) (.d2 _ _ _ _) (k := k) (by
      intro y hy
      cases hy
      exact hk _) hpx
  cases hcsd with
  | d2 _ _ _ g => exact ⟨g, o', l', st', er⟩

/-- Non-vacuity: an image of the whole range with 100 x 100 pixels in which all distortions are active. -/
example (lab : Labelling) (st : Option ScanState × NoiseState Unit) : ∃ csd occ lead st',
    measure (extendedSim (plainEnv (fun _ => true) true) lab).csd
      ⟨[-0.087, -0.2], [-0.2, -0.047], some (-0.5), some (-0.5), .arr [(100 : ℕ), (100 : ℕ)]⟩ st =
      (.ok (.d2 100 100 csd, .d2 100 100 occ, .d2 100 100 lead), st') := by
  refine C88_image_partial _ (plainEnv_total _ _) lab _ _ _ _ (by unfold Within; norm_num) (by unfold Within; norm_num) (by norm_num)
    (by norm_num) 100 100 (by norm_num) (by norm_num) ?_ ?_ ?_ (by norm_num) _ _ (by norm_num) (by norm_num) st
  · rw [abs_of_nonpos (by norm_num), abs_of_nonneg (by norm_num)]; norm_num
  · rw [abs_of_nonpos (by norm_num)]; norm_num
  · rw [abs_of_nonneg (by norm_num)]; norm_num

/-- C88, 1D scans of both plunger gates.
Missing: scans of one gate (see `C88_fixed_refuted`), scans with more than 22.37 mV per pixel, more than 256 pixels with numpy 2, and
measurements without sensor gate voltages. -/
theorem C88_line_partial (env : NoiseEnv τ) (henv : EnvTotal env) (lab : Labelling) (a1 b1 a2 b2 : ℝ) (w1 : Within (-0.2) (-0.087) a1 b1)
    (w2 : Within (-0.2) (-0.047) a2 b2) (n1 : a1 ≠ b1) (n2 : a2 ≠ b2) (n : ℕ) (hn : 1 ≤ n)
    (d1 : |b1 - a1| ≤ 0.02237 * n) (d2 : |b2 - a2| ≤ 0.02237 * n) (hr' : (n : ℝ) ≤ 1e20 * |b1 - a1|) (hc' : (n : ℝ) ≤ 1e20 * |b2 - a2|)
    (h256 : env.np2 = true → n ≤ 256) (s1 s2 : ℝ) (hs1 : -1 ≤ s1 ∧ s1 ≤ 0.4) (hs2 : -1 ≤ s2 ∧ s2 ≤ 0.4) (st : Option ScanState × NoiseState τ) :
    ∃ csd occ lead st', measure (extendedSim env lab).csd ⟨[a1, b1], [a2, b2], some s1, some s2, .int n⟩ st =
      (.ok (.d1 n csd, .d1 n occ, .d1 n lead), st') := by
  obtain ⟨p, st⟩ := st
  have hf : Line (a1, b1) (a2, b2) n := ⟨⟨w1.1.2, w1.2.2⟩, ⟨w2.1.2, w2.2.2⟩, hn, Or.inl n1⟩
  rw [ext_check env lab w1 w2 hs1 hs2 (res := .int n) rfl]
  obtain ⟨o, l, s', e, rfl⟩ := (ideal_serves lab st).one _ _ _ st rfl hf
  obtain ⟨o', l', gen', s2', e2⟩ := noisy_occ1d henv lab hf n1 n2 hr' hc' h256 o l s'
  obtain ⟨f, ef⟩ := potential_d1 extendedSensor (n := n) (by omega) o' (.arr (a1, b1)) (.arr (a2, b2)) (.num true s1) (.num true s2)
    (Or.inr ⟨rfl, rfl⟩)
  have p1 : 0 < |b1 - a1| := abs_pos.mpr (sub_ne_zero.mpr n1.symm)
  have hm : 0 < max |b1 - a1| |b2 - a2| := lt_of_lt_of_le p1 (le_max_left _ _)
  obtain ⟨csd, st', er, hcsd⟩ := ext_run henv lab (rq := ⟨[a1, b1], [a2, b2], some s1, some s2, .int n⟩) rfl rfl (p := p) e e2 ef
    (show firstOcc (.d1 n o') = .ok (o' ⟨0, by omega⟩) from dif_pos (by omega)) (.d1 _ _ _)
    (k := n / max |b1 - a1| |b2 - a2|) (by
      intro y hy
      cases hy
      exact line_rtn hn n1 _) (by
      rw [← mul_div_assoc, le_div_iff₀ hm, one_mul]
      have hn' : (0 : ℝ) ≤ n := by positivity
      refine max_le ?_ ?_
      · norm_num at d1 ⊢
        linarith
      · norm_num at d2 ⊢
        linarith)
  cases hcsd with
  | d1 _ _ g => exact ⟨g, o', l', st', er⟩

/-- Non-vacuity: a diagonal scan of the whole range in which all distortions are active. -/
example (lab : Labelling) (st : Option ScanState × NoiseState Unit) : ∃ csd occ lead st',
    measure (extendedSim (plainEnv (fun _ => true) true) lab).csd ⟨[-0.2, -0.087], [-0.047, -0.2], some (-0.5), some 0, .int (50 : ℕ)⟩ st =
      (.ok (.d1 50 csd, .d1 50 occ, .d1 50 lead), st') := by
  refine C88_line_partial _ (plainEnv_total _ _) lab _ _ _ _ (by unfold Within; norm_num) (by unfold Within; norm_num) (by norm_num)
    (by norm_num) 50 (by norm_num) ?_ ?_ ?_ ?_ (by norm_num) _ _ (by norm_num) (by norm_num) st
  · rw [abs_of_nonneg (by norm_num)]; norm_num
  · rw [abs_of_nonpos (by norm_num)]; norm_num
  · rw [abs_of_nonneg (by norm_num)]; norm_num
  · rw [abs_of_nonpos (by norm_num)]; norm_num

/-- C88 is false for measurements without sensor gate voltages, which are optional arguments of `measure`: with the limits of the
configuration they fail with `TypeError`, for all plunger voltages in the limits and all resolutions. -/
theorem C88_omitted_refuted (env : NoiseEnv τ) (lab : Labelling) (a1 b1 a2 b2 : ℝ) (w1 : Within (-0.2) (-0.087) a1 b1)
    (w2 : Within (-0.2) (-0.047) a2 b2) (res : Resolution) (st : Option ScanState × NoiseState τ) :
    measure (extendedSim env lab).csd ⟨[a1, b1], [a2, b2], none, none, res⟩ st = (.error .typeError, st) := by
  unfold measure
  rw [show measureCheck (extendedSim env lab).csd.lim (extendedSim env lab).csd.gen.isSome ⟨[a1, b1], [a2, b2], none, none, res⟩ = .error .typeError from ?_]
  · rfl
  · unfold measureCheck ScanSim.csd extendedSim
    simp only [Option.isSome_some, Bool.true_eq_false, if_false]
    rw [w1.not_outside, w2.not_outside]
    simp only [Bool.false_eq_true, or_self, if_false, sensorOutside, valueOutside]

/-- Non-vacuity: the whole range. -/
example (env : NoiseEnv τ) (lab : Labelling) (st : Option ScanState × NoiseState τ) :
    measure (extendedSim env lab).csd ⟨[-0.2, -0.087], [-0.2, -0.047], none, none, .arr [100, 100]⟩ st = (.error .typeError, st) :=
  C88_omitted_refuted env lab _ _ _ _ (by unfold Within; norm_num) (by unfold Within; norm_num) _ st

/-- C88 is false for 1D scans of one plunger gate: whenever the dot jumps of gate 2 are activated (probability 1%), a sweep of gate 1 with
fixed gate 2 fails with `ValueError`. -/
theorem C88_fixed_refuted (env : NoiseEnv τ) (lab : Labelling) (a1 b1 a2 : ℝ) (w1 : Within (-0.2) (-0.087) a1 b1)
    (w2 : Within (-0.2) (-0.047) a2 a2) (n1 : a1 ≠ b1) (n : ℕ) (hn : 1 ≤ n) (s1 s2 : ℝ) (hs1 : -1 ≤ s1 ∧ s1 ≤ 0.4) (hs2 : -1 ≤ s2 ∧ s2 ≤ 0.4)
    (st : Option ScanState × NoiseState τ) (t : τ) (hb : env.jumps0.binomial 0.01 st.2.gens = (.ok true, t)) :
    (measure (extendedSim env lab).csd ⟨[a1, b1], [a2, a2], some s1, some s2, .int n⟩ st).1 = .error .valueError := by
  obtain ⟨p, st⟩ := st
  have hf : Line (a1, b1) (a2, a2) n := ⟨⟨w1.1.2, w1.2.2⟩, ⟨w2.1.2, w2.2.2⟩, hn, Or.inl n1⟩
  rw [ext_check env lab w1 w2 hs1 hs2 (res := .int n) rfl]
  obtain ⟨o, l, s', e, rfl⟩ := (ideal_serves lab st).one _ _ _ st rfl hf
  refine ext_run_error e ?_
  obtain ⟨o1, e1⟩ := blur_line (g1 := (a1, b1)) (g2 := (a2, a2)) (Or.inl n1) o l (idealGen defaultIdeal lab) s'
  unfold extendedOcc applyOcc
  rw [M.bind_eq e1]
  unfold applyOcc
  refine M.bind_error (run_fst (jumps0Slot τ) ?_)
  refine C55_fixed_refuted (defaultJumps0 env) n o1 l (a1, b1) (a2, a2) (.inr ⟨rfl, rfl⟩) _ _
    { s' with blur := some (0.75 * 0.03 / 100) } { s' with blur := some (0.75 * 0.03 / 100), gens := t } _ _ _ _ ?_ rfl rfl
  exact onGens_eq (x := env.jumps0.binomial 0.01) (s := { s' with blur := some (0.75 * 0.03 / 100) }) hb

/-- Non-vacuity: a sweep of gate 1 with 100 pixels. -/
example (lab : Labelling) (st : Option ScanState × NoiseState Unit) :
    (measure (extendedSim (plainEnv (fun _ => true) true) lab).csd ⟨[-0.2, -0.1], [-0.1, -0.1], some 0, some 0, .int (100 : ℕ)⟩ st).1 = .error .valueError :=
  C88_fixed_refuted _ lab _ _ _ (by unfold Within; norm_num) (by unfold Within; norm_num) (by norm_num) 100 (by norm_num) 0 0 (by norm_num)
    (by norm_num) st () rfl

/-! ### Sensor scans -/

/-- C88, sensor scan images: a simulation with the default configuration "GaAs_v2_extended_sensor", including its distortions, returns a
sensor scan image with both label masks for all sensor gate voltages in the limits, without plunger voltages or with plunger voltages in the
limits, whatever the random numbers and the previous measurements are, if one of the gates is swept by at most 22.37 mV per pixel (counted
with the number of pixels of the other gate, see C36).
Missing: coarser images (see `C88_scan_coarse_refuted`). -/
theorem C88_scan_image_partial (env : NoiseEnv τ) (henv : EnvTotal env) (lab : Labelling) (a1 b1 a2 b2 : ℝ) (w1 : Within (-1) 0.4 a1 b1)
    (w2 : Within (-1) 0.4 a2 b2) (n1 : a1 ≠ b1) (n2 : a2 ≠ b2) (r c : ℕ) (hr : 2 ≤ r) (hc : 2 ≤ c)
    (hs : |b1 - a1| ≤ 0.02237 * r ∨ |b2 - a2| ≤ 0.02237 * c) (g1 g2 : VoltArg) (hg : ExtFixed g1 g2) (st : Option ScanState × NoiseState τ) :
    ∃ scan cond peaks st', measureSensorScan (extendedSim env lab) ⟨[a1, b1], [a2, b2], g1, g2, .arr [c, r]⟩ st =
      (.ok (.d2 r c scan, .d2 r c cond, .d2 r c peaks), st') := by
  rw [ext_scanCheck env lab hg w1 w2 (by
    unfold fixedIn2d
    simp [n1, n2]) (by
    unfold scanResCheck
    simp
    omega)]
  obtain ⟨o, ho⟩ := ext_occ2d env lab hg [a1, b1] [a2, b2] r c st
  obtain ⟨f, ef⟩ := potential_d2 extendedSensor (r := r) (c := c) (by omega) (by omega) (fun _ _ => o) g1 g2 (.arr (a1, b1)) (.arr (a2, b2))
    (Or.inl ⟨hg.flat.2.2.1, hg.flat.2.2.2.1⟩)
  have p1 : 0 < |b1 - a1| := abs_pos.mpr (sub_ne_zero.mpr n1.symm)
  have p2 : 0 < |b2 - a2| := abs_pos.mpr (sub_ne_zero.mpr n2.symm)
  obtain ⟨scan, cond, peaks, st', e, h1, h2, h3⟩ := ext_scan henv lab (rq := ⟨[a1, b1], [a2, b2], g1, g2, .arr [c, r]⟩) hg.flat.1 hg.flat.2.1 ho ef
    (show firstOcc (.d2 r c fun _ _ => o) = .ok o from dif_pos ⟨by omega, by omega⟩) (.d2 _ _ _ _) (by
      intro y hy
      cases hy
      exact rtn_d2 (s1 := (a1, b1)) (s2 := (a2, b2)) n1 n2 r c _) (by
      simp only
      rcases hs with hs | hs
      · have q : 1 / 0.02237 ≤ (r : ℝ) / |b1 - a1| := by
          rw [le_div_iff₀ p1]
          norm_num at hs ⊢
          linarith
        have := q.trans (le_max_left _ ((c : ℝ) / |b2 - a2|))
        generalize max ((r : ℝ) / |b1 - a1|) ((c : ℝ) / |b2 - a2|) = m at this
        norm_num at this ⊢
        linarith
      · have q : 1 / 0.02237 ≤ (c : ℝ) / |b2 - a2| := by
          rw [le_div_iff₀ p2]
          norm_num at hs ⊢
          linarith
        have := q.trans (le_max_right ((r : ℝ) / |b1 - a1|) _)
        generalize max ((r : ℝ) / |b1 - a1|) ((c : ℝ) / |b2 - a2|) = m at this
        norm_num at this ⊢
        linarith)
  cases h1; cases h2; cases h3
  exact ⟨_, _, _, st', e⟩

/-- Non-vacuity: the whole range with 100 x 100 pixels, all distortions active. -/
example (lab : Labelling) (st : Option ScanState × NoiseState Unit) : ∃ scan cond peaks st',
    measureSensorScan (extendedSim (plainEnv (fun _ => true) true) lab)
      ⟨[-1, 0.4], [0.4, -1], .num true (-0.1), .num true (-0.1), .arr [(100 : ℕ), (100 : ℕ)]⟩ st =
      (.ok (.d2 100 100 scan, .d2 100 100 cond, .d2 100 100 peaks), st') := by
  refine C88_scan_image_partial _ (plainEnv_total _ _) lab _ _ _ _ (by unfold Within; norm_num) (by unfold Within; norm_num) (by norm_num)
    (by norm_num) 100 100 (by norm_num) (by norm_num) (Or.inl ?_) _ _ (Or.inr ⟨_, _, rfl, rfl, by norm_num, by norm_num⟩) st
  rw [abs_of_nonneg (by norm_num)]; norm_num

/-- C88, 1D sensor scans: with plunger voltages in the limits the number of pixels must be given as an array of length 1, without plunger
voltages as a number (see `C88_scan_int_refuted` and `C88_scan_array_refuted`).
Missing: the other ways to give the number of pixels, and scans in which a gate is swept by more than 22.37 mV per pixel. -/
theorem C88_scan_line_partial (env : NoiseEnv τ) (henv : EnvTotal env) (lab : Labelling) (a1 b1 a2 b2 : ℝ) (w1 : Within (-1) 0.4 a1 b1)
    (w2 : Within (-1) 0.4 a2 b2) (hsw : a1 ≠ b1 ∨ a2 ≠ b2) (n : ℕ) (hn : 1 ≤ n) (d1 : |b1 - a1| ≤ 0.02237 * n) (d2 : |b2 - a2| ≤ 0.02237 * n)
    (g1 g2 : VoltArg) (hg : ExtFixed g1 g2) (st : Option ScanState × NoiseState τ) :
    ∃ scan cond peaks st', measureSensorScan (extendedSim env lab) ⟨[a1, b1], [a2, b2], g1, g2, if g1.isNone then .int n else .arr [(n : ℤ)]⟩ st =
      (.ok (.d1 n scan, .d1 n cond, .d1 n peaks), st') := by
  rw [ext_scanCheck env lab hg w1 w2 (by
    cases g1.isNone <;> simp [fixedIn2d]) (by
    cases g1.isNone <;> simp [scanResCheck])]
  obtain ⟨o, ho⟩ : ∃ o, scanOcc (extendedSim env lab).gen ⟨[a1, b1], [a2, b2], g1, g2, if g1.isNone then .int n else .arr [(n : ℤ)]⟩ st =
      (.ok (.d1 n fun _ => o), st) := by
    rcases hg with ⟨rfl, rfl⟩ | ⟨v1, v2, rfl, rfl, h1, h2⟩
    · refine ⟨(0, 0), ?_⟩
      change ofPy (fillOcc (0, 0) (.int n)) st = _
      rw [ofPy_run]
      unfold fillOcc
      dsimp only
      rw [if_neg (by omega)]
      rfl
    · obtain ⟨o, l, e⟩ := ideal_point lab h1.2 h2.2 st
      exact ⟨o 0, (C27_partial ⟨[a1, b1], [a2, b2], .num true v1, .num true v2, .arr [(n : ℤ)]⟩ n st).1 _ true v1 true v2 0 o _ st (o 0) rfl rfl
        rfl e rfl⟩
  obtain ⟨f, ef⟩ := potential_d1 extendedSensor (n := n) (by omega) (fun _ => o) g1 g2 (.arr (a1, b1)) (.arr (a2, b2))
    (Or.inl ⟨hg.flat.2.2.1, hg.flat.2.2.2.1⟩)
  obtain ⟨scan, cond, peaks, st', e, h1, h2, h3⟩ := ext_scan henv lab
    (rq := ⟨[a1, b1], [a2, b2], g1, g2, if g1.isNone then .int n else .arr [(n : ℤ)]⟩) hg.flat.1 hg.flat.2.1 ho ef
    (show firstOcc (.d1 n fun _ => o) = .ok o from dif_pos (by omega)) (.d1 _ _ _) (by
      intro y hy
      cases hy
      exact (rtn_d1 (s1 := (a1, b1)) (s2 := (a2, b2)) hsw n _).2) (by
      have hm := (rtn_d1 (s1 := (a1, b1)) (s2 := (a2, b2)) hsw 0 (fun i => i.elim0)).1
      simp only at hm ⊢
      rw [← mul_div_assoc, le_div_iff₀ hm, one_mul]
      have hn' : (0 : ℝ) ≤ n := by positivity
      refine max_le ?_ ?_
      · norm_num at d1 ⊢
        linarith
      · norm_num at d2 ⊢
        linarith)
  cases h1; cases h2; cases h3
  exact ⟨_, _, _, st', e⟩

/-- Non-vacuity: a sweep of sensor gate 1 over the whole range with 200 pixels, all distortions active. -/
example (lab : Labelling) (st : Option ScanState × NoiseState Unit) : ∃ scan cond peaks st',
    measureSensorScan (extendedSim (plainEnv (fun _ => true) true) lab) ⟨[-1, 0.4], [0, 0], .num true (-0.1), .num true (-0.1), .arr [(200 : ℕ)]⟩ st =
      (.ok (.d1 200 scan, .d1 200 cond, .d1 200 peaks), st') := by
  refine C88_scan_line_partial _ (plainEnv_total _ _) lab _ _ _ _ (by unfold Within; norm_num) (by unfold Within; norm_num)
    (Or.inl (by norm_num)) 200 (by norm_num) ?_ ?_ (.num true (-0.1)) (.num true (-0.1)) (Or.inr ⟨_, _, rfl, rfl, by norm_num, by norm_num⟩) st
  · rw [abs_of_nonneg (by norm_num)]; norm_num
  · norm_num

/-- C88 is false for 1D sensor scans with plunger voltages if the number of pixels is given as a number: every such call fails with
`TypeError`. -/
theorem C88_scan_int_refuted (env : NoiseEnv τ) (lab : Labelling) (a1 b1 a2 b2 : ℝ) (w1 : Within (-1) 0.4 a1 b1) (w2 : Within (-1) 0.4 a2 b2)
    (v1 v2 : ℝ) (h1 : -0.2 ≤ v1 ∧ v1 ≤ -0.087) (h2 : -0.2 ≤ v2 ∧ v2 ≤ -0.047) (n : ℤ) (st : Option ScanState × NoiseState τ) :
    measureSensorScan (extendedSim env lab) ⟨[a1, b1], [a2, b2], .num true v1, .num true v2, .int n⟩ st = (.error .typeError, st) := by
  obtain ⟨o, l, e⟩ := ideal_point lab h1.2 h2.2 st
  rw [ext_scanCheck env lab (Or.inr ⟨v1, v2, rfl, rfl, h1, h2⟩) w1 w2 (by simp [fixedIn2d]) rfl]
  have hocc : scanOcc (extendedSim env lab).gen ⟨[a1, b1], [a2, b2], .num true v1, .num true v2, .int n⟩ st = (.error .typeError, st) := by
    rw [show (extendedSim env lab).gen = some (idealGen defaultIdeal lab) from rfl]
    unfold scanOcc
    simp only
    rw [M.bind_eq e]
    rfl
  unfold scanRun
  rw [M.bind_run, hocc]

/-- Non-vacuity: a sweep of sensor gate 1 with 100 pixels. -/
example (env : NoiseEnv τ) (lab : Labelling) (st : Option ScanState × NoiseState τ) :
    measureSensorScan (extendedSim env lab) ⟨[-1, 0.4], [0, 0], .num true (-0.1), .num true (-0.1), .int 100⟩ st = (.error .typeError, st) :=
  C88_scan_int_refuted env lab _ _ _ _ (by unfold Within; norm_num) (by unfold Within; norm_num) _ _ (by norm_num) (by norm_num) _ st

/-- C88 is false for 1D sensor scans without plunger voltages if the number of pixels is given as an array of length 1: every such call fails
with `IndexError`. -/
theorem C88_scan_array_refuted (env : NoiseEnv τ) (lab : Labelling) (a1 b1 a2 b2 : ℝ) (w1 : Within (-1) 0.4 a1 b1) (w2 : Within (-1) 0.4 a2 b2)
    (n : ℤ) (st : Option ScanState × NoiseState τ) :
    measureSensorScan (extendedSim env lab) ⟨[a1, b1], [a2, b2], .none, .none, .arr [n]⟩ st = (.error .indexError, st) := by
  rw [ext_scanCheck env lab (Or.inl ⟨rfl, rfl⟩) w1 w2 (by simp [fixedIn2d]) rfl]
  unfold scanRun
  rw [M.bind_run]
  rfl

/-- Non-vacuity: a sweep of sensor gate 1 with 100 pixels. -/
example (env : NoiseEnv τ) (lab : Labelling) (st : Option ScanState × NoiseState τ) :
    measureSensorScan (extendedSim env lab) ⟨[-1, 0.4], [0, 0], .none, .none, .arr [100]⟩ st = (.error .indexError, st) :=
  C88_scan_array_refuted env lab _ _ _ _ (by unfold Within; norm_num) (by unfold Within; norm_num) _ st

/-- C88 is false for sensor scan images with few pixels: if both gates are swept by more than 22.4 mV per pixel (the whole range with up to 62 x
62 pixels), the scan fails with `ValueError` if the telegraph noise of the first potential is activated (probability 1/6). -/
theorem C88_scan_coarse_refuted (env : NoiseEnv τ) (henv : EnvTotal env) (hb : ∀ s, ∃ s', env.pot.binomial (1 / 6) s = (.ok true, s'))
    (lab : Labelling) (a1 b1 a2 b2 : ℝ) (w1 : Within (-1) 0.4 a1 b1) (w2 : Within (-1) 0.4 a2 b2) (n1 : a1 ≠ b1) (n2 : a2 ≠ b2) (r c : ℕ)
    (hr : 2 ≤ r) (hc : 2 ≤ c) (hs1 : 0.0224 * r < |b1 - a1|) (hs2 : 0.0224 * c < |b2 - a2|) (g1 g2 : VoltArg) (hg : ExtFixed g1 g2)
    (st : Option ScanState × NoiseState τ) :
    (measureSensorScan (extendedSim env lab) ⟨[a1, b1], [a2, b2], g1, g2, .arr [c, r]⟩ st).1 = .error .valueError := by
  obtain ⟨p, st⟩ := st
  rw [ext_scanCheck env lab hg w1 w2 (by
    unfold fixedIn2d
    simp [n1, n2]) (by
    unfold scanResCheck
    simp
    omega)]
  obtain ⟨o, ho⟩ := ext_occ2d env lab hg [a1, b1] [a2, b2] r c (p, st)
  obtain ⟨f, ef⟩ := potential_d2 extendedSensor (r := r) (c := c) (by omega) (by omega) (fun _ _ => o) g1 g2 (.arr (a1, b1)) (.arr (a2, b2))
    (Or.inl ⟨hg.flat.2.2.1, hg.flat.2.2.2.1⟩)
  have p1 : 0 < |b1 - a1| := abs_pos.mpr (sub_ne_zero.mpr n1.symm)
  have p2 : 0 < |b2 - a2| := abs_pos.mpr (sub_ne_zero.mpr n2.symm)
  refine ext_scan_error lab (rq := ⟨[a1, b1], [a2, b2], g1, g2, .arr [c, r]⟩) hg.flat.1 hg.flat.2.1 ho ef
    (show firstOcc (.d2 r c fun _ _ => o) = .ok o from dif_pos ⟨by omega, by omega⟩) (.d2 _ _ _ _) ?_
  intro q
  obtain ⟨qs, s1, e1, hl, hq⟩ := rows_beside (X := Option ScanState) (ref := Scan.d2 r c f) (d := SigDist.on (pinkSlot τ) (defaultPink env).noiseFunction)
    (g1 := (a1, b1)) (g2 := (a2, b2)) (by
      intro y s hy
      obtain ⟨z, s', e, h⟩ := white_call (pinkSlot τ) henv.pinkSigma henv.pinkNoise hy.notD0 (a1, b1) (a2, b2) s
      exact ⟨z, s', e, hy.trans h⟩) (potRows (.d2 r c f)) (potRows_same (.d2 _ _ _ _)) q st
  match qs, hl with
  | z :: qs, _ =>
    have hz := hq z (List.mem_cons_self ..)
    cases hz with
    | d2 _ _ _ g =>
      obtain ⟨t, ht⟩ := hb s1.gens
      have hk := rtn_d2 (s1 := (a1, b1)) (s2 := (a2, b2)) n1 n2 r c g
      have m0 : 0 < max ((r : ℝ) / |b1 - a1|) ((c : ℝ) / |b2 - a2|) :=
        lt_of_lt_of_le (div_pos (by exact_mod_cast (by omega : 0 < r)) p1) (le_max_left _ _)
      have m1 : max ((r : ℝ) / |b1 - a1|) ((c : ℝ) / |b2 - a2|) < 1 / 0.0224 := by
        refine max_lt ?_ ?_
        · rw [div_lt_iff₀ p1]
          norm_num at hs1 ⊢
          linarith
        · rw [div_lt_iff₀ p2]
          norm_num at hs2 ⊢
          linarith
      simp only at hk
      generalize max ((r : ℝ) / |b1 - a1|) ((c : ℝ) / |b2 - a2|) = m at hk m0 m1
      have q3 := C35_actual (defaultPotRtn env) (RngTotal.onGens henv.pot).valid (.d2 r c g) (a1, b1) (a2, b2) ((potRtnSlot τ).get s1) s1
        { s1 with gens := t } { s1 with gens := t } { s1 with gens := t } { s1 with gens := t } _ _ _ _
        (onGens_eq (x := env.pot.binomial (1 / 6)) (s := s1) ht) rfl rfl rfl hk
        (by norm_num; linarith) (by norm_num at m1 ⊢; linarith)
      unfold distortScanPot
      simp only
      refine M.bind_error ?_
      unfold extendedPot
      rw [List.map_cons, List.map_cons]
      unfold applyRows
      rw [M.bind_eq e1]
      unfold applyRows
      refine M.bind_error ?_
      unfold distortRows
      refine M.bind_error ?_
      change (onRest (SigDist.on (potRtnSlot τ) (defaultPotRtn env).noiseFunction (.d2 r c g) (a1, b1) (a2, b2)) (q, s1)).1 = _
      unfold onRest
      exact run_fst (potRtnSlot τ) q3

/-- Non-vacuity: the whole range with 62 x 62 pixels. -/
example (lab : Labelling) (st : Option ScanState × NoiseState Unit) :
    (measureSensorScan (extendedSim (plainEnv (fun _ => true) true) lab)
      ⟨[-1, 0.4], [-1, 0.4], .num true (-0.1), .num true (-0.1), .arr [(62 : ℕ), (62 : ℕ)]⟩ st).1 = .error .valueError := by
  refine C88_scan_coarse_refuted _ (plainEnv_total _ _) (fun s => ⟨s, rfl⟩) lab _ _ _ _ (by unfold Within; norm_num) (by unfold Within; norm_num)
    (by norm_num) (by norm_num) 62 62 (by norm_num) (by norm_num) ?_ ?_ _ _ (Or.inr ⟨_, _, rfl, rfl, by norm_num, by norm_num⟩) st
  · rw [abs_of_nonneg (by norm_num)]; norm_num
  · rw [abs_of_nonneg (by norm_num)]; norm_num

end SimCATS
