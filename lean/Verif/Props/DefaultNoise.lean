import Verif.Lemmas.DefaultNoise
import Verif.Props.DotJumpsScan

/-! Measurements with the default configuration and its distortions. -/

namespace SimCATS

open Spec

variable {τ : Type}

/-- C83, images: a simulation with the default configuration "GaAs_v1", including its distortions, returns an image for all voltages in
its limits, whatever the random numbers and the previous measurements are, if the two sides of a pixel have a sum of at most 8.8 mV and, with
numpy 2, there are at most 256 rows.  (The bounds with `1e20` keep the mean of the Poisson distribution in the range of numpy.)
Missing: images with more rows for numpy 2 (see `C83_image_refuted`) and coarser images. -/
theorem C83_image_partial (env : NoiseEnv τ) (henv : EnvTotal env) (lab : Labelling) (a1 b1 a2 b2 : ℝ) (w1 : Within (-0.2) (-0.087) a1 b1)
    (w2 : Within (-0.2) (-0.047) a2 b2) (n1 : a1 ≠ b1) (n2 : a2 ≠ b2) (r c : ℕ) (hr : 2 ≤ r) (hc : 2 ≤ c)
    (hs : |b1 - a1| / ((c : ℝ) - 1) + |b2 - a2| / ((r : ℝ) - 1) ≤ 0.0088) (hr' : (r : ℝ) ≤ 1e20 * |b1 - a1|) (hc' : (c : ℝ) ≤ 1e20 * |b2 - a2|)
    (h256 : env.np2 = true → r ≤ 256) (s1 s2 : Option ℝ) (hs' : s1.isNone = s2.isNone) (st : NoiseState τ) :
    ∃ csd occ lead st', measure (noisySim env lab) ⟨[a1, b1], [a2, b2], s1, s2, .arr [c, r]⟩ st =
      (.ok (.d2 r c csd, .d2 r c occ, .d2 r c lead), st') := by
  have hf : Fine (a1, b1) (a2, b2) r c := ⟨⟨w1.1.2, w1.2.2⟩, ⟨w2.1.2, w2.2.2⟩, n1, n2, hr, hc, hs⟩
  rw [noisy_check env lab w1 w2 hs' (res := .arr [c, r]) (by
    unfold resCheck
    simp [n1, n2]
    omega) st]
  obtain ⟨o, l, s', e, rfl⟩ := (ideal_serves lab st).two _ _ _ _ st rfl hf
  obtain ⟨o', l', gen', s2', e2⟩ := noisy_occ2d henv lab hf hr' hc' h256 o l s'
  obtain ⟨f, ef⟩ := generic_pot2d defaultSensor (g1 := (a1, b1)) (g2 := (a2, b2)) hr hc o'
  obtain ⟨k, hk, hpx⟩ := hf.rtn smallPixel_sides
  obtain ⟨csd, st', er, hcsd⟩ := noisy_run henv lab (rq := ⟨[a1, b1], [a2, b2], s1, s2, .arr [c, r]⟩) e e2 ef (by simp) rfl
    (k := k) (by
      intro y hy
      cases hy
      exact hk _) hpx
  cases hcsd with
  | d2 _ _ _ g => exact ⟨g, o', l', st', er⟩


/-- Non-vacuity: an image of the whole range with 100 x 100 pixels in which all distortions are active. -/
example (lab : Labelling) (st : NoiseState Unit) : ∃ csd occ lead st',
    measure (noisySim (plainEnv (fun _ => true) true) lab) ⟨[-0.087, -0.2], [-0.2, -0.047], none, none, .arr [(100 : ℕ), (100 : ℕ)]⟩ st =
      (.ok (.d2 100 100 csd, .d2 100 100 occ, .d2 100 100 lead), st') := by
  refine C83_image_partial _ (plainEnv_total _ _) lab _ _ _ _ (by unfold Within; norm_num) (by unfold Within; norm_num) (by norm_num)
    (by norm_num) 100 100 (by norm_num) (by norm_num) ?_ ?_ ?_ (by norm_num) none none rfl st
  · rw [abs_of_nonpos (by norm_num), abs_of_nonneg (by norm_num)]; norm_num
  · rw [abs_of_nonpos (by norm_num)]; norm_num
  · rw [abs_of_nonneg (by norm_num)]; norm_num

/-! ### 1D scans -/

/-- C83, 1D scans: a simulation with the default configuration "GaAs_v1", including its distortions, returns a 1D scan of both gates for all
voltages in its limits, whatever the random numbers and the previous measurements are, if no gate is swept by more than 22.37 mV per pixel and,
with numpy 2, there are at most 256 pixels.
Missing: scans of one gate (see `C83_fixed_refuted`), scans with few pixels (see `C83_line_coarse_refuted`) and scans with more pixels for
numpy 2 (see `C83_line_refuted`). -/
theorem C83_line_partial (env : NoiseEnv τ) (henv : EnvTotal env) (lab : Labelling) (a1 b1 a2 b2 : ℝ) (w1 : Within (-0.2) (-0.087) a1 b1)
    (w2 : Within (-0.2) (-0.047) a2 b2) (n1 : a1 ≠ b1) (n2 : a2 ≠ b2) (n : ℕ) (hn : 1 ≤ n)
    (d1 : |b1 - a1| ≤ 0.02237 * n) (d2 : |b2 - a2| ≤ 0.02237 * n) (hr' : (n : ℝ) ≤ 1e20 * |b1 - a1|) (hc' : (n : ℝ) ≤ 1e20 * |b2 - a2|)
    (h256 : env.np2 = true → n ≤ 256) (s1 s2 : Option ℝ) (hs' : s1.isNone = s2.isNone) (st : NoiseState τ) :
    ∃ csd occ lead st', measure (noisySim env lab) ⟨[a1, b1], [a2, b2], s1, s2, .int n⟩ st =
      (.ok (.d1 n csd, .d1 n occ, .d1 n lead), st') := by
  have hf : Line (a1, b1) (a2, b2) n := ⟨⟨w1.1.2, w1.2.2⟩, ⟨w2.1.2, w2.2.2⟩, hn, Or.inl n1⟩
  rw [noisy_check env lab w1 w2 hs' (res := .int n) rfl st]
  obtain ⟨o, l, s', e, rfl⟩ := (ideal_serves lab st).one _ _ _ st rfl hf
  obtain ⟨o', l', gen', s2', e2⟩ := noisy_occ1d henv lab hf n1 n2 hr' hc' h256 o l s'
  obtain ⟨f, ef⟩ := generic_pot1d defaultSensor (g1 := (a1, b1)) (g2 := (a2, b2)) hn o'
  have p1 : 0 < |b1 - a1| := abs_pos.mpr (sub_ne_zero.mpr n1.symm)
  have hm : 0 < max |b1 - a1| |b2 - a2| := lt_of_lt_of_le p1 (le_max_left _ _)
  obtain ⟨csd, st', er, hcsd⟩ := noisy_run henv lab (rq := ⟨[a1, b1], [a2, b2], s1, s2, .int n⟩) e e2 ef (by simp) rfl
    (k := n / max |b1 - a1| |b2 - a2|) (by
      intro y hy
      cases hy
      exact line_rtn hn n1 _) (by
      rw [← mul_div_assoc, le_div_iff₀ hm, one_mul]
      have hn' : (0 : ℝ) ≤ n := by positivity
      refine max_le ?_ ?_
      · norm_num at d1 ⊢
        linarith
      · norm_num at d2 ⊢
        linarith)
  cases hcsd with
  | d1 _ _ g => exact ⟨g, o', l', st', er⟩

/-- Non-vacuity: a diagonal scan of the whole range in which all distortions are active. -/
example (lab : Labelling) (st : NoiseState Unit) : ∃ csd occ lead st',
    measure (noisySim (plainEnv (fun _ => true) true) lab) ⟨[-0.2, -0.087], [-0.047, -0.2], none, none, .int (50 : ℕ)⟩ st =
      (.ok (.d1 50 csd, .d1 50 occ, .d1 50 lead), st') := by
  refine C83_line_partial _ (plainEnv_total _ _) lab _ _ _ _ (by unfold Within; norm_num) (by unfold Within; norm_num) (by norm_num)
    (by norm_num) 50 (by norm_num) ?_ ?_ ?_ ?_ (by norm_num) none none rfl st
  · rw [abs_of_nonneg (by norm_num)]; norm_num
  · rw [abs_of_nonpos (by norm_num)]; norm_num
  · rw [abs_of_nonneg (by norm_num)]; norm_num
  · rw [abs_of_nonpos (by norm_num)]; norm_num


/-! ### Scans of one gate -/

/-- C83 is false for 1D scans of one gate: whenever the dot jumps of gate 2 are activated (probability 1%), a sweep of gate 1 with fixed
gate 2 fails with `ValueError`, although the same scan is possible without distortions. -/
theorem C83_fixed_refuted (env : NoiseEnv τ) (lab : Labelling) (a1 b1 a2 : ℝ) (w1 : Within (-0.2) (-0.087) a1 b1)
    (w2 : Within (-0.2) (-0.047) a2 a2) (n1 : a1 ≠ b1) (n : ℕ) (hn : 1 ≤ n) (s1 s2 : Option ℝ) (hs' : s1.isNone = s2.isNone)
    (st : NoiseState τ) (t : τ) (hb : env.jumps0.binomial 0.01 st.gens = (.ok true, t)) :
    (measure (noisySim env lab) ⟨[a1, b1], [a2, a2], s1, s2, .int n⟩ st).1 = .error .valueError ∧
    ∃ x s', measure (defaultSim lab) ⟨[a1, b1], [a2, a2], s1, s2, .int n⟩ st = (.ok x, s') := by
  have hf : Line (a1, b1) (a2, a2) n := ⟨⟨w1.1.2, w1.2.2⟩, ⟨w2.1.2, w2.2.2⟩, hn, Or.inl n1⟩
  constructor
  · rw [noisy_check env lab w1 w2 hs' (res := .int n) rfl st]
    obtain ⟨o, l, s', e, rfl⟩ := (ideal_serves lab st).one _ _ _ st rfl hf
    refine noisy_run_error e ?_
    obtain ⟨o1, e1⟩ := blur_line (g1 := (a1, b1)) (g2 := (a2, a2)) (Or.inl n1) o l (idealGen defaultIdeal lab) s'
    unfold applyOcc
    rw [M.bind_eq e1]
    unfold applyOcc
    refine M.bind_error (run_fst (jumps0Slot τ) ?_)
    refine C55_fixed_refuted (defaultJumps0 env) n o1 l (a1, b1) (a2, a2) (.inr ⟨rfl, rfl⟩) _ _
      { s' with blur := some (0.75 * 0.03 / 100) } { s' with blur := some (0.75 * 0.03 / 100), gens := t } _ _ _ _ ?_ rfl rfl
    exact onGens_eq (x := env.jumps0.binomial 0.01) (s := { s' with blur := some (0.75 * 0.03 / 100) }) hb
  · obtain ⟨csd, occ, lead, h⟩ := C68_line_partial lab a1 b1 a2 a2 w1 w2 n hn s1 s2 hs' st
    exact ⟨_, _, h⟩

/-- Non-vacuity: a sweep of gate 1 with 100 pixels. -/
example (lab : Labelling) (st : NoiseState Unit) :
    (measure (noisySim (plainEnv (fun _ => true) true) lab) ⟨[-0.2, -0.1], [-0.1, -0.1], none, none, .int (100 : ℕ)⟩ st).1 = .error .valueError :=
  (C83_fixed_refuted _ lab _ _ _ (by unfold Within; norm_num) (by unfold Within; norm_num) (by norm_num) 100 (by norm_num) none none rfl st ()
    rfl).1

/-! ### Scans with few pixels -/

/-- C83 is false for 1D scans with few pixels: a scan of the whole range with up to 6 pixels fails with `ValueError` whenever the telegraph
noise of the sensor potential is activated (probability 1/6). -/
theorem C83_line_coarse_refuted (lab : Labelling) (n : ℕ) (h1 : 1 ≤ n) (h6 : n ≤ 6) (st : NoiseState Unit) :
    (measure (noisySim (plainEnv (fun _ => true) true) lab) ⟨[-0.2, -0.087], [-0.2, -0.047], none, none, .int n⟩ st).1 = .error .valueError := by
  have w1 : Within (-0.2) (-0.087) (-0.2) (-0.087) := by unfold Within; norm_num
  have w2 : Within (-0.2) (-0.047) (-0.2) (-0.047) := by unfold Within; norm_num
  have n1 : ((-0.2 : ℝ), (-0.087 : ℝ)).1 ≠ ((-0.2 : ℝ), (-0.087 : ℝ)).2 := by norm_num
  have n2 : ((-0.2 : ℝ), (-0.047 : ℝ)).1 ≠ ((-0.2 : ℝ), (-0.047 : ℝ)).2 := by norm_num
  have hn1 : (1 : ℝ) ≤ n := by exact_mod_cast h1
  have hn6 : (n : ℝ) ≤ 6 := by exact_mod_cast h6
  have hf : Line (-0.2, -0.087) (-0.2, -0.047) n := ⟨⟨w1.1.2, w1.2.2⟩, ⟨w2.1.2, w2.2.2⟩, h1, Or.inl n1⟩
  rw [noisy_check _ lab w1 w2 rfl (res := .int n) rfl st]
  obtain ⟨o, l, s', e, rfl⟩ := (ideal_serves lab st).one _ _ _ st rfl hf
  obtain ⟨o', l', gen', s2', e2⟩ := noisy_occ1d (plainEnv_total (fun _ => true) true) lab hf n1 n2
    (by simp only; rw [abs_of_nonneg (by norm_num)]; norm_num; linarith) (by simp only; rw [abs_of_nonneg (by norm_num)]; norm_num; linarith)
    (fun _ => by omega) o l s'
  obtain ⟨f, ef⟩ := generic_pot1d defaultSensor (g1 := (-0.2, -0.087)) (g2 := (-0.2, -0.047)) h1 o'
  obtain ⟨y, s3, e3, hy⟩ := white_call (pinkSlot Unit) (plainEnv_total (fun _ => true) true).pinkSigma
    (plainEnv_total (fun _ => true) true).pinkNoise (x := .d1 n f) (by simp) (-0.2, -0.087) (-0.2, -0.047) s2'
  cases hy with
  | d1 _ _ g =>
    have hk := line_rtn (g2 := (-0.2, -0.047)) h1 n1 g
    have hmax : max |((-0.2 : ℝ), (-0.087 : ℝ)).2 - ((-0.2 : ℝ), (-0.087 : ℝ)).1| |((-0.2 : ℝ), (-0.047 : ℝ)).2 - ((-0.2 : ℝ), (-0.047 : ℝ)).1| = 0.153 := by
      simp only
      rw [abs_of_nonneg (by norm_num), abs_of_nonneg (by norm_num)]
      norm_num
    rw [hmax] at hk
    have q := C35_actual (defaultPotRtn (plainEnv (fun _ => true) true)) (RngTotal.onGens (plainRng_total fun _ => true)).valid
      (.d1 n g) (-0.2, -0.087) (-0.2, -0.047) ((potRtnSlot Unit).get s3) s3 s3 s3 s3 s3 _ _ _ _ rfl rfl rfl rfl hk
      (by norm_num; linarith) (by norm_num; linarith)
    unfold measureRun
    rw [M.bind_eq e, show (noisySim (plainEnv (fun _ => true) true) lab).occD.getD [] = [defaultBlur,
      OccDist.on (jumps0Slot Unit) (defaultJumps0 (plainEnv (fun _ => true) true)).noiseFunction,
      OccDist.on (jumps1Slot Unit) (defaultJumps1 (plainEnv (fun _ => true) true)).noiseFunction] from rfl, M.bind_eq e2]
    have q1 : (noisySim (plainEnv (fun _ => true) true) lab).sensor.potential (.d1 n o') (-0.2, -0.087) (-0.2, -0.047)
        (if (noisySim (plainEnv (fun _ => true) true) lab).sensor.scan = true then some (none, none) else none) s2' = (.ok (.single (.d1 n f)), s2') := by
      change (match defaultSensor.potential (.d1 n o') (-0.2, -0.087) (-0.2, -0.047) with
        | .ok p => pure (.single p) | .error e => M.raise e : M (NoiseState Unit) Pot) s2' = _
      rw [ef]
      rfl
    rw [M.bind_eq q1]
    refine M.bind_error ?_
    unfold distortPotential
    rw [show (noisySim (plainEnv (fun _ => true) true) lab).potD = some [SigDist.on (pinkSlot Unit) (defaultPink (plainEnv (fun _ => true) true)).noiseFunction,
      SigDist.on (potRtnSlot Unit) (defaultPotRtn (plainEnv (fun _ => true) true)).noiseFunction] from rfl]
    simp only
    rw [if_pos (show sameRank (Scan.d1 n o') (Scan.d1 n f) = true from rfl)]
    refine M.bind_error ?_
    unfold applySig
    rw [M.bind_eq (x := SigDist.on (pinkSlot Unit) (defaultPink (plainEnv (fun _ => true) true)).noiseFunction (.d1 n f) (-0.2, -0.087) (-0.2, -0.047)) e3]
    unfold applySig
    exact M.bind_error (run_fst (potRtnSlot Unit) q)


/-! ### Many pixels with numpy 2 -/

/-- C83 is false for 1D scans with more than 256 pixels and numpy 2: every such scan of both gates fails with `OverflowError` if the dot jumps
of gate 2 are activated and one of them is not zero. -/
theorem C83_line_refuted (lab : Labelling) (a1 b1 a2 b2 : ℝ) (w1 : Within (-0.2) (-0.087) a1 b1) (w2 : Within (-0.2) (-0.047) a2 b2)
    (n1 : a1 ≠ b1) (n2 : a2 ≠ b2) (n : ℕ) (hn : 256 < n) (hc' : (n : ℝ) ≤ 1e20 * |b2 - a2|) (s1 s2 : Option ℝ) (hs' : s1.isNone = s2.isNone)
    (st : NoiseState Unit) :
    (measure (noisySim (plainEnv (fun _ => true) true) lab) ⟨[a1, b1], [a2, b2], s1, s2, .int n⟩ st).1 = .error .overflowError := by
  have hf : Line (a1, b1) (a2, b2) n := ⟨⟨w1.1.2, w1.2.2⟩, ⟨w2.1.2, w2.2.2⟩, by omega, Or.inl n1⟩
  have henv := plainEnv_total (fun _ => true) true
  have p2 : 0 < |b2 - a2| := abs_pos.mpr (sub_ne_zero.mpr n2.symm)
  have bd := lam_bound p2 hc'
  rw [noisy_check _ lab w1 w2 hs' (res := .int n) rfl st]
  obtain ⟨o, l, s', e, rfl⟩ := (ideal_serves lab st).one _ _ _ st rfl hf
  refine noisy_run_error e ?_
  obtain ⟨o1, e1⟩ := blur_line (g1 := (a1, b1)) (g2 := (a2, b2)) (Or.inl n1) o l (idealGen defaultIdeal lab) s'
  unfold applyOcc
  rw [M.bind_eq e1]
  unfold applyOcc
  refine M.bind_error (run_fst (jumps0Slot Unit) ?_)
  generalize hsb : ({ s' with blur := some (0.75 * 0.03 / 100) } : NoiseState Unit) = sb
  obtain ⟨noise, sc, t', en, hl, hsc, la, s1', eg⟩ := noise_draw (plain_jumps0 henv) (g1 := (a1, b1)) (g2 := (a2, b2)) (occ := .d1 n o1)
    (show jumpFactor .g2 (a1, b1) (a2, b2) (.d1 n o1) = some _ from pxPerVolt_ne n2 n) bd.1 bd.2 n
    { (jumps0Slot Unit).get sb with activated := some true } sb
  have hi := inner_serves (jumps0Slot Unit) (blur_serves (s₀ := (jumps0Slot Unit).put ⟨some true, some noise⟩ { sb with gens := t' })
    (by rw [← hsb]; simp [jumps0Slot]) (ideal_serves lab _) (gaussBlur (pure (0.75 * 0.03 / 100))))
  have hov := run1d_overflow hi (defaultJumps0 (plainEnv (fun _ => true) true)) (g1 := (a1, b1)) (g2 := (a2, b2))
    (hf.sort.border (sortLim_le' _) _) rfl hn o1 l (p := (noise, some sc)) (plain_jumps (b := fun _ => true) (by omega) hsc eg) one_pos
    (by simp only; omega) (s := (⟨some true, some noise⟩, { sb with gens := t' })) rfl
  unfold DotJumps.noiseFunction
  rw [M.bind_eq (getOwn_run _)]
  simp only [Bool.false_eq_true, if_false]
  rw [M.bind_eq (onRest_eq (show (defaultJumps0 (plainEnv (fun _ => true) true)).rng.binomial
    (defaultJumps0 (plainEnv (fun _ => true) true)).ratio sb = (.ok true, sb) from rfl) _), M.bind_eq (setOwn_run _ _ _)]
  simp only [Bool.true_eq_false, if_false]
  unfold DotJumps.active
  simp only
  rw [M.bind_eq ((ofPy_run _ _).trans (by rw [as1d_self])), M.bind_eq en]
  exact hov

/-- Non-vacuity: a diagonal scan of the whole range with 300 pixels. -/
example (lab : Labelling) (st : NoiseState Unit) :
    (measure (noisySim (plainEnv (fun _ => true) true) lab) ⟨[-0.2, -0.087], [-0.2, -0.047], none, none, .int (300 : ℕ)⟩ st).1 =
      .error .overflowError :=
  C83_line_refuted lab _ _ _ _ (by unfold Within; norm_num) (by unfold Within; norm_num) (by norm_num) (by norm_num) 300 (by norm_num)
    (by rw [abs_of_nonneg (by norm_num)]; norm_num) none none rfl st

/-- C83 is false for images with more than 256 rows and numpy 2: the dot jumps of gate 1 ask for the border of an image that contains the
dot jumps of gate 2, which fails with `OverflowError` if this border has one column. -/
theorem C83_image_refuted (lab : Labelling) (a1 b1 a2 b2 : ℝ) (w1 : Within (-0.2) (-0.087) a1 b1) (w2 : Within (-0.2) (-0.047) a2 b2)
    (n1 : a1 ≠ b1) (n2 : a2 ≠ b2) (r c : ℕ) (hr : 256 < r) (hc : 2 ≤ c)
    (hs : |b1 - a1| / ((c : ℝ) - 1) + |b2 - a2| / ((r : ℝ) - 1) ≤ 0.0088) (hr' : (r : ℝ) ≤ 1e20 * |b1 - a1|) (hc' : (c : ℝ) ≤ 1e20 * |b2 - a2|)
    (s1 s2 : Option ℝ) (hs' : s1.isNone = s2.isNone) (st : NoiseState Unit) :
    (measure (noisySim (plainEnv (fun _ => true) true) lab) ⟨[a1, b1], [a2, b2], s1, s2, .arr [c, r]⟩ st).1 = .error .overflowError := by
  have hf : Fine (a1, b1) (a2, b2) r c := ⟨⟨w1.1.2, w1.2.2⟩, ⟨w2.1.2, w2.2.2⟩, n1, n2, by omega, hc, hs⟩
  have henv := plainEnv_total (fun _ => true) true
  have p1 : 0 < |b1 - a1| := abs_pos.mpr (sub_ne_zero.mpr n1.symm)
  have p2 : 0 < |b2 - a2| := abs_pos.mpr (sub_ne_zero.mpr n2.symm)
  have bd1 := lam_bound p1 hr'
  have bd2 := lam_bound p2 hc'
  have border : ∀ axis, BorderOk Fine Line axis (sortLim (a1, b1)) (sortLim (a2, b2)) r c := fun axis =>
    hf.sort.border smallPixel_down (sortLim_lt hf.n1) (sortLim_lt hf.n2) axis
  rw [noisy_check _ lab w1 w2 hs' (res := .arr [c, r]) (by
    unfold resCheck
    simp [n1, n2]
    omega) st]
  obtain ⟨o, l, s', e, rfl⟩ := (ideal_serves lab st).two _ _ _ _ st rfl hf
  refine noisy_run_error e ?_
  obtain ⟨o1, e1⟩ := blur_image (g1 := (a1, b1)) (g2 := (a2, b2)) n1 o l (idealGen defaultIdeal lab) s'
  have g1s : ∀ s' : NoiseState Unit, s'.blur ≠ none → Serves (· = s') (withNoise (idealGen defaultIdeal lab) defaultBlur) Fine Line :=
    fun s' h => blur_serves h (ideal_serves lab s') (gaussBlur (pure (0.75 * 0.03 / 100)))
  obtain ⟨o2, l2, d0, t0, e2, hj⟩ := jumps_call2d (jumps0Slot Unit) (plain_jumps0 henv) (g1 := (a1, b1)) (g2 := (a2, b2)) o1 l
    (show jumpFactor .g2 (a1, b1) (a2, b2) (.d2 r c o1) = some _ from pxPerVolt_ne n2 c) bd2.1 bd2.2
    (show 0 < r by omega) { s' with blur := some (0.75 * 0.03 / 100) } (fun d' t => g1s _ (by simp [jumps0Slot])) (border .g2)
  rcases hj with ⟨t, hb, -⟩ | ⟨t, noise0, sc0, la0, q1, q1', -, rfl, hl0, hsc0, eg0⟩
  · exact absurd hb (by rintro ⟨⟩)
  unfold applyOcc
  rw [M.bind_eq e1]
  unfold applyOcc
  rw [M.bind_eq e2]
  unfold applyOcc
  refine M.bind_error (run_fst (jumps1Slot Unit) ?_)
  generalize hsb : (jumps0Slot Unit).put ⟨some true, some noise0⟩
    ({ s' with blur := some (0.75 * 0.03 / 100), gens := t0 } : NoiseState Unit) = sb
  obtain ⟨noise, sc, t', en, hl, hsc, la, s1', eg⟩ := noise_draw (plain_jumps1 henv) (g1 := (a1, b1)) (g2 := (a2, b2)) (occ := .d2 r c o2)
    (show jumpFactor .g1 (a1, b1) (a2, b2) (.d2 r c o2) = some _ from pxPerVolt_ne n1 r) bd1.1 bd1.2 c
    { (jumps1Slot Unit).get sb with activated := some true } sb
  -- the border of one column
  have hcall : ∀ p : DotState × NoiseState Unit, p = (⟨some true, some noise⟩, { sb with gens := t' }) →
      ((jumps1Slot Unit).inner (withNoise (withNoise (idealGen defaultIdeal lab) defaultBlur)
        (OccDist.on (jumps0Slot Unit) (defaultJumps0 (plainEnv (fun _ => true) true)).noiseFunction)
        ((sortLim (a1, b1)).1 - borderStep (sortLim (a1, b1)) c, (sortLim (a1, b1)).1 - borderStep (sortLim (a1, b1)) c)
        (sortLim (a2, b2)) (.int r)) p).1 = .error .overflowError := by
    rintro p rfl
    have hL := (border .g1).2
    refine inner_fst _ ?_
    obtain ⟨o3, l3, s3, e3, hs3⟩ := (g1s ((jumps1Slot Unit).put ⟨some true, some noise⟩ { sb with gens := t' })
      (by rw [← hsb]; simp [jumps0Slot, jumps1Slot])).one _ _ _ _ rfl hL
    unfold withNoise at e3 ⊢
    rw [M.bind_eq e3, hs3]
    refine run_fst (jumps0Slot Unit) ?_
    have hst : (jumps0Slot Unit).get ((jumps1Slot Unit).put ⟨some true, some noise⟩ { sb with gens := t' }) = ⟨some true, some noise0⟩ := by
      rw [← hsb]
      rfl
    rw [hst, frozen_1d]
    have hi := inner_serves (jumps0Slot Unit) (g1s ((jumps1Slot Unit).put ⟨some true, some noise⟩ { sb with gens := t' })
      (by rw [← hsb]; simp [jumps0Slot, jumps1Slot]))
    exact run1d_overflow hi (defaultJumps0 (plainEnv (fun _ => true) true)) (hL.sort.border (sortLim_le' _) _) rfl hr o3 l3
      (p := (noise0, none)) (plain_jumps (b := fun _ => true) (show 2 ≤ r by omega) hsc0 eg0) one_pos (by simp only; exact hl0.ge)
      (s := (⟨some true, some noise0⟩, _)) (by simp only; rw [← hst, (jumps0Slot Unit).put_get])
  exact fresh_error2d (defaultJumps1 (plainEnv (fun _ => true) true)) (s1 := sb) rfl en
    (run2d_error (defaultJumps1 (plainEnv (fun _ => true) true)) rfl o2 l2 (p := (noise, some sc))
      (plain_jumps (b := fun _ => true) hc hsc eg) (hcall _ rfl))

/-- Non-vacuity: an image of the whole range with 300 x 300 pixels. -/
example (lab : Labelling) (st : NoiseState Unit) :
    (measure (noisySim (plainEnv (fun _ => true) true) lab) ⟨[-0.2, -0.087], [-0.2, -0.047], none, none, .arr [(300 : ℕ), (300 : ℕ)]⟩ st).1 =
      .error .overflowError := by
  refine C83_image_refuted lab _ _ _ _ (by unfold Within; norm_num) (by unfold Within; norm_num) (by norm_num) (by norm_num) 300 300
    (by norm_num) (by norm_num) ?_ ?_ ?_ none none rfl st
  · rw [abs_of_nonneg (by norm_num), abs_of_nonneg (by norm_num)]; norm_num
  · rw [abs_of_nonneg (by norm_num)]; norm_num
  · rw [abs_of_nonneg (by norm_num)]; norm_num

end SimCATS
