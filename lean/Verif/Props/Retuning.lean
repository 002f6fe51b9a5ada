import Verif.Spec.Retuning
import Verif.Props.ResetScan
import Verif.Props.SteepestPoint
import Verif.Props.ConfigSampler
import Verif.Props.Pipeline
import Verif.Props.DefaultConfigs
import Verif.Props.ScanAgree

/-!
C113: the documented retuning.  A configuration is sampled with the offset at the steepest point of the sensor, and the offset is
reset to this potential before every measurement: the first pixel is then on the steepest flank, whatever was done before.
For sampled scan sensors the option is ignored and the reset raises `ValueError`.
-/

namespace SimCATS

open Spec

variable {ρ σ : Type}

/-- A reset does not depend on the offset before. -/
theorem reset_forgets {s s' : SensorGeneric} {csd : ℝ × ℝ → ℝ × ℝ → Py (Scan (ℝ × ℝ))} {target : ℝ} {g1 g2 : ℝ × ℝ}
    (h : resetOffset s csd target g1 g2 = .ok s') (o : ℝ) : resetOffset { s with offset := o } csd target g1 g2 = .ok s' := by
  obtain ⟨n, occ, hc, rfl⟩ := resetOffset_eq h
  unfold resetOffset at h ⊢
  rw [hc] at h ⊢
  simp only [SensorGeneric.potential, Nat.add_eq_zero_iff, one_ne_zero, and_false, if_false] at h ⊢
  congr 2
  simp [linspace, linAt]

/-- A series of resets. -/
noncomputable def resets (csd : ℝ × ℝ → ℝ × ℝ → Py (Scan (ℝ × ℝ))) (s : SensorGeneric) (calls : List ResetCall) : Py SensorGeneric :=
  calls.foldlM (fun d x => resetOffset d csd x.target x.g1 x.g2) s

theorem reset_single {csd : ℝ × ℝ → ℝ × ℝ → Py (Scan (ℝ × ℝ))} {s s' : SensorGeneric} {x : ResetCall} (h : resets csd s [x] = .ok s') :
    resetOffset s csd x.target x.g1 x.g2 = .ok s' := by
  unfold resets at h
  rw [List.foldlM_cons] at h
  cases e : resetOffset s csd x.target x.g1 x.g2 with
  | error e' => rw [e] at h; exact nomatch h
  | ok d => rw [e] at h; exact h

/-- C113: only the last one of a series of resets counts, and with a geometric CSD none of them fails. -/
theorem C113_last (cfg : IdealCfg) (ok : CfgOk cfg) (lab : Labelling) (s : SensorGeneric) (calls : List ResetCall) (x : ResetCall) :
    ∃ s', resets (idealAt2 cfg lab) s (calls ++ [x]) = .ok s' ∧ resets (idealAt2 cfg lab) s [x] = .ok s' := by
  obtain ⟨s', h⟩ := C22_succeeds cfg ok lab s x.target x.g1 x.g2
  have h1 : resets (idealAt2 cfg lab) s [x] = .ok s' := by
    unfold resets
    rw [List.foldlM_cons, h]
    rfl
  refine ⟨s', ?_, h1⟩
  have key : ∀ (calls : List ResetCall) (o : ℝ), resets (idealAt2 cfg lab) { s with offset := o } (calls ++ [x]) = .ok s' := by
    intro calls
    induction calls with
    | nil =>
      intro o
      unfold resets
      rw [List.nil_append, List.foldlM_cons, reset_forgets h o]
      rfl
    | cons y ys ih =>
      intro o
      obtain ⟨d, hd⟩ := C22_succeeds cfg ok lab { s with offset := o } y.target y.g1 y.g2
      obtain ⟨_, _, _, rfl⟩ := resetOffset_eq hd
      unfold resets
      rw [List.cons_append, List.foldlM_cons, hd]
      exact ih _
  exact key calls s.offset

/-- Non-vacuity: two resets. -/
example (lab : Labelling) : ∃ s', resets (idealAt2 sampleCfg lab) ⟨none, (-1, -2), (1, 2), 10⟩ ([⟨5, (1, 2), (3, 4)⟩] ++ [⟨7, (3, 4), (5, 6)⟩]) =
      .ok s' ∧ resets (idealAt2 sampleCfg lab) ⟨none, (-1, -2), (1, 2), 10⟩ [⟨7, (3, 4), (5, 6)⟩] = .ok s' :=
  C113_last sampleCfg sampleCfg_ok lab _ _ _

/-- The parts of a sampled configuration. -/
theorem config_parts {rng : CfgRng ρ} {lab : Labelling} {ty : String} {q : ℝ} {comp steepest : Bool} {t t' : ρ} {c : SampledConfig}
    (h : sampleConfig rng lab ty q comp steepest t (.ok c, t')) : (0 < q ∧ q ≤ 1) ∧ ∃ t1,
      sampleIdealCSD rng lab t (.ok c.ideal, t1) ∧ sampleSensorOfType rng ty q comp steepest t1 (.ok c.sensor, t') := by
  unfold sampleConfig at h
  by_cases hq : 0 < q ∧ q ≤ 1
  · rw [if_neg (not_not.2 hq)] at h
    rcases h with ⟨i, s1, h1, h⟩ | ⟨e, s1, -, h⟩
    · rcases h with ⟨d, s2, h2, h⟩ | ⟨e, s2, -, h⟩
      · cases h
        exact ⟨hq, s1, h1, h2⟩
      · exact nomatch h
    · exact nomatch h
  · rw [if_pos hq] at h
    exact nomatch h

theorem sampled_ideal_ok {rng : CfgRng ρ} (hv : rng.Valid) {lab : Labelling} {t t' : ρ} {cfg : IdealCfg}
    (h : sampleIdealCSD rng lab t (.ok cfg, t')) : CfgOk cfg := by
  obtain ⟨_, _, e, p, v, m, ⟨g1, -⟩, rfl⟩ := sampleIdealCSD_tested hv lab t _ h
  cases e
  exact g1.cfgOk (m + 1)

/-- The potential of a pixel with the occupation and the voltages of the reset. -/
theorem reset_signal {cfg : IdealCfg} (ok : CfgOk cfg) {lab : Labelling} {d d' : SensorGeneric} {ps : List Peak} (hp : d.peaks = some ps)
    {target : ℝ} {g1 g2 : ℝ × ℝ} (h : resetOffset d (idealAt2 cfg lab) target g1 g2 = .ok d') :
    d'.peaks = some ps ∧ ∃ occ lead, idealCsd cfg lab [g1.1, g1.2] [g2.1, g2.2] (.int (2 : ℕ)) = .ok (.d1 2 occ lead) ∧
      ∀ o v, o = occ 0 → v = (g1.1, g2.1) → sensorSignal d'.peaks d'.alphaDot d'.alphaGate d'.offset o v =
        (ps.map fun p => peakSignal p target).sum := by
  obtain ⟨n, o, hc, rfl⟩ := resetOffset_eq h
  obtain ⟨occ, lead, h0, h1⟩ := idealAt2_line ok lab g1 g2
  rw [h1] at hc
  cases hc
  refine ⟨hp, occ, lead, h0, ?_⟩
  rintro _ _ rfl rfl
  unfold sensorSignal
  dsimp only
  rw [hp]
  dsimp only
  congr 2
  funext p
  congr 1
  simp only [dot2]
  ring

/-- A sampled configuration with a sensor of type `SensorGeneric` at its steepest point. -/
theorem steepest_parts {rng : CfgRng ρ} (hv : rng.Valid) {lab : Labelling} {q : ℝ} {comp : Bool} {t t' : ρ} {c : SampledConfig}
    (hc : sampleConfig rng lab "SensorGeneric" q comp true t (.ok c, t')) : CfgOk c.ideal ∧ ∃ d ps, c.sensor = .generic d ∧
      d.peaks = some ps ∧ ps ≠ [] ∧ SteepestFlank (fun x => (ps.map fun p => peakSignal p x).sum) (potLow d.alphaGate d.alphaDot)
        (potHigh d.alphaGate d.alphaDot) d.offset := by
  obtain ⟨⟨h0, h1⟩, t1, hi, hs⟩ := config_parts hc
  refine ⟨sampled_ideal_ok hv hi, ?_⟩
  unfold sampleSensorOfType at hs
  rw [if_pos rfl] at hs
  rcases hs with ⟨d, s1, hd, h⟩ | ⟨e, s1, -, h⟩
  · have e1 : c.sensor = .generic d := congrArg (fun x : Py SensorObject × ρ => match x.1 with | .ok y => y | .error _ => c.sensor) h
    obtain ⟨ps, lo, hi, δ, hp, rfl, rfl, a⟩ := C65_steepest rng hv q h0 h1 comp t1 s1 d hd
    obtain ⟨_, _, ps', e, -, hp', hg⟩ := C46_sensor_generic rng hv q h0 h1 comp true t1 _ hd
    cases e
    rw [hp] at hp'
    cases hp'
    refine ⟨d, ps, e1, hp, fun e => ?_, δ, ?_⟩
    · have := hg.count.1
      rw [e] at this
      simp at this
    · have e : sumPeaks ps = fun x => (ps.map fun p => peakSignal p x).sum := by
        funext x
        simp only [sumPeaks, peak_eval_signal]
      rw [← e]
      exact a
  · exact nomatch h

/-- C113 (lines): sample a configuration with the option, reset the offset to the sampled one after arbitrary other resets, and
measure any line that starts at these voltages: its first pixel shows the sensor on its steepest flank. -/
theorem C113_line_partial (rng : CfgRng ρ) (hv : rng.Valid) (lab lab' : Labelling) (q : ℝ) (comp : Bool) (t t' : ρ) (c : SampledConfig)
    (hc : sampleConfig rng lab "SensorGeneric" q comp true t (.ok c, t')) :
    ∃ d ps f mu, c.sensor = .generic d ∧ d.peaks = some ps ∧ mu = d.offset ∧ f = (fun x => (ps.map fun p => peakSignal p x).sum) ∧
      SteepestFlank f (potLow d.alphaGate d.alphaDot) (potHigh d.alphaGate d.alphaDot) mu ∧
      ∀ (calls : List ResetCall) (g1 g2 : ℝ × ℝ), ∃ d', resets (idealAt2 c.ideal lab') d (calls ++ [⟨mu, g1, g2⟩]) = .ok d' ∧
        ∀ (sim : Simulation σ) (e1 e2 : ℝ) (v1 v2 : Option ℝ) (n : ℕ) (s s' : σ) (csd : Scan ℝ) (occ : Scan (ℝ × ℝ)) (lead : Scan ℕ),
          sim.gen = some (idealGen c.ideal lab') → sim.sensor = genericSensor d' → sim.occD = none → sim.potD = none →
          sim.respD = none → measure sim ⟨[g1.1, e1], [g2.1, e2], v1, v2, .int n⟩ s = (.ok (csd, occ, lead), s') →
          firstPixel csd = some (f mu) := by
  obtain ⟨ok, d, ps, hd, hp, hne, hst⟩ := steepest_parts hv hc
  refine ⟨d, ps, _, _, hd, hp, rfl, rfl, hst, fun calls g1 g2 => ?_⟩
  obtain ⟨d', h1, h2⟩ := C113_last c.ideal ok lab' d calls ⟨d.offset, g1, g2⟩
  refine ⟨d', h1, fun sim e1 e2 v1 v2 n s s' csd occ lead k1 k2 k3 k4 k5 h => ?_⟩
  have h3 : resetOffset d (idealAt2 c.ideal lab') d.offset g1 g2 = .ok d' := reset_single h2
  obtain ⟨hp', occ2, lead2, hl, hsig⟩ := reset_signal ok hp h3
  obtain ⟨o, l, ho, -, -, hn, rfl, -⟩ := C70_line_partial sim c.ideal lab' d' k1 k2 (by rw [hp']; simpa using hne) k3 k4 k5 _ _ _ _ v1 v2 n s s' _ _ _ h
  unfold firstPixel
  dsimp only
  rw [dif_pos (by omega : 0 < n)]
  congr 1
  refine hsig _ _ ?_ (by simp)
  exact C93_lines c.ideal ok lab' lab' g1.1 e1 g2.1 e2 g1.1 g1.2 g2.1 g2.2 n 2 o l occ2 lead2 ho hl ⟨0, by omega⟩ 0 (by simp [lineVoltages])

/-- A simulation without limits and distortions. -/
noncomputable def tunedSim (cfg : IdealCfg) (lab : Labelling) (d : SensorGeneric) : Simulation Unit :=
  ⟨⟨none, none, none, none⟩, some (idealGen cfg lab), genericSensor d, none, none, none⟩

theorem tuned_check {cfg : IdealCfg} {lab : Labelling} {d : SensorGeneric} {a1 b1 a2 b2 : ℝ} {res : Resolution}
    (hres : resCheck (a1, b1) (a2, b2) res = .ok ()) :
    measureCheck (tunedSim cfg lab d).lim true ⟨[a1, b1], [a2, b2], none, none, res⟩ = .ok ((a1, b1), (a2, b2)) := by
  unfold measureCheck tunedSim
  simp [rangeOutside, sensorOutside, valueOutside, hres]

/-- Non-vacuity: a configuration is sampled, reset twice and measured. -/
example (lab lab' : Labelling) : ∃ c t' d d' csd occ lead, sampleConfig fairRng lab "SensorGeneric" 0.5 true true 0 (.ok c, t') ∧
    c.sensor = .generic d ∧ resets (idealAt2 c.ideal lab') d ([⟨1, (0, 0), (0, 0)⟩] ++ [⟨d.offset, (-0.2, -0.1), (-0.2, -0.1)⟩]) = .ok d' ∧
    measure (tunedSim c.ideal lab' d') ⟨[-0.2, -0.1], [-0.2, -0.1], none, none, .int (3 : ℕ)⟩ () = (.ok (csd, occ, lead), ()) := by
  obtain ⟨c, t', hc⟩ := fair_config lab "SensorGeneric" (by simp) true
  obtain ⟨ok, d, ps, hd, hp, hne, -⟩ := steepest_parts fairRng_valid hc
  obtain ⟨d', h1, h2⟩ := C113_last c.ideal ok lab' d [⟨1, (0, 0), (0, 0)⟩] ⟨d.offset, (-0.2, -0.1), (-0.2, -0.1)⟩
  obtain ⟨hp', -⟩ := reset_signal ok hp (reset_single h2)
  obtain ⟨occ, lead, ho⟩ := line_exists ok lab' (-0.2) (-0.1) (-0.2) (-0.1) 3
  have hi : ∃ o, ideal1d c.ideal (-0.2, -0.1) (-0.2, -0.1) 3 = .ok o := by
    cases e : ideal1d c.ideal (-0.2, -0.1) (-0.2, -0.1) 3 with
    | ok o => exact ⟨o, rfl⟩
    | error x =>
      exfalso
      unfold idealCsd at ho
      simp only [Resolution.entries, idealCheck_1d] at ho
      rw [if_neg (by norm_num)] at ho
      have e' : ideal1d c.ideal (-0.2, -0.1) (-0.2, -0.1) (Int.toNat ((3 : ℕ) : ℤ)) = .error x := e
      rw [e'] at ho
      exact nomatch ho
  obtain ⟨o, hi⟩ := hi
  obtain ⟨csd, h⟩ := measure_plain_1d (sim := tunedSim c.ideal lab' d') (cfg := c.ideal) (s := d') rfl rfl rfl rfl rfl
    (by rw [hp']; simpa using hne) (by norm_num : 1 ≤ 3) (g1 := (-0.2, -0.1)) (g2 := (-0.2, -0.1)) rfl (tuned_check rfl) () hi
  exact ⟨c, t', d, d', _, _, _, hc, hd, h1, h⟩

/-- C113 (images): the same for the first pixel of images, if it is not labelled as a transition and the pixels have sides of at
least 0.06 mV that differ by at most a factor of 3 (for other images see C93). -/
theorem C113_image_partial (rng : CfgRng ρ) (hv : rng.Valid) (lab lab' : Labelling) (hlab : IsLabelling lab') (q : ℝ) (comp : Bool) (t t' : ρ)
    (c : SampledConfig) (hc : sampleConfig rng lab "SensorGeneric" q comp true t (.ok c, t')) :
    ∃ d ps f mu, c.sensor = .generic d ∧ d.peaks = some ps ∧ mu = d.offset ∧ f = (fun x => (ps.map fun p => peakSignal p x).sum) ∧
      SteepestFlank f (potLow d.alphaGate d.alphaDot) (potHigh d.alphaGate d.alphaDot) mu ∧
      ∀ (calls : List ResetCall) (g1 g2 : ℝ × ℝ), ∃ d', resets (idealAt2 c.ideal lab') d (calls ++ [⟨mu, g1, g2⟩]) = .ok d' ∧
        ∀ (sim : Simulation σ) (e1 e2 sx sy : ℝ) (v1 v2 : Option ℝ) (m n : ℕ) (s s' : σ) (csd : Scan ℝ) (occ : Scan (ℝ × ℝ))
          (lead : Fin (m + 1) → Fin (n + 1) → ℕ),
          sim.gen = some (idealGen c.ideal lab') → sim.sensor = genericSensor d' → sim.occD = none → sim.potD = none →
          sim.respD = none → |e1 - g1.1| = sx * n → |e2 - g2.1| = sy * m → 0.00006 ≤ sx → 0.00006 ≤ sy → sx ≤ 3 * sy → sy ≤ 3 * sx →
          measure sim ⟨[g1.1, e1], [g2.1, e2], v1, v2, .arr [((n + 1 : ℕ) : ℤ), ((m + 1 : ℕ) : ℤ)]⟩ s =
            (.ok (csd, occ, .d2 (m + 1) (n + 1) lead), s') →
          lead 0 0 = 0 → firstPixel csd = some (f mu) := by
  obtain ⟨⟨h0, h1⟩, t1, hi, hs⟩ := config_parts hc
  obtain ⟨ok, d, ps, hd, hp, hne, hst⟩ := steepest_parts hv hc
  refine ⟨d, ps, _, _, hd, hp, rfl, rfl, hst, fun calls g1 g2 => ?_⟩
  obtain ⟨d', h1, h2⟩ := C113_last c.ideal ok lab' d calls ⟨d.offset, g1, g2⟩
  refine ⟨d', h1, fun sim e1 e2 sx sy v1 v2 m n s s' csd occ lead k1 k2 k3 k4 k5 q1 q2 q3 q4 q5 q6 h hl0 => ?_⟩
  have h3 : resetOffset d (idealAt2 c.ideal lab') d.offset g1 g2 = .ok d' := reset_single h2
  obtain ⟨hp', occ2, lead2, hl, hsig⟩ := reset_signal ok hp h3
  obtain ⟨o, l, ho, -, e, rfl, -⟩ := C70_image_partial sim c.ideal lab' d' k1 k2 (by rw [hp']; simpa using hne) k3 k4 k5 _ _ _ _ v1 v2 (m + 1) (n + 1)
    s s' _ _ _ h
  cases e
  unfold firstPixel
  dsimp only
  rw [dif_pos ⟨by omega, by omega⟩]
  congr 1
  refine hsig _ _ ?_ (by simp [pixelVoltages])
  exact (C93_sampled_partial rng hv lab lab' hlab t t1 c.ideal hi g1.1 g1.2 g2.1 g2.2 g1.1 e1 g2.1 e2 sx sy 2 (m + 1) (n + 1)
    (by push_cast; rw [q1]; ring) (by push_cast; rw [q2]; ring) q3 q4 q5 q6 occ2 lead2 o lead hl ho 0 0 0
    (by simp [lineVoltages, pixelVoltages]) hl0).symm

/-- Non-vacuity: an image of 29 x 29 pixels of 5 mV, whose first pixel is not labelled. -/
example (lab lab' : Labelling) : ∃ c t' d d' csd occ, ∃ lead : Fin 29 → Fin 29 → ℕ, sampleConfig fairRng lab "SensorGeneric" 0.5 true true 0 (.ok c, t') ∧
    c.sensor = .generic d ∧ resets (idealAt2 c.ideal lab') d ([] ++ [⟨d.offset, (-0.2, -0.06), (-0.2, -0.06)⟩]) = .ok d' ∧
    |(-0.06 : ℝ) - -0.2| = 0.005 * (28 : ℕ) ∧ lead 0 0 = 0 ∧
    measure (tunedSim c.ideal lab' d') ⟨[-0.2, -0.06], [-0.2, -0.06], none, none, .arr [((28 + 1 : ℕ) : ℤ), ((28 + 1 : ℕ) : ℤ)]⟩ () =
      (.ok (csd, occ, .d2 29 29 lead), ()) := by
  obtain ⟨c, t', hc⟩ := fair_config lab "SensorGeneric" (by simp) true
  obtain ⟨-, t1, hi, -⟩ := config_parts hc
  obtain ⟨ok, d, ps, hd, hp, hne, -⟩ := steepest_parts fairRng_valid hc
  obtain ⟨d', h1, h2⟩ := C113_last c.ideal ok lab' d [] ⟨d.offset, (-0.2, -0.06), (-0.2, -0.06)⟩
  obtain ⟨hp', -⟩ := reset_signal ok hp (reset_single h2)
  have hstep : |(-0.06 : ℝ) - -0.2| = 0.005 * (((29 : ℕ) : ℝ) - 1) := by
    rw [abs_of_nonneg (by norm_num)]; norm_num
  obtain ⟨out, ho⟩ := C62_2d_partial fairRng fairRng_valid lab lab' 0 t1 c.ideal hi (-0.2) (-0.06) (-0.2) (-0.06)
    (by simp only [List.mem_cons, List.not_mem_nil, or_false]; rintro x (rfl | rfl | rfl | rfl) <;> norm_num) (by norm_num) (by norm_num)
    29 29 (by norm_num) (by norm_num) (by rw [hstep]; norm_num) (by rw [hstep]; norm_num)
  have ho' := ho
  rw [idealCsd_2d c.ideal lab' (g1 := (-0.2, -0.06)) (g2 := (-0.2, -0.06)) (by norm_num) (by norm_num) (r := 29) (c := 29) (by norm_num)
    (by norm_num)] at ho'
  cases hx : ideal2d c.ideal lab' (-0.2, -0.06) (-0.2, -0.06) 29 29 with
  | error e => rw [hx] at ho'; exact nomatch ho'
  | ok o =>
    rw [hx] at ho'
    have e : out = .d2 29 29 o.1 o.2 := (Except.ok.inj ho').symm
    subst e
    obtain ⟨csd, h⟩ := (measure_plain_2d (sim := tunedSim c.ideal lab' d') (cfg := c.ideal) (lab := lab') (s := d') rfl rfl rfl rfl rfl
      (by rw [hp']; simpa using hne) (by norm_num : 2 ≤ 29) (by norm_num : 2 ≤ 29) (g1 := (-0.2, -0.06)) (g2 := (-0.2, -0.06))
      (rq := ⟨[-0.2, -0.06], [-0.2, -0.06], none, none, .arr [((29 : ℕ) : ℤ), ((29 : ℕ) : ℤ)]⟩)
      (by norm_num) (by norm_num) rfl (tuned_check (by norm_num [resCheck])) ()).1 o hx
    refine ⟨c, t', d, d', _, _, o.2, hc, hd, h1, by rw [hstep]; norm_num, ?_, h⟩
    obtain ⟨_, _, e, p, v, k, ⟨g1, -⟩, ec⟩ := sampleIdealCSD_tested fairRng_valid lab 0 _ hi
    cases e
    rw [ec] at ho
    exact corner_unlabelled g1 ho

/-- C113 as it is for scan sensors: the sampler ignores the option (the possible results are the same with and without it), all
offsets of the sampled sensor are zero, and every reset raises `ValueError`. -/
theorem C113_scan_actual (rng : CfgRng ρ) (hv : rng.Valid) (hz : rng.NormalNonzero) (lab lab' : Labelling) (q : ℝ) (comp : Bool) (t : ρ) :
    (∀ r, sampleConfig rng lab "SensorScanSensorGeneric" q comp true t r ↔ sampleConfig rng lab "SensorScanSensorGeneric" q comp false t r) ∧
    ∀ t' c, sampleConfig rng lab "SensorScanSensorGeneric" q comp true t (.ok c, t') → ∃ d, c.sensor = .scan d ∧ (∀ k, d.offset k = 0) ∧
      ∀ target g1 g2 st, (resetOffsetScan d (idealAt2 c.ideal lab') target g1 g2 st).1 = .error .valueError := by
  refine ⟨fun r => Iff.rfl, fun t' c hc => ?_⟩
  obtain ⟨⟨h0, h1⟩, t1, hi, hs⟩ := config_parts hc
  have ok := sampled_ideal_ok hv hi
  unfold sampleSensorOfType at hs
  rw [if_neg (by decide), if_pos rfl] at hs
  rcases hs with ⟨d, s1, hd, h⟩ | ⟨e, s1, -, h⟩
  · have e1 : c.sensor = .scan d := congrArg (fun x : Py SensorObject × ρ => match x.1 with | .ok y => y | .error _ => c.sensor) h
    obtain ⟨_, _, e, _, _, _, _, _, _, _, _, _, -, -, -, ho, -⟩ := sampleScanSensor_spec hv hz h0 h1 comp t1 _ hd
    cases e
    refine ⟨d, e1, ho, fun target g1 g2 st => ?_⟩
    obtain ⟨_, _, -, e⟩ := C112_reset_actual c.ideal ok lab' d target g1 g2 st
    rw [e]
  · exact nomatch h

/-- Non-vacuity: the sampler returns a configuration with a scan sensor. -/
example (lab lab' : Labelling) : ∃ c t' d, sampleConfig fairRng lab "SensorScanSensorGeneric" 0.5 true true 0 (.ok c, t') ∧ c.sensor = .scan d ∧
    (resetOffsetScan d (idealAt2 c.ideal lab') 7 (3, 4) (5, 6) none).1 = .error .valueError := by
  obtain ⟨c, t', hc⟩ := fair_config lab "SensorScanSensorGeneric" (by simp) true
  obtain ⟨d, hd, -, h⟩ := (C113_scan_actual fairRng fairRng_valid fairRng_nonzero lab lab' 0.5 true 0).2 t' c hc
  exact ⟨c, t', d, hc, hd, h _ _ _ _⟩

/-- C113 is violated for scan sensors: there is a configuration sampled with the option whose sensor cannot be reset. -/
theorem C113_scan_refuted (lab lab' : Labelling) : ¬ ∀ (rng : CfgRng ℕ) (t t' : ℕ) (c : SampledConfig) (d : ScanSensor),
    rng.Valid → rng.NormalNonzero → sampleConfig rng lab "SensorScanSensorGeneric" 0.5 true true t (.ok c, t') → c.sensor = .scan d →
    ∃ target g1 g2 d' st', resetOffsetScan d (idealAt2 c.ideal lab') target g1 g2 none = (.ok d', st') := by
  intro h
  obtain ⟨c, t', hc⟩ := fair_config lab "SensorScanSensorGeneric" (by simp) true
  obtain ⟨d, hd, -, h1⟩ := (C113_scan_actual fairRng fairRng_valid fairRng_nonzero lab lab' 0.5 true 0).2 t' c hc
  obtain ⟨target, g1, g2, d', st', e⟩ := h fairRng 0 t' c d fairRng_valid fairRng_nonzero hc hd
  have := h1 target g1 g2 none
  rw [e] at this
  exact nomatch this

end SimCATS
