import Verif.Lemmas.WhiteNoiseLaw

/-! C107: the distribution of white noise. -/

namespace SimCATS

open Spec MeasureTheory ProbabilityTheory

variable {τ ω : Type}

/-- C107 (`measure`): white noise as last distortion of the response adds the noise of its generator, times the reported strength, to the signal of
the same measurement without it and changes nothing else, for both kinds of sensors, all configurations of the simulation and all histories; the
other distortions may do anything as long as they do not use the generator of the noise. -/
theorem C107_added (own : τ → ω) (sim : AnySim τ) (hd : Distinct sim) (pre : List (SigObject τ)) (i : ℕ) (sigma : M τ ℝ) (noise : ℝ → ℕ → M τ (List ℝ))
    (hr : sim.resp = some (pre ++ [.additive i sigma noise])) (hocc : ∀ o ∈ sim.occ.getD [], OccUntouched own o)
    (hpot : ∀ o ∈ sim.pot.getD [], SigUntouched own o) (hpre : ∀ o ∈ pre, SigUntouched own o) (hs : Spec.Untouched own sigma) (X : ℕ → ω → ℝ)
    (hX : ScaledDraws own noise X) (lab : Labelling) (rq : Request) (s s' : SimState τ) (csd : Scan ℝ) (rest : Scan (ℝ × ℝ) × Scan ℕ)
    (h : sim.measure lab rq s = (.ok (csd, rest), s')) :
    ∃ csd0 s0 v, AnySim.measure { sim with resp := some pre } lab rq s = (.ok (csd0, rest), s0) ∧
      sigReport s' (.additive i sigma noise) = (some v, none) ∧ 0 ≤ v ∧ PlusNoise csd0 v (fun k => X k (own (generators s))) csd := by
  rw [measure_last hr] at h
  obtain ⟨y0, s0, v, g, h1, -, h2, h3, h4⟩ := after_only hX hs (fun _ _ => measure_own (distinct_pre hr hd) hocc hpot hpre) h
  exact ⟨y0, s0, v, h1, h4, h2, h3⟩

/-- C107 (`measure_sensor_scan`): the same for sensor scans. -/
theorem C107_scan_added (own : τ → ω) (sim : AnySim τ) (hd : Distinct sim) (pre : List (SigObject τ)) (i : ℕ) (sigma : M τ ℝ)
    (noise : ℝ → ℕ → M τ (List ℝ)) (hr : sim.resp = some (pre ++ [.additive i sigma noise])) (hpot : ∀ o ∈ sim.pot.getD [], SigUntouched own o)
    (hpre : ∀ o ∈ pre, SigUntouched own o) (hs : Spec.Untouched own sigma) (X : ℕ → ω → ℝ) (hX : ScaledDraws own noise X) (lab : Labelling)
    (rq : ScanRequest) (s s' : SimState τ) (scan : Scan ℝ) (masks : Scan ℕ × Scan ℕ) (h : sim.measureScan lab rq s = (.ok (scan, masks), s')) :
    ∃ scan0 s0 v, AnySim.measureScan { sim with resp := some pre } lab rq s = (.ok (scan0, masks), s0) ∧
      sigReport s' (.additive i sigma noise) = (some v, none) ∧ 0 ≤ v ∧ PlusNoise scan0 v (fun k => X k (own (generators s))) scan := by
  rw [measureScan_last hr] at h
  obtain ⟨y0, s0, v, g, h1, -, h2, h3, h4⟩ := after_only hX hs (fun _ _ => measureScan_own (distinct_pre hr hd) hpot hpre) h
  exact ⟨y0, s0, v, h1, h4, h2, h3⟩

/-- C107: a measurement with white noise of fixed strength succeeds exactly if the one without it does. -/
theorem C107_succeeds (own : τ → ω) (sim : AnySim τ) (hd : Distinct sim) (pre : List (SigObject τ)) (i : ℕ) (v : ℝ) (hv : 0 ≤ v)
    (noise : ℝ → ℕ → M τ (List ℝ)) (hr : sim.resp = some (pre ++ [.additive i (pure v) noise])) (hocc : ∀ o ∈ sim.occ.getD [], OccUntouched own o)
    (hpot : ∀ o ∈ sim.pot.getD [], SigUntouched own o) (hpre : ∀ o ∈ pre, SigUntouched own o) (X : ℕ → ω → ℝ) (hX : ScaledDraws own noise X)
    (lab : Labelling) (s : SimState τ) :
    (∀ rq, Succeeds (sim.measure lab rq) s = Succeeds (AnySim.measure { sim with resp := some pre } lab rq) s) ∧
      ∀ rq, Succeeds (sim.measureScan lab rq) s = Succeeds (AnySim.measureScan { sim with resp := some pre } lab rq) s := by
  have hp : Spec.Untouched own (pure v : M τ ℝ) := fun _ => rfl
  constructor
  · intro rq
    ext g
    constructor
    · rintro ⟨⟨csd, rest⟩, s', h⟩
      obtain ⟨y0, s0, _, h1, -⟩ := C107_added own sim hd pre i _ noise hr hocc hpot hpre hp X hX lab rq _ _ _ _ h
      exact ⟨_, _, h1⟩
    · rintro ⟨⟨csd, rest⟩, s0, h⟩
      obtain ⟨y, s', h', -⟩ := after_ok (i := i) (sigma := pure v) hX hp h (measure_own (distinct_pre hr hd) hocc hpot hpre h) (v := v) rfl hv
      exact ⟨_, s', by rw [measure_last hr]; exact h'⟩
  · intro rq
    ext g
    constructor
    · rintro ⟨⟨scan, masks⟩, s', h⟩
      obtain ⟨y0, s0, _, h1, -⟩ := C107_scan_added own sim hd pre i _ noise hr hpot hpre hp X hX lab rq _ _ _ _ h
      exact ⟨_, _, h1⟩
    · rintro ⟨⟨scan, masks⟩, s0, h⟩
      obtain ⟨y, s', h', -⟩ := after_ok (i := i) (sigma := pure v) hX hp h (measureScan_own (distinct_pre hr hd) hpot hpre h) (v := v) rfl hv
      exact ⟨_, s', by rw [measureScan_last hr]; exact h'⟩

/-- Measurements with white noise succeed for every state of the generators, so that `C107_added` and `C107_scan_added` say something about each of them. -/
example (v : ℝ) (hv : 0 ≤ v) (lab : Labelling) (s : SimState Streams) (g : Streams) :
    g ∈ Succeeds ((streamSim [streamWhite 0 0 1, streamWhite 1 1 v]).measure lab countingRequest) s ∧
      g ∈ Succeeds ((streamScanSim [streamWhite 0 0 1, streamWhite 1 1 v]).measureScan lab flipRequest) s := by
  constructor
  · rw [(C107_succeeds (fun g : Streams => g 1) (streamSim [streamWhite 0 0 1, streamWhite 1 1 v])
      (by simp [Distinct, streamSim, Distinct.sigName, streamWhite]) [streamWhite 0 0 1] 1 v hv _ rfl (by simp [streamSim]) (by simp [streamSim])
      (stream_before 1) _ (stream_draws 1) lab s).1]
    obtain ⟨y, a, s', h, -⟩ := stream_pixels lab s g
    exact ⟨_, s', h⟩
  · rw [(C107_succeeds (fun g : Streams => g 1) (streamScanSim [streamWhite 0 0 1, streamWhite 1 1 v])
      (by simp [Distinct, streamScanSim, Distinct.sigName, streamWhite]) [streamWhite 0 0 1] 1 v hv _ rfl (by simp [streamScanSim])
      (by simp [streamScanSim]) (stream_before 1) _ (stream_draws 1) lab s).2]
    obtain ⟨y, a, s', h, -⟩ := stream_scan_pixels lab s g
    exact ⟨_, s', h⟩

variable [MeasurableSpace τ]

/-- C107 (distribution, `measure`): the deviations of the pixels from the signal of the same measurement without white noise are independent and
normally distributed with mean 0 and standard deviation `sigma`. -/
theorem C107_law (P : Measure τ) (own : τ → ω) (sim : AnySim τ) (hd : Distinct sim) (pre : List (SigObject τ)) (i : ℕ) (v : ℝ) (hv : 0 ≤ v)
    (noise : ℝ → ℕ → M τ (List ℝ)) (hr : sim.resp = some (pre ++ [.additive i (pure v) noise])) (hocc : ∀ o ∈ sim.occ.getD [], OccUntouched own o)
    (hpot : ∀ o ∈ sim.pot.getD [], SigUntouched own o) (hpre : ∀ o ∈ pre, SigUntouched own o) (X : ℕ → ω → ℝ) (hX : ScaledDraws own noise X)
    (hN : StandardNormal P own X) (lab : Labelling) (rq : Request) (s : SimState τ) (n : ℕ)
    (hn : ∀ᵐ g ∂P, g ∈ HasPixels (AnySim.measure { sim with resp := some pre } lab rq) s n) (B : ℕ → Set ℝ) (hB : ∀ k < n, MeasurableSet (B k)) :
    P.real (Differ (sim.measure lab rq) (AnySim.measure { sim with resp := some pre } lab rq) s n B) =
      ∏ k ∈ Finset.range n, (gaussianReal 0 (Real.toNNReal (v ^ 2))).real (B k) :=
  differ_law hX hN hv (measure_last hr lab rq) (fun _ _ _ h => measure_own (distinct_pre hr hd) hocc hpot hpre h) hn hB

/-- The noise of the default device with further noise on the signal, 10 pixels. -/
example (v : ℝ) (hv : 0 ≤ v) (lab : Labelling) (s : SimState Streams) (B : ℕ → Set ℝ) (hB : ∀ k, MeasurableSet (B k)) :
    streams.real (Differ ((streamSim [streamWhite 0 0 1, streamWhite 1 1 v]).measure lab countingRequest)
      ((streamSim [streamWhite 0 0 1]).measure lab countingRequest) s 10 B) =
      ∏ k ∈ Finset.range 10, (gaussianReal 0 (Real.toNNReal (v ^ 2))).real (B k) :=
  C107_law streams (fun g => g 1) (streamSim [streamWhite 0 0 1, streamWhite 1 1 v])
    (by simp [Distinct, streamSim, Distinct.sigName, streamWhite]) [streamWhite 0 0 1] 1 v hv _ rfl (by simp [streamSim]) (by simp [streamSim])
    (stream_before 1) _ (stream_draws 1) (stream_normal 1) lab countingRequest s 10 (.of_forall fun g => stream_pixels lab s g) B fun k _ => hB k

/-- C107 (distribution, `measure_sensor_scan`): the same for sensor scans. -/
theorem C107_scan_law (P : Measure τ) (own : τ → ω) (sim : AnySim τ) (hd : Distinct sim) (pre : List (SigObject τ)) (i : ℕ) (v : ℝ) (hv : 0 ≤ v)
    (noise : ℝ → ℕ → M τ (List ℝ)) (hr : sim.resp = some (pre ++ [.additive i (pure v) noise])) (hpot : ∀ o ∈ sim.pot.getD [], SigUntouched own o)
    (hpre : ∀ o ∈ pre, SigUntouched own o) (X : ℕ → ω → ℝ) (hX : ScaledDraws own noise X) (hN : StandardNormal P own X) (lab : Labelling)
    (rq : ScanRequest) (s : SimState τ) (n : ℕ) (hn : ∀ᵐ g ∂P, g ∈ HasPixels (AnySim.measureScan { sim with resp := some pre } lab rq) s n)
    (B : ℕ → Set ℝ) (hB : ∀ k < n, MeasurableSet (B k)) :
    P.real (Differ (sim.measureScan lab rq) (AnySim.measureScan { sim with resp := some pre } lab rq) s n B) =
      ∏ k ∈ Finset.range n, (gaussianReal 0 (Real.toNNReal (v ^ 2))).real (B k) :=
  differ_law hX hN hv (measureScan_last hr lab rq) (fun _ _ _ h => measureScan_own (distinct_pre hr hd) hpot hpre h) hn hB

example (v : ℝ) (hv : 0 ≤ v) (lab : Labelling) (s : SimState Streams) (B : ℕ → Set ℝ) (hB : ∀ k, MeasurableSet (B k)) :
    streams.real (Differ ((streamScanSim [streamWhite 0 0 1, streamWhite 1 1 v]).measureScan lab flipRequest)
      ((streamScanSim [streamWhite 0 0 1]).measureScan lab flipRequest) s 2 B) =
      ∏ k ∈ Finset.range 2, (gaussianReal 0 (Real.toNNReal (v ^ 2))).real (B k) :=
  C107_scan_law streams (fun g => g 1) (streamScanSim [streamWhite 0 0 1, streamWhite 1 1 v])
    (by simp [Distinct, streamScanSim, Distinct.sigName, streamWhite]) [streamWhite 0 0 1] 1 v hv _ rfl (by simp [streamScanSim])
    (stream_before 1) _ (stream_draws 1) (stream_normal 1) lab flipRequest s 2 (.of_forall fun g => stream_scan_pixels lab s g) B fun k _ => hB k

end SimCATS
