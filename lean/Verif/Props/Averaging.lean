import Verif.Lemmas.Averaging

/-! C109: repeated measurements with white noise. -/

namespace SimCATS

open Spec MeasureTheory ProbabilityTheory

variable {τ ω : Type}

/-- C109 (series of calls): in any series of successful calls of `measure` and `measure_sensor_scan`, in any order and with any arguments, call `j` returns
the result of the same call without white noise from the same state, with the noise added; the noise uses the numbers of the stream of its generator one
after the other, so that no number is used for two pixels. The other distortions may do anything as long as they do not use this generator. -/
theorem C109_series (own : τ → ω) (sim : AnySim τ) (hd : Distinct sim) (pre : List (SigObject τ)) (i : ℕ) (sigma : M τ ℝ) (noise : ℝ → ℕ → M τ (List ℝ))
    (hr : sim.resp = some (pre ++ [.additive i sigma noise])) (hocc : ∀ o ∈ sim.occ.getD [], OccUntouched own o)
    (hpot : ∀ o ∈ sim.pot.getD [], SigUntouched own o) (hpre : ∀ o ∈ pre, SigUntouched own o) (hs : Spec.Untouched own sigma) (X : ℕ → ω → ℝ)
    (hX : ScaledDraws own noise X) (hG : GoesOn own noise X) (lab : Labelling) (N : ℕ) (c : ℕ → MeasureCall) (st : ℕ → SimState τ) (r : ℕ → MeasureResult)
    (h : ∀ j < N, sim.call lab (c j) (st j) = (.ok (r j), st (j + 1))) (j : ℕ) (hj : j < N) :
    ∃ r0 s0 v, AnySim.call { sim with resp := some pre } lab (c j) (st j) = (.ok r0, s0) ∧ 0 ≤ v ∧
      sigReport (st (j + 1)) (.additive i sigma noise) = (some v, none) ∧
      NoiseAdded r0 v (fun k => X ((∑ m ∈ Finset.range j, (resultSignal (r m)).size) + k) (own (generators (st 0)))) (r j) := by
  have h1 := fun m (hm : m < N) => call_shift hd hr hocc hpot hpre hs hX hG (h m hm)
  obtain ⟨⟨r0, s0, v, h2, h3, h4, h5⟩, -⟩ := h1 j hj
  refine ⟨r0, s0, v, h2, h3, h4, ?_⟩
  have e : (fun k => X k (own (generators (st j)))) = fun k => X ((∑ m ∈ Finset.range j, (resultSignal (r m)).size) + k) (own (generators (st 0))) :=
    funext fun k => series_shift (fun m hm => (h1 m hm).2) j hj.le k
  rwa [e] at h5

/-- A series of measurements of the default device with white noise: the second one uses the numbers 10 to 19. -/
example (lab : Labelling) (s : SimState Streams) : ∃ (st : ℕ → SimState Streams) (r : ℕ → MeasureResult), st 0 = s ∧
    ∀ j, (streamSim [streamWhite 0 0 1]).call lab (.csd countingRequest) (st j) = (.ok (r j), st (j + 1)) ∧
      ∃ r0 s0, (streamSim []).call lab (.csd countingRequest) (st j) = (.ok r0, s0) ∧
        NoiseAdded r0 1 (fun k => (generators s) 0 ((∑ m ∈ Finset.range j, (resultSignal (r m)).size) + k)) (r j) := by
  obtain ⟨st, r, h0, h⟩ := series_exists (stream_call lab) s
  refine ⟨st, r, h0, fun j => ⟨h j, ?_⟩⟩
  obtain ⟨r0, s0, v, h1, -, h2, h3⟩ := C109_series (fun g : Streams => g 0) (streamSim [streamWhite 0 0 1])
    (by simp [Distinct, streamSim, Distinct.sigName, streamWhite]) [] 0 (pure 1) (streamNoise 0) rfl (by simp [streamSim]) (by simp [streamSim]) nofun (fun _ => rfl)
    _ (stream_draws 0) (stream_goesOn 0) lab (j + 1) (fun _ => .csd countingRequest) st r (fun m _ => h m) j (Nat.lt_succ_self j)
  have hv : v = 1 := by
    have h5 := h j
    obtain ⟨⟨y, a⟩, t, h6, h7⟩ := M.bind_ok.1 h5
    have e := (Prod.mk.inj h7).2
    rw [measure_last (sim := streamSim [streamWhite 0 0 1]) (pre := []) (i := 0) (sigma := pure 1) (noise := streamNoise 0) rfl] at h6
    obtain ⟨y0, t0, w, g, -, h8, -, -, h9⟩ := after_only (own := fun g : Streams => g 0) (stream_draws 0) (fun _ => rfl) (fun out u hu => by
      obtain ⟨q, b, hq⟩ := stream_silent lab (st j)
      rw [show AnySim.measure { streamSim [streamWhite 0 0 1] with resp := some [] } lab countingRequest (st j) = _ from hq] at hu
      cases hu
      rfl) h6
    rw [← e, h9] at h2
    cases h8
    simpa using h2.symm
  subst hv
  rw [h0] at h3
  exact ⟨r0, s0, h1, h3⟩

variable [MeasurableSpace τ]

/-- C109 (repeated `measure`): without further distortions, the deviations of all pixels of all measurements from the noise-free signal are independent and
normally distributed with mean 0 and standard deviation `sigma`. -/
theorem C109_repeated (P : Measure τ) (own : τ → ω) (sim : AnySim τ) (i : ℕ) (v : ℝ) (hv : 0 ≤ v) (noise : ℝ → ℕ → M τ (List ℝ))
    (hr : sim.resp = some [.additive i (pure v) noise]) (hocc : sim.occ.getD [] = []) (hpot : sim.pot.getD [] = []) (X : ℕ → ω → ℝ)
    (hX : ScaledDraws own noise X) (hG : GoesOn own noise X) (hN : StandardNormal P own X) (lab : Labelling) (rq : Request) (t t' : SimState τ)
    (csd : Scan ℝ) (rest : Scan (ℝ × ℝ) × Scan ℕ) (h : AnySim.measure { sim with resp := some [] } lab rq t = (.ok (csd, rest), t')) (s : SimState τ) (N : ℕ)
    (B : ℕ → ℕ → Set ℝ) (hB : ∀ j < N, ∀ k < csd.size, MeasurableSet (B j k)) :
    P.real (AllDiffer (sim.measure lab rq) s N csd rest B) =
      ∏ j ∈ Finset.range N, ∏ k ∈ Finset.range csd.size, (gaussianReal 0 (Real.toNNReal (v ^ 2))).real (B j k) :=
  all_law hX hG hN hv (measure_last (pre := []) hr lab rq) (steady_measure hocc hpot h own) s N hB

/-- C109 (repeated `measure_sensor_scan`): the same for sensor scans. -/
theorem C109_scan_repeated (P : Measure τ) (own : τ → ω) (sim : AnySim τ) (i : ℕ) (v : ℝ) (hv : 0 ≤ v) (noise : ℝ → ℕ → M τ (List ℝ))
    (hr : sim.resp = some [.additive i (pure v) noise]) (hocc : sim.occ.getD [] = []) (hpot : sim.pot.getD [] = []) (X : ℕ → ω → ℝ)
    (hX : ScaledDraws own noise X) (hG : GoesOn own noise X) (hN : StandardNormal P own X) (lab : Labelling) (rq : ScanRequest) (t t' : SimState τ)
    (scan : Scan ℝ) (masks : Scan ℕ × Scan ℕ) (h : AnySim.measureScan { sim with resp := some [] } lab rq t = (.ok (scan, masks), t')) (s : SimState τ) (N : ℕ)
    (B : ℕ → ℕ → Set ℝ) (hB : ∀ j < N, ∀ k < scan.size, MeasurableSet (B j k)) :
    P.real (AllDiffer (sim.measureScan lab rq) s N scan masks B) =
      ∏ j ∈ Finset.range N, ∏ k ∈ Finset.range scan.size, (gaussianReal 0 (Real.toNNReal (v ^ 2))).real (B j k) :=
  all_law hX hG hN hv (measureScan_last (pre := []) hr lab rq) (steady_scan hocc hpot h own) s N hB

/-- C109 (mean of `measure`): the pixel-wise means of `N` measurements are independent and normally distributed around the noise-free signal with the
standard deviation `sigma / √N`. -/
theorem C109_mean (P : Measure τ) (own : τ → ω) (sim : AnySim τ) (i : ℕ) (v : ℝ) (hv : 0 ≤ v) (noise : ℝ → ℕ → M τ (List ℝ))
    (hr : sim.resp = some [.additive i (pure v) noise]) (hocc : sim.occ.getD [] = []) (hpot : sim.pot.getD [] = []) (X : ℕ → ω → ℝ)
    (hX : ScaledDraws own noise X) (hG : GoesOn own noise X) (hN : StandardNormal P own X) (lab : Labelling) (rq : Request) (t t' : SimState τ)
    (csd : Scan ℝ) (rest : Scan (ℝ × ℝ) × Scan ℕ) (h : AnySim.measure { sim with resp := some [] } lab rq t = (.ok (csd, rest), t')) (s : SimState τ) (N : ℕ)
    (h0 : 0 < N) (B : ℕ → Set ℝ) (hB : ∀ k < csd.size, MeasurableSet (B k)) :
    P.real (MeanIn (sim.measure lab rq) s N csd.size B) =
      ∏ k ∈ Finset.range csd.size, (gaussianReal (pixelAt csd k) (Real.toNNReal (v ^ 2 / N))).real (B k) :=
  mean_law hX hG hN hv (measure_last (pre := []) hr lab rq) (steady_measure hocc hpot h own) s h0 hB

/-- C109 (mean of `measure_sensor_scan`): the same for sensor scans. -/
theorem C109_scan_mean (P : Measure τ) (own : τ → ω) (sim : AnySim τ) (i : ℕ) (v : ℝ) (hv : 0 ≤ v) (noise : ℝ → ℕ → M τ (List ℝ))
    (hr : sim.resp = some [.additive i (pure v) noise]) (hocc : sim.occ.getD [] = []) (hpot : sim.pot.getD [] = []) (X : ℕ → ω → ℝ)
    (hX : ScaledDraws own noise X) (hG : GoesOn own noise X) (hN : StandardNormal P own X) (lab : Labelling) (rq : ScanRequest) (t t' : SimState τ)
    (scan : Scan ℝ) (masks : Scan ℕ × Scan ℕ) (h : AnySim.measureScan { sim with resp := some [] } lab rq t = (.ok (scan, masks), t')) (s : SimState τ) (N : ℕ)
    (h0 : 0 < N) (B : ℕ → Set ℝ) (hB : ∀ k < scan.size, MeasurableSet (B k)) :
    P.real (MeanIn (sim.measureScan lab rq) s N scan.size B) =
      ∏ k ∈ Finset.range scan.size, (gaussianReal (pixelAt scan k) (Real.toNNReal (v ^ 2 / N))).real (B k) :=
  mean_law hX hG hN hv (measureScan_last (pre := []) hr lab rq) (steady_scan hocc hpot h own) s h0 hB

/-- Non-vacuity: three measurements of the default device, 10 pixels each. -/
example (v : ℝ) (hv : 0 ≤ v) (lab : Labelling) (s : SimState Streams) : ∃ q rest, ∀ B : ℕ → Set ℝ, (∀ k, MeasurableSet (B k)) →
    streams.real (AllDiffer ((streamSim [streamWhite 0 0 v]).measure lab countingRequest) s 3 (.d1 10 q) rest fun _ => B) =
      (∏ k ∈ Finset.range 10, (gaussianReal 0 (Real.toNNReal (v ^ 2))).real (B k)) ^ 3 ∧
    streams.real (MeanIn ((streamSim [streamWhite 0 0 v]).measure lab countingRequest) s 3 10 B) =
      ∏ k ∈ Finset.range 10, (gaussianReal (pixelAt (.d1 10 q) k) (Real.toNNReal (v ^ 2 / 3))).real (B k) := by
  obtain ⟨q, rest, h⟩ := stream_silent lab s
  refine ⟨q, rest, fun B hB => ⟨?_, ?_⟩⟩
  · rw [C109_repeated streams (fun g => g 0) (streamSim [streamWhite 0 0 v]) 0 v hv _ rfl rfl rfl _ (stream_draws 0) (stream_goesOn 0) (stream_normal 0) lab
      countingRequest s s (.d1 10 q) rest h s 3 (fun _ => B) fun _ _ k _ => hB k]
    simp [Scan.size]
  · have := C109_mean streams (fun g => g 0) (streamSim [streamWhite 0 0 v]) 0 v hv _ rfl rfl rfl _ (stream_draws 0) (stream_goesOn 0) (stream_normal 0) lab
      countingRequest s s (.d1 10 q) rest h s 3 (by norm_num) B fun k _ => hB k
    exact_mod_cast this

/-- Non-vacuity for sensor scans: four scans of two pixels. -/
example (v : ℝ) (hv : 0 ≤ v) (lab : Labelling) (s : SimState Streams) : ∃ q masks, ∀ B : ℕ → Set ℝ, (∀ k, MeasurableSet (B k)) →
    streams.real (AllDiffer ((streamScanSim [streamWhite 0 0 v]).measureScan lab flipRequest) s 4 (.d1 2 q) masks fun _ => B) =
      (∏ k ∈ Finset.range 2, (gaussianReal 0 (Real.toNNReal (v ^ 2))).real (B k)) ^ 4 ∧
    streams.real (MeanIn ((streamScanSim [streamWhite 0 0 v]).measureScan lab flipRequest) s 4 2 B) =
      ∏ k ∈ Finset.range 2, (gaussianReal (pixelAt (.d1 2 q) k) (Real.toNNReal (v ^ 2 / 4))).real (B k) := by
  obtain ⟨q, masks, s', h⟩ := stream_scan_silent lab s
  refine ⟨q, masks, fun B hB => ⟨?_, ?_⟩⟩
  · rw [C109_scan_repeated streams (fun g => g 0) (streamScanSim [streamWhite 0 0 v]) 0 v hv _ rfl rfl rfl _ (stream_draws 0) (stream_goesOn 0)
      (stream_normal 0) lab flipRequest s s' (.d1 2 q) masks h s 4 (fun _ => B) fun _ _ k _ => hB k]
    simp [Scan.size]
  · have := C109_scan_mean streams (fun g => g 0) (streamScanSim [streamWhite 0 0 v]) 0 v hv _ rfl rfl rfl _ (stream_draws 0) (stream_goesOn 0)
      (stream_normal 0) lab flipRequest s s' (.d1 2 q) masks h s 4 (by norm_num) B fun k _ => hB k
    exact_mod_cast this

end SimCATS
