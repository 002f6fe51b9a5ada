import Verif.Lemmas.BurstSim

/-! C114: the heights of telegraph noise in measurements. -/

namespace SimCATS

open Spec MeasureTheory ProbabilityTheory

variable {τ ω : Type} [MeasurableSpace τ]

/-- C114 (`measure`): telegraph noise as last distortion of the response with the scale `scale` in volts, in a scan with `k` pixels per volt.  For a
set `B` of heights without 0, the signal differs from that of the same measurement without the noise by a common height in `B` in the pixels `m`,
..., `m + l` with the given probability: that the noise is active, times that no state changes between these pixels, times that pixel `m` is in a
burst, times the probability of `B` under the normal distribution with mean `height` and standard deviation `std`.  For both kinds of sensors, all
configurations of the simulation and all histories; the other distortions may do anything as long as they do not use the generator of the noise. -/
theorem C114_burst (P : Measure τ) [IsProbabilityMeasure P] (own : τ → ω) (sim : AnySim τ) (hd : Distinct sim) (pre : List (SigObject τ)) (i : ℕ)
    (scale std height r : ℝ) (rng : Rng τ) (hr : sim.resp = some (pre ++ [.rtn i (pure scale) (pure std) (pure height) r rng]))
    (hocc : ∀ o ∈ sim.occ.getD [], OccUntouched own o) (hpot : ∀ o ∈ sim.pot.getD [], SigUntouched own o) (hpre : ∀ o ∈ pre, SigUntouched own o)
    (hv : rng.Valid) (k : ℝ) (hs : 1 ≤ scale * k) (n : ℕ) (hT : BurstDraws P own rng r (1 / (scale * k)) height std n) (lab : Labelling)
    (rq : Request) (g1 g2 : ℝ × ℝ) (h1 : rq.g1 = [g1.1, g1.2]) (h2 : rq.g2 = [g2.1, g2.2]) (s : SimState τ)
    (hg : ∀ᵐ g ∂P, g ∈ HasDensity (AnySim.measure { sim with resp := some pre } lab rq) s g1 g2 n k) (m l : ℕ) (hm : m + l < n)
    (B : Set ℝ) (hB : MeasurableSet B) (h0 : 0 ∉ B) :
    P.real (RaisedBy (sim.measure lab rq) (AnySim.measure { sim with resp := some pre } lab rq) s m l B) =
      r * ((1 - 1 / (scale * k)) ^ l * ((1 - (1 - 2 / (scale * k)) ^ m) / 2) * (gaussianReal height (std ^ 2).toNNReal).real B) :=
  burst_law hv hs (measure_end hr lab rq g1 g2 fun _ _ _ _ h x => by obtain ⟨rfl, rfl⟩ := measureCheck_ranges h1 h2 h; rfl)
    (fun _ _ _ h => measure_own (distinct_pre hr hd) hocc hpot hpre h) hT hg m l hm hB h0

/-- A line of 10 pixels with 100 pixels per volt and a scale of 40 mV, so 4 pixels: pixels 2 to 5 are raised by a common height between 1 and 2. -/
example (r : ℝ) (h0 : 0 ≤ r) (h1 : r ≤ 1) (lab : Labelling) (s : SimState JumpStreams) :
    (jumpStreams 2).real (RaisedBy ((streamSim [burstNoise r]).measure lab countingRequest) ((streamSim []).measure lab countingRequest) s 2 3
      (Set.Icc 1 2)) = r * (27 / 64 * (3 / 8) * (gaussianReal 1.5 (0.1 ^ 2 : ℝ).toNNReal).real (Set.Icc 1 2)) := by
  have h := C114_burst (jumpStreams 2) id (streamSim [burstNoise r]) (by simp [Distinct, streamSim]) [] 0 0.04 0.1 1.5 r jumpRng rfl
    (by simp [streamSim]) (by simp [streamSim]) nofun jumpRng_valid 100 (by norm_num) 10 (burst_draws 2 h0 h1 (by norm_num) (by norm_num) 10) lab
    countingRequest (-0.2, -0.1) (-0.2, -0.1) rfl rfl s (.of_forall fun g => burst_line lab s g) 2 3 (by norm_num) (Set.Icc 1 2) measurableSet_Icc
    (by norm_num)
  refine h.trans ?_
  norm_num

/-- C114 (`measure_sensor_scan`): the same for sensor scans; the number of pixels per volt is that of sensor gate 1 (C28). -/
theorem C114_scan_burst (P : Measure τ) [IsProbabilityMeasure P] (own : τ → ω) (sim : AnySim τ) (hd : Distinct sim) (pre : List (SigObject τ)) (i : ℕ)
    (scale std height r : ℝ) (rng : Rng τ) (hr : sim.resp = some (pre ++ [.rtn i (pure scale) (pure std) (pure height) r rng]))
    (hpot : ∀ o ∈ sim.pot.getD [], SigUntouched own o) (hpre : ∀ o ∈ pre, SigUntouched own o) (hv : rng.Valid) (k : ℝ) (hs : 1 ≤ scale * k) (n : ℕ)
    (hT : BurstDraws P own rng r (1 / (scale * k)) height std n) (lab : Labelling) (rq : ScanRequest) (s1 : ℝ × ℝ) (h1 : rq.s1 = [s1.1, s1.2])
    (s : SimState τ) (hg : ∀ᵐ g ∂P, g ∈ HasDensity (AnySim.measureScan { sim with resp := some pre } lab rq) s s1 s1 n k) (m l : ℕ) (hm : m + l < n)
    (B : Set ℝ) (hB : MeasurableSet B) (h0 : 0 ∉ B) :
    P.real (RaisedBy (sim.measureScan lab rq) (AnySim.measureScan { sim with resp := some pre } lab rq) s m l B) =
      r * ((1 - 1 / (scale * k)) ^ l * ((1 - (1 - 2 / (scale * k)) ^ m) / 2) * (gaussianReal height (std ^ 2).toNNReal).real B) :=
  burst_law hv hs (measureScan_end hr lab rq s1 fun _ v1 _ h x => by
      obtain rfl : v1 = s1 := by
        have := (scanCheck_ranges _ _ _ _ _ h).1
        rw [h1] at this
        simp only [List.cons.injEq, and_true] at this
        exact Prod.ext this.1.symm this.2.symm
      rfl)
    (fun _ _ _ h => measureScan_own (distinct_pre hr hd) hpot hpre h) hT hg m l hm hB h0

/-- The second pixel of a sensor scan is raised by more than the mean height 1.5; the scale is two pixels. -/
example (r : ℝ) (h0 : 0 ≤ r) (h1 : r ≤ 1) (lab : Labelling) (s : SimState JumpStreams) :
    (jumpStreams 2).real (RaisedBy ((streamScanSim [.rtn 0 (pure 1) (pure 0.1) (pure 1.5) r jumpRng]).measureScan lab flipRequest)
      ((streamScanSim []).measureScan lab flipRequest) s 1 0 (Set.Ioi 1.5)) =
        r * (1 / 2 * (gaussianReal 1.5 (0.1 ^ 2 : ℝ).toNNReal).real (Set.Ioi 1.5)) := by
  have h := C114_scan_burst (jumpStreams 2) id (streamScanSim [.rtn 0 (pure 1) (pure 0.1) (pure 1.5) r jumpRng]) (by simp [Distinct, streamScanSim]) []
    0 1 0.1 1.5 r jumpRng rfl (by simp [streamScanSim]) nofun jumpRng_valid 2 (by norm_num) 2 (burst_draws 2 h0 h1 (by norm_num) (by norm_num) 2) lab
    flipRequest (-2, -1) rfl s (.of_forall fun g => burst_scan lab s g) 1 0 (by norm_num) (Set.Ioi 1.5) measurableSet_Ioi (by norm_num)
  refine h.trans ?_
  norm_num

/-- C114 (`measure`, single pixels): the difference that the noise makes to pixel `m` is 0 with probability `1 - c` and otherwise normally distributed
with the configured height and standard deviation, where `c` is the probability that the noise is active and pixel `m` in a burst.  So on average
the signal is raised by `c * height`. -/
theorem C114_pixel (P : Measure τ) [IsProbabilityMeasure P] (own : τ → ω) (sim : AnySim τ) (hd : Distinct sim) (pre : List (SigObject τ)) (i : ℕ)
    (scale std height r : ℝ) (rng : Rng τ) (hr : sim.resp = some (pre ++ [.rtn i (pure scale) (pure std) (pure height) r rng]))
    (hocc : ∀ o ∈ sim.occ.getD [], OccUntouched own o) (hpot : ∀ o ∈ sim.pot.getD [], SigUntouched own o) (hpre : ∀ o ∈ pre, SigUntouched own o)
    (hv : rng.Valid) (k : ℝ) (hs : 1 ≤ scale * k) (n : ℕ) (hT : BurstDraws P own rng r (1 / (scale * k)) height std n) (lab : Labelling)
    (rq : Request) (g1 g2 : ℝ × ℝ) (h1 : rq.g1 = [g1.1, g1.2]) (h2 : rq.g2 = [g2.1, g2.2]) (s : SimState τ)
    (hg : ∀ᵐ g ∂P, g ∈ HasDensity (AnySim.measure { sim with resp := some pre } lab rq) s g1 g2 n k) (m : ℕ) (hm : m < n)
    (c : ℝ) (hc : c = r * ((1 - (1 - 2 / (scale * k)) ^ m) / 2)) :
    P.map (signalDifference (sim.measure lab rq) (AnySim.measure { sim with resp := some pre } lab rq) s m) =
        ENNReal.ofReal (1 - c) • Measure.dirac 0 + ENNReal.ofReal c • gaussianReal height (std ^ 2).toNNReal ∧
      ∫ g, signalDifference (sim.measure lab rq) (AnySim.measure { sim with resp := some pre } lab rq) s m g ∂P = c * height :=
  burst_mixture hv hs (measure_end hr lab rq g1 g2 fun _ _ _ _ h x => by obtain ⟨rfl, rfl⟩ := measureCheck_ranges h1 h2 h; rfl)
    (fun _ _ _ h => measure_own (distinct_pre hr hd) hocc hpot hpre h) hT hg m hm hc

/-- The mean of pixel 2 is raised by 3/8 of the ratio times the height 1.5. -/
example (r : ℝ) (h0 : 0 ≤ r) (h1 : r ≤ 1) (lab : Labelling) (s : SimState JumpStreams) :
    ∫ g, signalDifference ((streamSim [burstNoise r]).measure lab countingRequest) ((streamSim []).measure lab countingRequest) s 2 g ∂jumpStreams 2 =
      r * (3 / 8) * 1.5 := by
  refine (C114_pixel (jumpStreams 2) id (streamSim [burstNoise r]) (by simp [Distinct, streamSim]) [] 0 0.04 0.1 1.5 r jumpRng rfl
    (by simp [streamSim]) (by simp [streamSim]) nofun jumpRng_valid 100 (by norm_num) 10 (burst_draws 2 h0 h1 (by norm_num) (by norm_num) 10) lab
    countingRequest (-0.2, -0.1) (-0.2, -0.1) rfl rfl s (.of_forall fun g => burst_line lab s g) 2 (by norm_num) _ ?_).2
  norm_num

/-- C114 (`measure_sensor_scan`, single pixels). -/
theorem C114_scan_pixel (P : Measure τ) [IsProbabilityMeasure P] (own : τ → ω) (sim : AnySim τ) (hd : Distinct sim) (pre : List (SigObject τ)) (i : ℕ)
    (scale std height r : ℝ) (rng : Rng τ) (hr : sim.resp = some (pre ++ [.rtn i (pure scale) (pure std) (pure height) r rng]))
    (hpot : ∀ o ∈ sim.pot.getD [], SigUntouched own o) (hpre : ∀ o ∈ pre, SigUntouched own o) (hv : rng.Valid) (k : ℝ) (hs : 1 ≤ scale * k) (n : ℕ)
    (hT : BurstDraws P own rng r (1 / (scale * k)) height std n) (lab : Labelling) (rq : ScanRequest) (s1 : ℝ × ℝ) (h1 : rq.s1 = [s1.1, s1.2])
    (s : SimState τ) (hg : ∀ᵐ g ∂P, g ∈ HasDensity (AnySim.measureScan { sim with resp := some pre } lab rq) s s1 s1 n k) (m : ℕ) (hm : m < n)
    (c : ℝ) (hc : c = r * ((1 - (1 - 2 / (scale * k)) ^ m) / 2)) :
    P.map (signalDifference (sim.measureScan lab rq) (AnySim.measureScan { sim with resp := some pre } lab rq) s m) =
        ENNReal.ofReal (1 - c) • Measure.dirac 0 + ENNReal.ofReal c • gaussianReal height (std ^ 2).toNNReal ∧
      ∫ g, signalDifference (sim.measureScan lab rq) (AnySim.measureScan { sim with resp := some pre } lab rq) s m g ∂P = c * height :=
  burst_mixture hv hs (measureScan_end hr lab rq s1 fun _ v1 _ h x => by
      obtain rfl : v1 = s1 := by
        have := (scanCheck_ranges _ _ _ _ _ h).1
        rw [h1] at this
        simp only [List.cons.injEq, and_true] at this
        exact Prod.ext this.1.symm this.2.symm
      rfl)
    (fun _ _ _ h => measureScan_own (distinct_pre hr hd) hpot hpre h) hT hg m hm hc

/-- The mean of the second pixel of a sensor scan is raised by half of the ratio times the height 1.5. -/
example (r : ℝ) (h0 : 0 ≤ r) (h1 : r ≤ 1) (lab : Labelling) (s : SimState JumpStreams) :
    ∫ g, signalDifference ((streamScanSim [.rtn 0 (pure 1) (pure 0.1) (pure 1.5) r jumpRng]).measureScan lab flipRequest)
      ((streamScanSim []).measureScan lab flipRequest) s 1 g ∂jumpStreams 2 = r / 2 * 1.5 := by
  refine (C114_scan_pixel (jumpStreams 2) id (streamScanSim [.rtn 0 (pure 1) (pure 0.1) (pure 1.5) r jumpRng]) (by simp [Distinct, streamScanSim]) []
    0 1 0.1 1.5 r jumpRng rfl (by simp [streamScanSim]) nofun jumpRng_valid 2 (by norm_num) 2 (burst_draws 2 h0 h1 (by norm_num) (by norm_num) 2) lab
    flipRequest (-2, -1) rfl s (.of_forall fun g => burst_scan lab s g) 1 (by norm_num) _ ?_).2
  norm_num
  ring

end SimCATS
