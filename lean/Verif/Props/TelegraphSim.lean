import Verif.Lemmas.TelegraphSim

/-! C108: the distribution of telegraph noise in measurements. -/

namespace SimCATS

open Spec MeasureTheory ProbabilityTheory

variable {τ ω : Type} [MeasurableSpace τ]

/-- C108 (`measure`): telegraph noise as last distortion of the response with the scale `scale` in volts, in a scan with `k` pixels per volt.  The
pixels in which the signal differs from that of the same measurement without the noise: none with probability `1 - ratio`; otherwise the first
pixel does not differ, and after each pixel the state changes with probability `1 / (scale * k)`.  For both kinds of sensors, all configurations of the
simulation and all histories; the other distortions may do anything as long as they do not use the generator of the noise. -/
theorem C108_pattern (P : Measure τ) [IsProbabilityMeasure P] (own : τ → ω) (sim : AnySim τ) (hd : Distinct sim) (pre : List (SigObject τ)) (i : ℕ)
    (scale std height r : ℝ) (rng : Rng τ) (hr : sim.resp = some (pre ++ [.rtn i (pure scale) (pure std) (pure height) r rng]))
    (hocc : ∀ o ∈ sim.occ.getD [], OccUntouched own o) (hpot : ∀ o ∈ sim.pot.getD [], SigUntouched own o) (hpre : ∀ o ∈ pre, SigUntouched own o)
    (hv : rng.Valid) (hn : ∀ s, ∃ a s', rng.normal height std s = (.ok a, s') ∧ a ≠ 0) (k : ℝ) (hs : 1 ≤ scale * k) (n : ℕ)
    (hT : TelegraphDraws P own rng r (1 / (scale * k)) n) (lab : Labelling) (rq : Request) (g1 g2 : ℝ × ℝ) (h1 : rq.g1 = [g1.1, g1.2])
    (h2 : rq.g2 = [g2.1, g2.2]) (s : SimState τ) (hg : ∀ᵐ g ∂P, g ∈ HasDensity (AnySim.measure { sim with resp := some pre } lab rq) s g1 g2 n k)
    (c : ℕ → Bool) (m : ℕ) (hm : m < n) :
    P.real (DifferAt (sim.measure lab rq) (AnySim.measure { sim with resp := some pre } lab rq) s c m) =
      (open Classical in if ∀ j ≤ m, c j = false then 1 - r else 0) +
        r * if c 0 = true then 0 else ∏ j ∈ Finset.range m, if c (j + 1) = c j then 1 - 1 / (scale * k) else 1 / (scale * k) :=
  (telegraph_law hv hs hn (measure_end hr lab rq g1 g2 fun _ _ _ _ h x => by obtain ⟨rfl, rfl⟩ := measureCheck_ranges h1 h2 h; rfl)
    (fun _ _ _ h => measure_own (distinct_pre hr hd) hocc hpot hpre h) hT hg c m hm).1

/-- C108 (`measure`, single pixels): pixel `m` is changed with probability `ratio * (1 - (1 - 2 / (scale * k)) ^ m) / 2`. -/
theorem C108_pixel (P : Measure τ) [IsProbabilityMeasure P] (own : τ → ω) (sim : AnySim τ) (hd : Distinct sim) (pre : List (SigObject τ)) (i : ℕ)
    (scale std height r : ℝ) (rng : Rng τ) (hr : sim.resp = some (pre ++ [.rtn i (pure scale) (pure std) (pure height) r rng]))
    (hocc : ∀ o ∈ sim.occ.getD [], OccUntouched own o) (hpot : ∀ o ∈ sim.pot.getD [], SigUntouched own o) (hpre : ∀ o ∈ pre, SigUntouched own o)
    (hv : rng.Valid) (hn : ∀ s, ∃ a s', rng.normal height std s = (.ok a, s') ∧ a ≠ 0) (k : ℝ) (hs : 1 ≤ scale * k) (n : ℕ)
    (hT : TelegraphDraws P own rng r (1 / (scale * k)) n) (lab : Labelling) (rq : Request) (g1 g2 : ℝ × ℝ) (h1 : rq.g1 = [g1.1, g1.2])
    (h2 : rq.g2 = [g2.1, g2.2]) (s : SimState τ) (hg : ∀ᵐ g ∂P, g ∈ HasDensity (AnySim.measure { sim with resp := some pre } lab rq) s g1 g2 n k)
    (m : ℕ) (hm : m < n) :
    P.real (DifferIn (sim.measure lab rq) (AnySim.measure { sim with resp := some pre } lab rq) s m) = r * ((1 - (1 - 2 / (scale * k)) ^ m) / 2) :=
  (telegraph_law hv hs hn (measure_end hr lab rq g1 g2 fun _ _ _ _ h x => by obtain ⟨rfl, rfl⟩ := measureCheck_ranges h1 h2 h; rfl)
    (fun _ _ _ h => measure_own (distinct_pre hr hd) hocc hpot hpre h) hT hg (fun _ => false) m hm).2

/-- A line of 10 pixels with 100 pixels per volt and a scale of 40 mV, so 4 pixels: pixel 2 is changed with probability 3/8 times the ratio. -/
example (r : ℝ) (h0 : 0 ≤ r) (h1 : r ≤ 1) (lab : Labelling) (s : SimState Teles) :
    teles.real (DifferIn ((streamSim [teleNoise r]).measure lab countingRequest) ((streamSim []).measure lab countingRequest) s 2) = r * (3 / 8) := by
  have h := C108_pixel teles id (streamSim [teleNoise r]) (by simp [Distinct, streamSim]) [] 0 0.04 0 5 r teleRng rfl (by simp [streamSim])
    (by simp [streamSim]) nofun tele_valid (fun s => ⟨5, s, rfl, by norm_num⟩) 100 (by norm_num) 10
    (tele_draws h0 h1 (by norm_num) (by norm_num) 10) lab countingRequest (-0.2, -0.1) (-0.2, -0.1) rfl rfl s (.of_forall fun g => tele_line lab s g)
    2 (by norm_num)
  refine h.trans ?_
  norm_num

/-- C108 (`measure_sensor_scan`): the same for sensor scans; the number of pixels per volt is that of sensor gate 1 (C28). -/
theorem C108_scan_pattern (P : Measure τ) [IsProbabilityMeasure P] (own : τ → ω) (sim : AnySim τ) (hd : Distinct sim) (pre : List (SigObject τ)) (i : ℕ)
    (scale std height r : ℝ) (rng : Rng τ) (hr : sim.resp = some (pre ++ [.rtn i (pure scale) (pure std) (pure height) r rng]))
    (hpot : ∀ o ∈ sim.pot.getD [], SigUntouched own o) (hpre : ∀ o ∈ pre, SigUntouched own o) (hv : rng.Valid)
    (hn : ∀ s, ∃ a s', rng.normal height std s = (.ok a, s') ∧ a ≠ 0) (k : ℝ) (hs : 1 ≤ scale * k) (n : ℕ)
    (hT : TelegraphDraws P own rng r (1 / (scale * k)) n) (lab : Labelling) (rq : ScanRequest) (s1 : ℝ × ℝ) (h1 : rq.s1 = [s1.1, s1.2])
    (s : SimState τ) (hg : ∀ᵐ g ∂P, g ∈ HasDensity (AnySim.measureScan { sim with resp := some pre } lab rq) s s1 s1 n k)
    (c : ℕ → Bool) (m : ℕ) (hm : m < n) :
    P.real (DifferAt (sim.measureScan lab rq) (AnySim.measureScan { sim with resp := some pre } lab rq) s c m) =
      (open Classical in if ∀ j ≤ m, c j = false then 1 - r else 0) +
        r * if c 0 = true then 0 else ∏ j ∈ Finset.range m, if c (j + 1) = c j then 1 - 1 / (scale * k) else 1 / (scale * k) :=
  (telegraph_law hv hs hn (measureScan_end hr lab rq s1 fun _ v1 _ h x => by
      obtain rfl : v1 = s1 := by
        have := (scanCheck_ranges _ _ _ _ _ h).1
        rw [h1] at this
        simp only [List.cons.injEq, and_true] at this
        exact Prod.ext this.1.symm this.2.symm
      rfl)
    (fun _ _ _ h => measureScan_own (distinct_pre hr hd) hpot hpre h) hT hg c m hm).1

/-- Both pixels of a sensor scan are undisturbed with probability `1 - ratio / 2` if the scale is two pixels. -/
example (r : ℝ) (h0 : 0 ≤ r) (h1 : r ≤ 1) (lab : Labelling) (s : SimState Teles) :
    teles.real (DifferAt ((streamScanSim [.rtn 0 (pure 1) (pure 0) (pure 5) r teleRng]).measureScan lab flipRequest)
      ((streamScanSim []).measureScan lab flipRequest) s (fun _ => false) 1) = 1 - r / 2 := by
  have h := C108_scan_pattern teles id (streamScanSim [.rtn 0 (pure 1) (pure 0) (pure 5) r teleRng]) (by simp [Distinct, streamScanSim]) [] 0 1 0 5 r
    teleRng rfl (by simp [streamScanSim]) nofun tele_valid (fun s => ⟨5, s, rfl, by norm_num⟩) 2 (by norm_num) 2
    (tele_draws h0 h1 (by norm_num) (by norm_num) 2) lab flipRequest (-2, -1) rfl s (.of_forall fun g => tele_scan lab s g) (fun _ => false) 1 (by norm_num)
  refine h.trans ?_
  simp
  ring

/-- C108 (`measure_sensor_scan`, single pixels). -/
theorem C108_scan_pixel (P : Measure τ) [IsProbabilityMeasure P] (own : τ → ω) (sim : AnySim τ) (hd : Distinct sim) (pre : List (SigObject τ)) (i : ℕ)
    (scale std height r : ℝ) (rng : Rng τ) (hr : sim.resp = some (pre ++ [.rtn i (pure scale) (pure std) (pure height) r rng]))
    (hpot : ∀ o ∈ sim.pot.getD [], SigUntouched own o) (hpre : ∀ o ∈ pre, SigUntouched own o) (hv : rng.Valid)
    (hn : ∀ s, ∃ a s', rng.normal height std s = (.ok a, s') ∧ a ≠ 0) (k : ℝ) (hs : 1 ≤ scale * k) (n : ℕ)
    (hT : TelegraphDraws P own rng r (1 / (scale * k)) n) (lab : Labelling) (rq : ScanRequest) (s1 : ℝ × ℝ) (h1 : rq.s1 = [s1.1, s1.2])
    (s : SimState τ) (hg : ∀ᵐ g ∂P, g ∈ HasDensity (AnySim.measureScan { sim with resp := some pre } lab rq) s s1 s1 n k)
    (m : ℕ) (hm : m < n) :
    P.real (DifferIn (sim.measureScan lab rq) (AnySim.measureScan { sim with resp := some pre } lab rq) s m) =
      r * ((1 - (1 - 2 / (scale * k)) ^ m) / 2) :=
  (telegraph_law hv hs hn (measureScan_end hr lab rq s1 fun _ v1 _ h x => by
      obtain rfl : v1 = s1 := by
        have := (scanCheck_ranges _ _ _ _ _ h).1
        rw [h1] at this
        simp only [List.cons.injEq, and_true] at this
        exact Prod.ext this.1.symm this.2.symm
      rfl)
    (fun _ _ _ h => measureScan_own (distinct_pre hr hd) hpot hpre h) hT hg (fun _ => false) m hm).2

/-- With a scale of one volt, so two pixels, the second pixel is changed with half the ratio. -/
example (r : ℝ) (h0 : 0 ≤ r) (h1 : r ≤ 1) (lab : Labelling) (s : SimState Teles) :
    teles.real (DifferIn ((streamScanSim [.rtn 0 (pure 1) (pure 0) (pure 5) r teleRng]).measureScan lab flipRequest)
      ((streamScanSim []).measureScan lab flipRequest) s 1) = r / 2 := by
  have h := C108_scan_pixel teles id (streamScanSim [.rtn 0 (pure 1) (pure 0) (pure 5) r teleRng]) (by simp [Distinct, streamScanSim]) [] 0 1 0 5 r
    teleRng rfl (by simp [streamScanSim]) nofun tele_valid (fun s => ⟨5, s, rfl, by norm_num⟩) 2 (by norm_num) 2
    (tele_draws h0 h1 (by norm_num) (by norm_num) 2) lab flipRequest (-2, -1) rfl s (.of_forall fun g => tele_scan lab s g) 1 (by norm_num)
  refine h.trans ?_
  norm_num
  ring

end SimCATS
