import Verif.Lemmas.NoiseOrder
import Verif.Props.WhiteNoiseLaw
import Verif.Props.TelegraphSim
import Verif.Props.BurstSim

/-! C115: noises with their own generators may be given in any order. -/

namespace SimCATS

open Spec MeasureTheory ProbabilityTheory

variable {τ ω : Type}

/-- C115 (`measure`): if the noises of the potential share no generators and samplers, and those of the response do not either, then both lists may be
reordered: a measurement with results `out` that leaves the state `s'` becomes the same measurement. -/
theorem C115_measure (sim : AnySim τ) (hd : Distinct sim) (pot resp : Option (List (SigObject τ))) (hp : Reordered sim.pot pot)
    (hr : Reordered sim.resp resp) (op : (sim.pot.getD []).Pairwise OwnGenerators) (or : (sim.resp.getD []).Pairwise OwnGenerators) (lab : Labelling)
    (rq : Request) (s s' : SimState τ) (out : Scan ℝ × Scan (ℝ × ℝ) × Scan ℕ) :
    sim.measure lab rq s = (.ok out, s') ↔ AnySim.measure { sim with pot := pot, resp := resp } lab rq s = (.ok out, s') := by
  obtain ⟨p1, p2⟩ := includes_reordered hp op (distinct_signals hd).1
  obtain ⟨r1, r2⟩ := includes_reordered hr or (distinct_signals hd).2
  exact ⟨any_includes p1 r1 lab rq, any_includes (sim := { sim with pot := pot, resp := resp }) p2 r2 lab rq⟩

/-- Two white noises with their own generators, in both orders. -/
example (v w : ℝ) (lab : Labelling) (s s' : SimState Streams) (out : Scan ℝ × Scan (ℝ × ℝ) × Scan ℕ) :
    (streamSim [streamWhite 0 0 v, streamWhite 1 1 w]).measure lab countingRequest s = (.ok out, s') ↔
      (streamSim [streamWhite 1 1 w, streamWhite 0 0 v]).measure lab countingRequest s = (.ok out, s') :=
  C115_measure (streamSim [streamWhite 0 0 v, streamWhite 1 1 w]) (by simp [Distinct, streamSim, Distinct.sigName, streamWhite]) none
    (some [streamWhite 1 1 w, streamWhite 0 0 v]) trivial (List.Perm.swap _ _ _) List.Pairwise.nil
    (List.pairwise_pair.2 (streams_apart (by decide) 0 1 v w)) lab countingRequest s s' out

/-- C115 (`measure_sensor_scan`): the same for sensor scans. -/
theorem C115_scan (sim : AnySim τ) (hd : Distinct sim) (pot resp : Option (List (SigObject τ))) (hp : Reordered sim.pot pot)
    (hr : Reordered sim.resp resp) (op : (sim.pot.getD []).Pairwise OwnGenerators) (or : (sim.resp.getD []).Pairwise OwnGenerators) (lab : Labelling)
    (rq : ScanRequest) (s s' : SimState τ) (out : Scan ℝ × Scan ℕ × Scan ℕ) :
    sim.measureScan lab rq s = (.ok out, s') ↔ AnySim.measureScan { sim with pot := pot, resp := resp } lab rq s = (.ok out, s') := by
  obtain ⟨p1, p2⟩ := includes_reordered hp op (distinct_signals hd).1
  obtain ⟨r1, r2⟩ := includes_reordered hr or (distinct_signals hd).2
  exact ⟨anyScan_includes p1 r1 lab rq, anyScan_includes (sim := { sim with pot := pot, resp := resp }) p2 r2 lab rq⟩

example (v w : ℝ) (lab : Labelling) (s s' : SimState Streams) (out : Scan ℝ × Scan ℕ × Scan ℕ) :
    (streamScanSim [streamWhite 0 0 v, streamWhite 1 1 w]).measureScan lab flipRequest s = (.ok out, s') ↔
      (streamScanSim [streamWhite 1 1 w, streamWhite 0 0 v]).measureScan lab flipRequest s = (.ok out, s') :=
  C115_scan (streamScanSim [streamWhite 0 0 v, streamWhite 1 1 w]) (by simp [Distinct, streamScanSim, Distinct.sigName, streamWhite]) (some [])
    (some [streamWhite 1 1 w, streamWhite 0 0 v]) (List.Perm.refl _) (List.Perm.swap _ _ _) List.Pairwise.nil
    (List.pairwise_pair.2 (streams_apart (by decide) 0 1 v w)) lab flipRequest s s' out

/-- C115 (shared generators): without own generators the order matters.  Two white noises of strengths 1 and 2 that draw from the same generator
return different signals in the two orders. -/
theorem C115_shared (lab : Labelling) : ∃ s : SimState Streams,
    ((streamSim [streamWhite 0 0 1, streamWhite 1 0 2]).measure lab countingRequest s).1 ≠
      ((streamSim [streamWhite 1 0 2, streamWhite 0 0 1]).measure lab countingRequest s).1 := by
  let g : Streams := fun _ j => if j < 10 then 1 else 0
  refine ⟨(none, ⟨fun _ => none, fun _ => ⟨none, none⟩, fun _ => none, g⟩), ?_⟩
  obtain ⟨q, a, h⟩ := stream_silent lab (none, ⟨fun _ => none, fun _ => ⟨none, none⟩, fun _ => none, g⟩)
  rw [shared_line lab zero_le_one zero_le_two h, shared_line lab zero_le_two zero_le_one h]
  intro he
  simp only [Except.ok.injEq, Prod.mk.injEq, Scan.d1.injEq, and_true, heq_eq_eq, true_and] at he
  have := congrFun he 0
  norm_num [g] at this

variable [MeasurableSpace τ]

/-- C115 (white noise, `measure`): the distribution of C107 for white noise at any place among the response distortions, if the later ones do not share
its generator. -/
theorem C115_white (P : Measure τ) (own : τ → ω) (sim : AnySim τ) (hd : Distinct sim) (pre post : List (SigObject τ)) (i : ℕ) (v : ℝ) (hv : 0 ≤ v)
    (noise : ℝ → ℕ → M τ (List ℝ)) (hr : sim.resp = some (pre ++ .additive i (pure v) noise :: post))
    (ho : ∀ o ∈ post, OwnGenerators (.additive i (pure v) noise) o) (hocc : ∀ o ∈ sim.occ.getD [], OccUntouched own o)
    (hpot : ∀ o ∈ sim.pot.getD [], SigUntouched own o) (hpre : ∀ o ∈ pre ++ post, SigUntouched own o) (X : ℕ → ω → ℝ)
    (hX : ScaledDraws own noise X) (hN : StandardNormal P own X) (lab : Labelling) (rq : Request) (s : SimState τ) (n : ℕ)
    (hn : ∀ᵐ g ∂P, g ∈ HasPixels (AnySim.measure { sim with resp := some (pre ++ post) } lab rq) s n) (B : ℕ → Set ℝ)
    (hB : ∀ k < n, MeasurableSet (B k)) :
    P.real (Differ (sim.measure lab rq) (AnySim.measure { sim with resp := some (pre ++ post) } lab rq) s n B) =
      ∏ k ∈ Finset.range n, (gaussianReal 0 (Real.toNNReal (v ^ 2))).real (B k) := by
  refine Eq.trans (congrArg P.real ?_) (C107_law P own { sim with resp := some (pre ++ post ++ [.additive i (pure v) noise]) } (distinct_place hr hd)
    (pre ++ post) i v hv noise rfl hocc hpot hpre X hX hN lab rq s n hn B hB)
  ext g
  unfold Differ
  simp only [Set.mem_ofPred_eq, measure_place hr ho (distinct_later hr hd)]

/-- White noise of strength `v` that is followed by another one. -/
example (v : ℝ) (hv : 0 ≤ v) (lab : Labelling) (s : SimState Streams) (B : ℕ → Set ℝ) (hB : ∀ k, MeasurableSet (B k)) :
    streams.real (Differ ((streamSim [streamWhite 1 1 v, streamWhite 0 0 1]).measure lab countingRequest)
      ((streamSim [streamWhite 0 0 1]).measure lab countingRequest) s 10 B) =
      ∏ k ∈ Finset.range 10, (gaussianReal 0 (Real.toNNReal (v ^ 2))).real (B k) :=
  C115_white streams (fun g => g 1) (streamSim [streamWhite 1 1 v, streamWhite 0 0 1])
    (by simp [Distinct, streamSim, Distinct.sigName, streamWhite]) [] [streamWhite 0 0 1] 1 v hv _ rfl
    (List.forall_mem_singleton.2 (streams_apart (by decide) 1 0 v 1)) (by simp [streamSim]) (by simp [streamSim])
    (stream_before 1) _ (stream_draws 1) (stream_normal 1) lab countingRequest s 10 (.of_forall fun g => stream_pixels lab s g) B fun k _ => hB k

/-- C115 (white noise, `measure_sensor_scan`). -/
theorem C115_scan_white (P : Measure τ) (own : τ → ω) (sim : AnySim τ) (hd : Distinct sim) (pre post : List (SigObject τ)) (i : ℕ) (v : ℝ)
    (hv : 0 ≤ v) (noise : ℝ → ℕ → M τ (List ℝ)) (hr : sim.resp = some (pre ++ .additive i (pure v) noise :: post))
    (ho : ∀ o ∈ post, OwnGenerators (.additive i (pure v) noise) o) (hpot : ∀ o ∈ sim.pot.getD [], SigUntouched own o)
    (hpre : ∀ o ∈ pre ++ post, SigUntouched own o) (X : ℕ → ω → ℝ) (hX : ScaledDraws own noise X) (hN : StandardNormal P own X) (lab : Labelling)
    (rq : ScanRequest) (s : SimState τ) (n : ℕ)
    (hn : ∀ᵐ g ∂P, g ∈ HasPixels (AnySim.measureScan { sim with resp := some (pre ++ post) } lab rq) s n) (B : ℕ → Set ℝ)
    (hB : ∀ k < n, MeasurableSet (B k)) :
    P.real (Differ (sim.measureScan lab rq) (AnySim.measureScan { sim with resp := some (pre ++ post) } lab rq) s n B) =
      ∏ k ∈ Finset.range n, (gaussianReal 0 (Real.toNNReal (v ^ 2))).real (B k) := by
  refine Eq.trans (congrArg P.real ?_) (C107_scan_law P own { sim with resp := some (pre ++ post ++ [.additive i (pure v) noise]) }
    (distinct_place hr hd) (pre ++ post) i v hv noise rfl hpot hpre X hX hN lab rq s n hn B hB)
  ext g
  unfold Differ
  simp only [Set.mem_ofPred_eq, measureScan_place hr ho (distinct_later hr hd)]

example (v : ℝ) (hv : 0 ≤ v) (lab : Labelling) (s : SimState Streams) (B : ℕ → Set ℝ) (hB : ∀ k, MeasurableSet (B k)) :
    streams.real (Differ ((streamScanSim [streamWhite 1 1 v, streamWhite 0 0 1]).measureScan lab flipRequest)
      ((streamScanSim [streamWhite 0 0 1]).measureScan lab flipRequest) s 2 B) =
      ∏ k ∈ Finset.range 2, (gaussianReal 0 (Real.toNNReal (v ^ 2))).real (B k) :=
  C115_scan_white streams (fun g => g 1) (streamScanSim [streamWhite 1 1 v, streamWhite 0 0 1])
    (by simp [Distinct, streamScanSim, Distinct.sigName, streamWhite]) [] [streamWhite 0 0 1] 1 v hv _ rfl
    (List.forall_mem_singleton.2 (streams_apart (by decide) 1 0 v 1)) (by simp [streamScanSim])
    (stream_before 1) _ (stream_draws 1) (stream_normal 1) lab flipRequest s 2 (.of_forall fun g => stream_scan_pixels lab s g) B fun k _ => hB k

/-- C115 (telegraph noise, `measure`): the distribution of C108 for telegraph noise at any place among the response distortions. -/
theorem C115_pattern (P : Measure τ) [IsProbabilityMeasure P] (own : τ → ω) (sim : AnySim τ) (hd : Distinct sim) (pre post : List (SigObject τ)) (i : ℕ)
    (scale std height r : ℝ) (rng : Rng τ) (hr : sim.resp = some (pre ++ .rtn i (pure scale) (pure std) (pure height) r rng :: post))
    (ho : ∀ o ∈ post, OwnGenerators (.rtn i (pure scale) (pure std) (pure height) r rng) o)
    (hocc : ∀ o ∈ sim.occ.getD [], OccUntouched own o) (hpot : ∀ o ∈ sim.pot.getD [], SigUntouched own o)
    (hpre : ∀ o ∈ pre ++ post, SigUntouched own o) (hv : rng.Valid) (hn : ∀ s, ∃ a s', rng.normal height std s = (.ok a, s') ∧ a ≠ 0) (k : ℝ)
    (hs : 1 ≤ scale * k) (n : ℕ) (hT : TelegraphDraws P own rng r (1 / (scale * k)) n) (lab : Labelling) (rq : Request) (g1 g2 : ℝ × ℝ)
    (h1 : rq.g1 = [g1.1, g1.2]) (h2 : rq.g2 = [g2.1, g2.2]) (s : SimState τ)
    (hg : ∀ᵐ g ∂P, g ∈ HasDensity (AnySim.measure { sim with resp := some (pre ++ post) } lab rq) s g1 g2 n k) (c : ℕ → Bool) (m : ℕ) (hm : m < n) :
    P.real (DifferAt (sim.measure lab rq) (AnySim.measure { sim with resp := some (pre ++ post) } lab rq) s c m) =
      (open Classical in if ∀ j ≤ m, c j = false then 1 - r else 0) +
        r * if c 0 = true then 0 else ∏ j ∈ Finset.range m, if c (j + 1) = c j then 1 - 1 / (scale * k) else 1 / (scale * k) := by
  refine Eq.trans (congrArg P.real ?_) (C108_pattern P own
    { sim with resp := some (pre ++ post ++ [.rtn i (pure scale) (pure std) (pure height) r rng]) } (distinct_place hr hd) (pre ++ post) i scale std
    height r rng rfl hocc hpot hpre hv hn k hs n hT lab rq g1 g2 h1 h2 s hg c m hm)
  ext g
  unfold DifferAt
  simp only [Set.mem_ofPred_eq, measure_place hr ho (distinct_later hr hd)]

/-- Telegraph noise followed by a constant offset of the signal: all of the first three pixels are unchanged with this probability. -/
example (r : ℝ) (h0 : 0 ≤ r) (h1 : r ≤ 1) (lab : Labelling) (s : SimState Teles) :
    teles.real (DifferAt ((streamSim [teleNoise r, offset 1]).measure lab countingRequest) ((streamSim [offset 1]).measure lab countingRequest) s
      (fun _ => false) 2) = 1 - r + r * (9 / 16) := by
  have h := C115_pattern teles id (streamSim [teleNoise r, offset 1]) (by simp [Distinct, streamSim, Distinct.sigName, teleNoise, offset]) []
    [offset 1] 0 0.04 0 5 r teleRng rfl (List.forall_mem_singleton.2 (offset_apart _ _)) (by simp [streamSim]) (by simp [streamSim])
    (List.forall_mem_singleton.2 (offset_untouched _ _)) tele_valid (fun s => ⟨5, s, rfl, by norm_num⟩) 100 (by norm_num) 10
    (tele_draws h0 h1 (by norm_num) (by norm_num) 10) lab countingRequest (-0.2, -0.1) (-0.2, -0.1) rfl rfl s
    (.of_forall fun g => offset_line lab s g) (fun _ => false) 2 (by norm_num)
  refine h.trans ?_
  norm_num

/-- C115 (telegraph noise, `measure_sensor_scan`). -/
theorem C115_scan_pattern (P : Measure τ) [IsProbabilityMeasure P] (own : τ → ω) (sim : AnySim τ) (hd : Distinct sim) (pre post : List (SigObject τ))
    (i : ℕ) (scale std height r : ℝ) (rng : Rng τ) (hr : sim.resp = some (pre ++ .rtn i (pure scale) (pure std) (pure height) r rng :: post))
    (ho : ∀ o ∈ post, OwnGenerators (.rtn i (pure scale) (pure std) (pure height) r rng) o) (hpot : ∀ o ∈ sim.pot.getD [], SigUntouched own o)
    (hpre : ∀ o ∈ pre ++ post, SigUntouched own o) (hv : rng.Valid) (hn : ∀ s, ∃ a s', rng.normal height std s = (.ok a, s') ∧ a ≠ 0) (k : ℝ)
    (hs : 1 ≤ scale * k) (n : ℕ) (hT : TelegraphDraws P own rng r (1 / (scale * k)) n) (lab : Labelling) (rq : ScanRequest) (s1 : ℝ × ℝ)
    (h1 : rq.s1 = [s1.1, s1.2]) (s : SimState τ)
    (hg : ∀ᵐ g ∂P, g ∈ HasDensity (AnySim.measureScan { sim with resp := some (pre ++ post) } lab rq) s s1 s1 n k) (c : ℕ → Bool) (m : ℕ) (hm : m < n) :
    P.real (DifferAt (sim.measureScan lab rq) (AnySim.measureScan { sim with resp := some (pre ++ post) } lab rq) s c m) =
      (open Classical in if ∀ j ≤ m, c j = false then 1 - r else 0) +
        r * if c 0 = true then 0 else ∏ j ∈ Finset.range m, if c (j + 1) = c j then 1 - 1 / (scale * k) else 1 / (scale * k) := by
  refine Eq.trans (congrArg P.real ?_) (C108_scan_pattern P own
    { sim with resp := some (pre ++ post ++ [.rtn i (pure scale) (pure std) (pure height) r rng]) } (distinct_place hr hd) (pre ++ post) i scale std
    height r rng rfl hpot hpre hv hn k hs n hT lab rq s1 h1 s hg c m hm)
  ext g
  unfold DifferAt
  simp only [Set.mem_ofPred_eq, measureScan_place hr ho (distinct_later hr hd)]

example (r : ℝ) (h0 : 0 ≤ r) (h1 : r ≤ 1) (lab : Labelling) (s : SimState Teles) :
    teles.real (DifferAt ((streamScanSim [.rtn 0 (pure 1) (pure 0) (pure 5) r teleRng, offset 1]).measureScan lab flipRequest)
      ((streamScanSim [offset 1]).measureScan lab flipRequest) s (fun _ => false) 1) = 1 - r / 2 := by
  have h := C115_scan_pattern teles id (streamScanSim [.rtn 0 (pure 1) (pure 0) (pure 5) r teleRng, offset 1])
    (by simp [Distinct, streamScanSim, Distinct.sigName, offset]) [] [offset 1] 0 1 0 5 r teleRng rfl
    (List.forall_mem_singleton.2 (offset_apart _ _)) (by simp [streamScanSim]) (List.forall_mem_singleton.2 (offset_untouched _ _)) tele_valid
    (fun s => ⟨5, s, rfl, by norm_num⟩) 2 (by norm_num) 2 (tele_draws h0 h1 (by norm_num) (by norm_num) 2) lab flipRequest (-2, -1) rfl s
    (.of_forall fun g => offset_scan lab s g) (fun _ => false) 1 (by norm_num)
  refine h.trans ?_
  simp
  ring

/-- C115 (heights, `measure`): the distribution of C114 for telegraph noise at any place among the response distortions. -/
theorem C115_burst (P : Measure τ) [IsProbabilityMeasure P] (own : τ → ω) (sim : AnySim τ) (hd : Distinct sim) (pre post : List (SigObject τ)) (i : ℕ)
    (scale std height r : ℝ) (rng : Rng τ) (hr : sim.resp = some (pre ++ .rtn i (pure scale) (pure std) (pure height) r rng :: post))
    (ho : ∀ o ∈ post, OwnGenerators (.rtn i (pure scale) (pure std) (pure height) r rng) o)
    (hocc : ∀ o ∈ sim.occ.getD [], OccUntouched own o) (hpot : ∀ o ∈ sim.pot.getD [], SigUntouched own o)
    (hpre : ∀ o ∈ pre ++ post, SigUntouched own o) (hv : rng.Valid) (k : ℝ) (hs : 1 ≤ scale * k) (n : ℕ)
    (hT : BurstDraws P own rng r (1 / (scale * k)) height std n) (lab : Labelling) (rq : Request) (g1 g2 : ℝ × ℝ) (h1 : rq.g1 = [g1.1, g1.2])
    (h2 : rq.g2 = [g2.1, g2.2]) (s : SimState τ)
    (hg : ∀ᵐ g ∂P, g ∈ HasDensity (AnySim.measure { sim with resp := some (pre ++ post) } lab rq) s g1 g2 n k) (m l : ℕ) (hm : m + l < n)
    (B : Set ℝ) (hB : MeasurableSet B) (h0 : 0 ∉ B) :
    P.real (RaisedBy (sim.measure lab rq) (AnySim.measure { sim with resp := some (pre ++ post) } lab rq) s m l B) =
      r * ((1 - 1 / (scale * k)) ^ l * ((1 - (1 - 2 / (scale * k)) ^ m) / 2) * (gaussianReal height (std ^ 2).toNNReal).real B) := by
  refine Eq.trans (congrArg P.real ?_) (C114_burst P own
    { sim with resp := some (pre ++ post ++ [.rtn i (pure scale) (pure std) (pure height) r rng]) } (distinct_place hr hd) (pre ++ post) i scale std
    height r rng rfl hocc hpot hpre hv k hs n hT lab rq g1 g2 h1 h2 s hg m l hm B hB h0)
  ext g
  unfold RaisedBy
  simp only [Set.mem_ofPred_eq, measure_place hr ho (distinct_later hr hd)]

/-- The noise of the example of C114, followed by a constant offset of the signal. -/
example (r : ℝ) (h0 : 0 ≤ r) (h1 : r ≤ 1) (lab : Labelling) (s : SimState JumpStreams) :
    (jumpStreams 2).real (RaisedBy ((streamSim [burstNoise r, offset 1]).measure lab countingRequest)
      ((streamSim [offset 1]).measure lab countingRequest) s 2 3 (Set.Icc 1 2)) =
        r * (27 / 64 * (3 / 8) * (gaussianReal 1.5 (0.1 ^ 2 : ℝ).toNNReal).real (Set.Icc 1 2)) := by
  have h := C115_burst (jumpStreams 2) id (streamSim [burstNoise r, offset 1]) (by simp [Distinct, streamSim, Distinct.sigName, burstNoise, offset]) []
    [offset 1] 0 0.04 0.1 1.5 r jumpRng rfl (List.forall_mem_singleton.2 (offset_apart _ _)) (by simp [streamSim]) (by simp [streamSim])
    (List.forall_mem_singleton.2 (offset_untouched _ _)) jumpRng_valid 100 (by norm_num) 10 (burst_draws 2 h0 h1 (by norm_num) (by norm_num) 10) lab
    countingRequest (-0.2, -0.1) (-0.2, -0.1) rfl rfl s (.of_forall fun g => offset_line lab s g) 2 3 (by norm_num) (Set.Icc 1 2) measurableSet_Icc
    (by norm_num)
  refine h.trans ?_
  norm_num

/-- C115 (heights, `measure_sensor_scan`). -/
theorem C115_scan_burst (P : Measure τ) [IsProbabilityMeasure P] (own : τ → ω) (sim : AnySim τ) (hd : Distinct sim) (pre post : List (SigObject τ))
    (i : ℕ) (scale std height r : ℝ) (rng : Rng τ) (hr : sim.resp = some (pre ++ .rtn i (pure scale) (pure std) (pure height) r rng :: post))
    (ho : ∀ o ∈ post, OwnGenerators (.rtn i (pure scale) (pure std) (pure height) r rng) o) (hpot : ∀ o ∈ sim.pot.getD [], SigUntouched own o)
    (hpre : ∀ o ∈ pre ++ post, SigUntouched own o) (hv : rng.Valid) (k : ℝ) (hs : 1 ≤ scale * k) (n : ℕ)
    (hT : BurstDraws P own rng r (1 / (scale * k)) height std n) (lab : Labelling) (rq : ScanRequest) (s1 : ℝ × ℝ) (h1 : rq.s1 = [s1.1, s1.2])
    (s : SimState τ) (hg : ∀ᵐ g ∂P, g ∈ HasDensity (AnySim.measureScan { sim with resp := some (pre ++ post) } lab rq) s s1 s1 n k) (m l : ℕ)
    (hm : m + l < n) (B : Set ℝ) (hB : MeasurableSet B) (h0 : 0 ∉ B) :
    P.real (RaisedBy (sim.measureScan lab rq) (AnySim.measureScan { sim with resp := some (pre ++ post) } lab rq) s m l B) =
      r * ((1 - 1 / (scale * k)) ^ l * ((1 - (1 - 2 / (scale * k)) ^ m) / 2) * (gaussianReal height (std ^ 2).toNNReal).real B) := by
  refine Eq.trans (congrArg P.real ?_) (C114_scan_burst P own
    { sim with resp := some (pre ++ post ++ [.rtn i (pure scale) (pure std) (pure height) r rng]) } (distinct_place hr hd) (pre ++ post) i scale std
    height r rng rfl hpot hpre hv k hs n hT lab rq s1 h1 s hg m l hm B hB h0)
  ext g
  unfold RaisedBy
  simp only [Set.mem_ofPred_eq, measureScan_place hr ho (distinct_later hr hd)]

example (r : ℝ) (h0 : 0 ≤ r) (h1 : r ≤ 1) (lab : Labelling) (s : SimState JumpStreams) :
    (jumpStreams 2).real (RaisedBy ((streamScanSim [.rtn 0 (pure 1) (pure 0.1) (pure 1.5) r jumpRng, offset 1]).measureScan lab flipRequest)
      ((streamScanSim [offset 1]).measureScan lab flipRequest) s 1 0 (Set.Ioi 1.5)) =
        r * (1 / 2 * (gaussianReal 1.5 (0.1 ^ 2 : ℝ).toNNReal).real (Set.Ioi 1.5)) := by
  have h := C115_scan_burst (jumpStreams 2) id (streamScanSim [.rtn 0 (pure 1) (pure 0.1) (pure 1.5) r jumpRng, offset 1])
    (by simp [Distinct, streamScanSim, Distinct.sigName, offset]) [] [offset 1] 0 1 0.1 1.5 r jumpRng rfl
    (List.forall_mem_singleton.2 (offset_apart _ _)) (by simp [streamScanSim]) (List.forall_mem_singleton.2 (offset_untouched _ _)) jumpRng_valid 2
    (by norm_num) 2 (burst_draws 2 h0 h1 (by norm_num) (by norm_num) 2) lab flipRequest (-2, -1) rfl s (.of_forall fun g => offset_scan lab s g) 1 0
    (by norm_num) (Set.Ioi 1.5) measurableSet_Ioi (by norm_num)
  refine h.trans ?_
  norm_num

end SimCATS
