import Verif.Lemmas.HistoryNoise
import Verif.Props.SampledSim
import Verif.Props.ExtendedConfig
import Verif.Props.DefaultNoise

/-! Measurements do not depend on earlier measurements. -/

namespace SimCATS

open Spec

variable {ρ τ : Type}

/-! ### Any simulation made of shipped components -/

/-- C95, `measure`: the outcome (result or exception) and the states of the generators afterwards are determined by the configuration, the
request and the states of the generators before; what the distortions and the sensor remember from earlier measurements has no influence. -/
theorem C95_measure (sim : AnySim τ) (lab : Labelling) (rq : Request) (s t : SimState τ) (h : generators s = generators t) :
    (sim.measure lab rq s).1 = (sim.measure lab rq t).1 ∧ generators (sim.measure lab rq s).2 = generators (sim.measure lab rq t).2 :=
  have ho := anySim_measure sim lab rq s t h
  ⟨ho.fst, ho.after sameObjects_gens fun _ _ h => h⟩

/-- C95, `measure_sensor_scan`. -/
theorem C95_scan (sim : AnySim τ) (lab : Labelling) (rq : ScanRequest) (s t : SimState τ) (h : generators s = generators t) :
    (sim.measureScan lab rq s).1 = (sim.measureScan lab rq t).1 ∧
      generators (sim.measureScan lab rq s).2 = generators (sim.measureScan lab rq t).2 :=
  have ho := anySim_measureScan sim lab rq s t h
  ⟨ho.fst, ho.after sameObjects_gens fun _ _ h => h⟩

/-- C95, histories: after any series of measurements and sensor scans, successful or failing, with any configurations, the next call has the
outcome that it has with new objects whose generators are in the same state. -/
theorem C95_history (lab : Labelling) (before : List (AnySim τ × MeasureCall)) (g : τ) (sim : AnySim τ) (c : MeasureCall) :
    (sim.call lab c (callAll lab before (newState g)).2).1 =
      (sim.call lab c (newState (generators (callAll lab before (newState g)).2))).1 :=
  (anySim_call sim lab c (callAll lab before (newState g)).2 (newState (generators (callAll lab before (newState g)).2)) rfl).fst

/-- C95, whole programs: two simulations whose generators are in the same state give the same series of outcomes, whatever has been measured
before. -/
theorem C95_programs (lab : Labelling) (cs : List (AnySim τ × MeasureCall)) (s t : SimState τ) (h : generators s = generators t) :
    (callAll lab cs s).1 = (callAll lab cs t).1 ∧ generators (callAll lab cs s).2 = generators (callAll lab cs t).2 :=
  callAll_same lab cs s t h

/-- C95, without distortions: every call has always the same outcome. -/
theorem C95_undistorted (sim : AnySim τ) (h : Undistorted sim) (lab : Labelling) (c : MeasureCall) (s t : SimState τ) :
    (sim.call lab c s).1 = (sim.call lab c t).1 := (plain_call h lab c s t trivial).fst

/-- C95, reports: after a successful `measure` all distortion objects report values (`latest_sigma`, `activated`) that do not depend on earlier
measurements. -/
theorem C95_reports (sim : AnySim τ) (lab : Labelling) (rq : Request) (s t s' t' : SimState τ) (h : generators s = generators t)
    (out out' : Scan ℝ × Scan (ℝ × ℝ) × Scan ℕ) (hs : sim.measure lab rq s = (.ok out, s')) (ht : sim.measure lab rq t = (.ok out', t')) :
    (∀ l, sim.occ = some l → ∀ d ∈ l, occReport s' d = occReport t' d) ∧ (∀ l, sim.pot = some l → ∀ d ∈ l, sigReport s' d = sigReport t' d) ∧
      ∀ l, sim.resp = some l → ∀ d ∈ l, sigReport s' d = sigReport t' d := by
  have ho := anySim_measure sim lab rq s t h
  rw [hs, ht] at ho
  cases ho with
  | ok _ _ _ ho =>
    refine ⟨fun l hl d hd => occReport_eq ?_ ho, fun l hl d hd => sigReport_eq ?_ ho, fun l hl d hd => sigReport_eq ?_ ho⟩
    · refine Or.inl (Or.inl ?_)
      show d.key ∈ keysOf OccObject.key sim.occ
      rw [hl]
      exact List.mem_map_of_mem hd
    · refine Or.inl (Or.inr ?_)
      show d.key ∈ keysOf SigObject.key sim.pot
      rw [hl]
      exact List.mem_map_of_mem hd
    · refine Or.inr ?_
      show d.key ∈ keysOf SigObject.key sim.resp
      rw [hl]
      exact List.mem_map_of_mem hd

/-- C95, reports of sensor scans: the same for the distortions of the potential and of the response (those of the occupations are not used). -/
theorem C95_scan_reports (sim : AnySim τ) (lab : Labelling) (rq : ScanRequest) (s t s' t' : SimState τ) (h : generators s = generators t)
    (out out' : Scan ℝ × Scan ℕ × Scan ℕ) (hs : sim.measureScan lab rq s = (.ok out, s')) (ht : sim.measureScan lab rq t = (.ok out', t')) :
    (∀ l, sim.pot = some l → ∀ d ∈ l, sigReport s' d = sigReport t' d) ∧ ∀ l, sim.resp = some l → ∀ d ∈ l, sigReport s' d = sigReport t' d := by
  have ho := anySim_measureScan sim lab rq s t h
  rw [hs, ht] at ho
  cases ho with
  | ok _ _ _ ho =>
    refine ⟨fun l hl d hd => sigReport_eq ?_ ho, fun l hl d hd => sigReport_eq ?_ ho⟩
    · refine Or.inl ?_
      show d.key ∈ keysOf SigObject.key sim.pot
      rw [hl]
      exact List.mem_map_of_mem hd
    · refine Or.inr ?_
      show d.key ∈ keysOf SigObject.key sim.resp
      rw [hl]
      exact List.mem_map_of_mem hd

/-- Non-vacuity (the state after one measurement): a 1D scan succeeds, the blurring remembers its width, the generator has advanced, and the next
measurement is that of a new simulation whose generator has advanced. -/
example (lab : Labelling) : ∃ out s', countingSim.measure lab countingRequest (newState 0) = (.ok out, s') ∧
    occReport s' countingBlur = (some 0, none) ∧ occReport (newState 1) countingBlur = (none, none) ∧
    (countingSim.measure lab countingRequest s').1 = (countingSim.measure lab countingRequest (newState 1)).1 := by
  obtain ⟨out, h⟩ := counting_measure lab none (newState 0).2 rfl
  exact ⟨out, _, h, rfl, rfl, (C95_measure countingSim lab countingRequest (none,
    { (newState 0 : SimState ℕ).2 with sigma := Function.update (newState 0 : SimState ℕ).2.sigma 0 (some 0), gens := 1 }) (newState 1) rfl).1⟩

/-- Non-vacuity (frozen calls read the memory): the same call of a distortion with `freeze` depends on what the object remembers. -/
example : ((fermiBlur (pure 1 : M Unit ℝ)).noiseFunction (.d1 0 Fin.elim0, .d1 0 Fin.elim0) (0, 1) (0, 1) (fun _ _ _ => M.raise .valueError) true
      (none, ())).1 = .error .typeError ∧
    ((fermiBlur (pure 1 : M Unit ℝ)).noiseFunction (.d1 0 Fin.elim0, .d1 0 Fin.elim0) (0, 1) (0, 1) (fun _ _ _ => M.raise .valueError) true
      (some 0, ())).1 = .ok (.d1 0 Fin.elim0, .d1 0 Fin.elim0) := by
  refine ⟨rfl, ?_⟩
  unfold Blur.noiseFunction Blur.sample
  rw [if_pos rfl, M.step (getOwn_run _), M.step (setOwn_run _ _ _)]
  simp [ofPy_run, Blur.apply]

/-! ### Default and sampled configurations -/

/-- C95 for the default configuration "GaAs_v1" with its distortions. -/
theorem C95_default (env : NoiseEnv τ) (lab : Labelling) (rq : Request) (s t : NoiseState τ) (h : s.gens = t.gens) :
    (measure (noisySim env lab) rq s).1 = (measure (noisySim env lab) rq t).1 ∧
      (measure (noisySim env lab) rq s).2.gens = (measure (noisySim env lab) rq t).2.gens :=
  have ho := measure_same (noisySim_fresh env lab) rq s t h
  ⟨ho.fst, ho.after (R' := fun s t : NoiseState τ => s.gens = t.gens) (fun _ _ h => h.1) fun _ _ h => h⟩

/-- Non-vacuity: an image with all distortions active; the result is the same after any earlier measurements (any `st`). -/
example (lab : Labelling) (st : NoiseState Unit) : ∃ csd occ lead, ∀ st' : NoiseState Unit,
    (measure (noisySim (plainEnv (fun _ => true) true) lab) ⟨[-0.087, -0.2], [-0.2, -0.047], none, none, .arr [(100 : ℕ), (100 : ℕ)]⟩ st').1 =
      .ok (.d2 100 100 csd, .d2 100 100 occ, .d2 100 100 lead) := by
  have h := C83_image_partial (plainEnv (fun _ => true) true) (plainEnv_total _ _) lab (-0.087) (-0.2) (-0.2) (-0.047) (by unfold Within; norm_num)
    (by unfold Within; norm_num) (by norm_num) (by norm_num) 100 100 (by norm_num) (by norm_num)
    (by rw [abs_of_nonpos (by norm_num), abs_of_nonneg (by norm_num)]; norm_num) (by rw [abs_of_nonpos (by norm_num)]; norm_num)
    (by rw [abs_of_nonneg (by norm_num)]; norm_num) (by norm_num) none none rfl st
  obtain ⟨csd, occ, lead, st1, e⟩ := h
  exact ⟨csd, occ, lead, fun st' => ((C95_default _ lab _ st' st rfl).1.trans (congrArg Prod.fst e))⟩

/-- C95 for the default configuration "GaAs_v2_extended_sensor" with its distortions: charge stability diagrams and sensor scans, which share
the memory of the sensor. -/
theorem C95_extended (env : NoiseEnv τ) (lab : Labelling) (rq : Request) (rs : ScanRequest) (s t : Option ScanState × NoiseState τ)
    (h : s.2.gens = t.2.gens) :
    ((measure (extendedSim env lab).csd rq s).1 = (measure (extendedSim env lab).csd rq t).1 ∧
      (measure (extendedSim env lab).csd rq s).2.2.gens = (measure (extendedSim env lab).csd rq t).2.2.gens) ∧
    (measureSensorScan (extendedSim env lab) rs s).1 = (measureSensorScan (extendedSim env lab) rs t).1 ∧
      (measureSensorScan (extendedSim env lab) rs s).2.2.gens = (measureSensorScan (extendedSim env lab) rs t).2.2.gens :=
  have h1 := measure_same (extendedSim_fresh env lab).csd rq s t h
  have h2 := measureScan_same (extendedSim_fresh env lab) rs s t h
  ⟨⟨h1.fst, h1.after (R' := SameNoise) (fun _ _ h => h.1) fun _ _ h => h⟩, h2.fst, h2.after (R' := SameNoise) (fun _ _ h => h.1) fun _ _ h => h⟩

/-- Non-vacuity: a sensor scan with all distortions active gives the same result after any earlier measurements. -/
example (lab : Labelling) (st : Option ScanState × NoiseState Unit) : ∃ scan cond peaks, ∀ st' : Option ScanState × NoiseState Unit,
    (measureSensorScan (extendedSim (plainEnv (fun _ => true) true) lab)
      ⟨[-1, 0.4], [0.4, -1], .num true (-0.1), .num true (-0.1), .arr [(100 : ℕ), (100 : ℕ)]⟩ st').1 =
      .ok (.d2 100 100 scan, .d2 100 100 cond, .d2 100 100 peaks) := by
  have h := C88_scan_image_partial (plainEnv (fun _ => true) true) (plainEnv_total _ _) lab (-1) 0.4 0.4 (-1) (by unfold Within; norm_num)
    (by unfold Within; norm_num) (by norm_num) (by norm_num) 100 100 (by norm_num) (by norm_num)
    (Or.inl (by rw [abs_of_nonneg (by norm_num)]; norm_num)) (.num true (-0.1)) (.num true (-0.1))
    (Or.inr ⟨_, _, rfl, rfl, by norm_num, by norm_num⟩) st
  obtain ⟨scan, cond, peaks, st1, e⟩ := h
  exact ⟨scan, cond, peaks, fun st' => ((C95_extended _ lab ⟨[], [], none, none, .int 0⟩ _ st' st rfl).2.1.trans (congrArg Prod.fst e))⟩

/-- C95 for sampled configurations with their distortions. -/
theorem C95_sampled (env : SampledEnv τ) (lab : Labelling) (c : SampledConfig) (rq : Request) (rs : ScanRequest)
    (s t : Option ScanState × NoiseState τ) (h : s.2.gens = t.2.gens) :
    ((c.measure env lab rq s).1 = (c.measure env lab rq t).1 ∧ (c.measure env lab rq s).2.2.gens = (c.measure env lab rq t).2.2.gens) ∧
    (c.measureScan env lab rs s).1 = (c.measureScan env lab rs t).1 ∧
      (c.measureScan env lab rs s).2.2.gens = (c.measureScan env lab rs t).2.2.gens :=
  have h1 := sampled_measure_same env lab c rq s t h
  have h2 := sampled_measureScan_same env lab c rs s t h
  ⟨⟨h1.fst, h1.after (R' := SameNoise) (fun _ _ h => h) fun _ _ h => h⟩, h2.fst, h2.after (R' := SameNoise) (fun _ _ h => h) fun _ _ h => h⟩

/-- Non-vacuity: a sampled configuration, an image with all distortions active. -/
example (lab lab' : Labelling) (ty : String) (hty : ty = "SensorGeneric" ∨ ty = "SensorScanSensorGeneric") :
    ∃ c s', sampleConfig fairRng lab ty 0.5 true false 0 (.ok c, s') ∧ ∃ csd occ lead, ∀ st,
      (c.measure (plainSampledEnv (fun _ => true) true) lab' ⟨[-0.06, -0.2], [-0.2, -0.06], some (-0.5), some (-0.5), .arr [(100 : ℕ), (100 : ℕ)]⟩
        st).1 = .ok (.d2 100 100 csd, .d2 100 100 occ, .d2 100 100 lead) := by
  obtain ⟨c, s', h⟩ := fair_config lab ty hty false
  let s0 : Option ScanState × NoiseState Unit := (none, ⟨none, ⟨none, none⟩, ⟨none, none⟩, none, none, none, none, ()⟩)
  have hm := C91_image_partial fairRng fairRng_valid fairRng_nonzero lab ty 0.5 true false 0 s' c h (plainSampledEnv (fun _ => true) true)
    (plainSampledEnv_total _ _) lab' (-0.06) (-0.2) (-0.2) (-0.06)
    (by unfold Within; norm_num) (by unfold Within; norm_num) (by norm_num) (by norm_num) 100 100 (by norm_num) (by norm_num)
    (by rw [abs_of_nonpos (by norm_num)]; norm_num) (by rw [abs_of_nonneg (by norm_num)]; norm_num)
    (by rw [abs_of_nonpos (by norm_num)]; norm_num) (by rw [abs_of_nonneg (by norm_num)]; norm_num)
    (by norm_num) (-0.5) (-0.5) (by norm_num) (by norm_num) s0
  obtain ⟨csd, occ, lead, st1, e⟩ := hm
  exact ⟨c, s', h, csd, occ, lead, fun st =>
    ((C95_sampled _ lab' c _ ⟨[], [], .none, .none, .int 0⟩ st s0 rfl).1.1.trans (congrArg Prod.fst e))⟩

end SimCATS
