import Verif.Lemmas.ActivationLaw

/-! C106: how often dot jumps and telegraph noise are active. -/

namespace SimCATS

open Spec MeasureTheory ProbabilityTheory

variable {τ ω : Type} [MeasurableSpace τ]

/-- C106 (dot jumps): in every measurement dot jumps are active with probability `ratio`, for both kinds of sensors, all configurations of the
simulation and all histories; the distortions applied before may do anything as long as they do not use the generator of the jumps. -/
theorem C106_jumps (P : Measure τ) (own : τ → ω) (sim : AnySim τ) (hd : Distinct sim) (pre post : List (OccObject τ)) (i : ℕ) (scale lam : M τ ℝ)
    (axis : Axis) (r : ℝ) (rng : Rng τ) (np2 : Bool) (nan : ℝ) (ho : sim.occ.getD [] = pre ++ .jumps i scale lam axis r rng np2 nan :: post)
    (hpre : ∀ o ∈ pre, OccUntouched own o) (hc : FlipsCoin P own rng r) (lab : Labelling) (rq : Request) (s : SimState τ)
    (hok : ∀ᵐ g ∂P, g ∈ Succeeds (sim.measure lab rq) s) :
    P.real (ActiveFor (sim.measure lab rq) s fun s' => occReport s' (.jumps i scale lam axis r rng np2 nan)) = r := by
  obtain ⟨X, hX, hP⟩ := hc
  refine active_law hok hP fun g out s' h => ?_
  obtain ⟨csd, occ, lead⟩ := out
  obtain ⟨x, g1, g2, y, a, hst⟩ : ∃ x g1 g2 y a, Steps (fun o => OccDid g1 g2 (occReport s' o) o) (sim.occ.getD []) x
      (generators (withGenerators s g)) y a := by
    cases hs : sim.sensor with
    | generic d =>
      obtain ⟨_, _, _, _, _, _, _, _, -, -, -, -, h1, -⟩ := C96_measure sim lab d hs hd rq _ _ csd occ lead h
      exact ⟨_, _, _, _, _, h1⟩
    | scan d =>
      obtain ⟨_, _, _, _, _, _, _, _, _, _, _, -, -, -, -, h1, -⟩ := C96_scan_sensor_partial sim lab d hs hd rq _ _ csd occ lead h
      exact ⟨_, _, _, _, _, h1⟩
  rw [ho] at hst
  obtain ⟨_, k, _, _, e, hj⟩ := steps_at hst fun o ho x g y g' h => occDid_own h (hpre o ho)
  rw [jumps_decides hX hj, e]
  rfl

example (r : ℝ) (h0 : 0 ≤ r) (h1 : r ≤ 1) (lab : Labelling) (s : SimState Flips) :
    flips.real (ActiveFor ((flipSim r).measure lab countingRequest) s fun s' => occReport s' (flipJumps r)) = r :=
  C106_jumps flips (fun g => g 0) (flipSim r) (flip_distinct r) [] [] 0 _ _ _ r _ _ _ rfl nofun (flips_flips h0 h1 0) lab countingRequest s
    (.of_forall fun _ => flip_measure r lab _)

/-- C106 (telegraph noise of the potential, `SensorGeneric`): in every measurement it is active with probability `ratio`. -/
theorem C106_potential (P : Measure τ) (own : τ → ω) (sim : AnySim τ) (d : SensorGeneric) (hs : sim.sensor = .generic d) (hd : Distinct sim)
    (pre post : List (SigObject τ)) (i : ℕ) (scale std height : M τ ℝ) (r : ℝ) (rng : Rng τ)
    (ho : sim.pot.getD [] = pre ++ .rtn i scale std height r rng :: post) (hocc : ∀ o ∈ sim.occ.getD [], OccUntouched own o)
    (hpre : ∀ o ∈ pre, SigUntouched own o) (hc : FlipsCoin P own rng r) (lab : Labelling) (rq : Request) (s : SimState τ)
    (hok : ∀ᵐ g ∂P, g ∈ Succeeds (sim.measure lab rq) s) :
    P.real (ActiveFor (sim.measure lab rq) s fun s' => sigReport s' (.rtn i scale std height r rng)) = r := by
  obtain ⟨X, hX, hP⟩ := hc
  refine active_law hok hP fun g out s' h => ?_
  obtain ⟨csd, occ, lead⟩ := out
  obtain ⟨_, _, _, _, _, _, a, _, -, -, -, -, h1, -, h2, -⟩ := C96_measure sim lab d hs hd rq _ _ csd occ lead h
  rw [ho] at h2
  obtain ⟨_, k, _, _, e, hj⟩ := steps_at h2 fun o ho x g y g' h => sigDid_own h (hpre o ho)
  rw [rtn_decides hX hj, e, steps_own h1 fun o ho x g y g' h => occDid_own h (hocc o ho)]
  rfl

example (r : ℝ) (h0 : 0 ≤ r) (h1 : r ≤ 1) (lab : Labelling) (s : SimState Flips) :
    flips.real (ActiveFor ((flipSim r).measure lab countingRequest) s fun s' => sigReport s' (flipNoise 0 1 r)) = r :=
  C106_potential flips (fun g => g 1) (flipSim r) _ rfl (flip_distinct r) [] [] 0 _ _ _ r _ rfl (flip_before (by decide) r) nofun
    (flips_flips h0 h1 1) lab countingRequest s (.of_forall fun _ => flip_measure r lab _)

/-- C106 (telegraph noise of the response): in every measurement it is active with probability `ratio`, for both kinds of sensors. -/
theorem C106_response (P : Measure τ) (own : τ → ω) (sim : AnySim τ) (hd : Distinct sim) (pre post : List (SigObject τ)) (i : ℕ)
    (scale std height : M τ ℝ) (r : ℝ) (rng : Rng τ) (ho : sim.resp.getD [] = pre ++ .rtn i scale std height r rng :: post)
    (hocc : ∀ o ∈ sim.occ.getD [], OccUntouched own o) (hpot : ∀ o ∈ sim.pot.getD [], SigUntouched own o)
    (hpre : ∀ o ∈ pre, SigUntouched own o) (hc : FlipsCoin P own rng r) (lab : Labelling) (rq : Request) (s : SimState τ)
    (hok : ∀ᵐ g ∂P, g ∈ Succeeds (sim.measure lab rq) s) :
    P.real (ActiveFor (sim.measure lab rq) s fun s' => sigReport s' (.rtn i scale std height r rng)) = r := by
  obtain ⟨X, hX, hP⟩ := hc
  refine active_law hok hP fun g out s' h => ?_
  obtain ⟨csd, occ, lead⟩ := out
  obtain ⟨b, x, hb, hst⟩ : ∃ b x, own b = own g ∧ Steps (fun o => SigDid (sigReport s' o) o) (sim.resp.getD []) x b csd (generators s') := by
    cases hs : sim.sensor with
    | generic d =>
      obtain ⟨_, _, _, _, _, _, a, b, -, -, -, -, h1, -, h2, h3⟩ := C96_measure sim lab d hs hd rq _ _ csd occ lead h
      exact ⟨b, _, (steps_own h2 fun o ho x g y g' h => sigDid_own h (hpot o ho)).trans
        (steps_own h1 fun o ho x g y g' h => occDid_own h (hocc o ho)), h3⟩
    | scan d =>
      obtain ⟨_, _, _, _, _, _, _, _, _, a, b, -, -, -, -, h1, -, h2, -, -, h3⟩ := C96_scan_sensor_partial sim lab d hs hd rq _ _ csd occ lead h
      exact ⟨b, _, (steps_own h2 fun o ho x g y g' h => lastTold_own h (hpot o ho)).trans
        (steps_own h1 fun o ho x g y g' h => occDid_own h (hocc o ho)), h3⟩
  rw [ho] at hst
  obtain ⟨_, k, _, _, e, hj⟩ := steps_at hst fun o ho x g y g' h => sigDid_own h (hpre o ho)
  rw [rtn_decides hX hj, e, hb]

example (r : ℝ) (h0 : 0 ≤ r) (h1 : r ≤ 1) (lab : Labelling) (s : SimState Flips) :
    flips.real (ActiveFor ((flipSim r).measure lab countingRequest) s fun s' => sigReport s' (flipNoise 1 2 r)) = r :=
  C106_response flips (fun g => g 2) (flipSim r) (flip_distinct r) [] [] 1 _ _ _ r _ rfl (flip_before (by decide) r)
    (noise_before 0 (by decide) r) nofun (flips_flips h0 h1 2) lab countingRequest s (.of_forall fun _ => flip_measure r lab _)

/-- C106 (telegraph noise of the response, sensor scans): the same for `measure_sensor_scan`. -/
theorem C106_scan_response (P : Measure τ) (own : τ → ω) (sim : AnySim τ) (d : ScanSensor) (hs : sim.sensor = .scan d) (hd : Distinct sim)
    (pre post : List (SigObject τ)) (i : ℕ) (scale std height : M τ ℝ) (r : ℝ) (rng : Rng τ)
    (ho : sim.resp.getD [] = pre ++ .rtn i scale std height r rng :: post) (hpot : ∀ o ∈ sim.pot.getD [], SigUntouched own o)
    (hpre : ∀ o ∈ pre, SigUntouched own o) (hc : FlipsCoin P own rng r) (lab : Labelling) (rq : ScanRequest) (s : SimState τ)
    (hok : ∀ᵐ g ∂P, g ∈ Succeeds (sim.measureScan lab rq) s) :
    P.real (ActiveFor (sim.measureScan lab rq) s fun s' => sigReport s' (.rtn i scale std height r rng)) = r := by
  obtain ⟨X, hX, hP⟩ := hc
  refine active_law hok hP fun g out s' h => ?_
  obtain ⟨scan, cond, peaks⟩ := out
  obtain ⟨_, _, -, -, _, _, _, _, _, _, _, _, b, -, -, h2, -, -, h3, -⟩ := C96_scan_partial sim lab d hs hd rq _ _ scan cond peaks h
  rw [ho] at h3
  obtain ⟨_, k, _, _, e, hj⟩ := steps_at h3 fun o ho x g y g' h => sigDid_own h (hpre o ho)
  rw [rtn_decides hX hj, e, steps_own h2 fun o ho x g y g' h => lastTold_own h (hpot o ho)]
  rfl

example (r : ℝ) (h0 : 0 ≤ r) (h1 : r ≤ 1) (lab : Labelling) (s : SimState Flips) :
    flips.real (ActiveFor ((flipBothSim r).measureScan lab flipRequest) s fun s' => sigReport s' (flipNoise 1 2 r)) = r :=
  C106_scan_response flips (fun g => g 2) (flipBothSim r) _ rfl (by simp [Distinct, flipBothSim, Distinct.sigName, flipNoise]) [] [] 1 _ _ _ r _ rfl
    (noise_before 0 (by decide) r) nofun (flips_flips h0 h1 2) lab flipRequest s (.of_forall fun _ => flip_both r lab _)

/-- C106 (telegraph noise of the potentials, sensor scans): the data are those without the noise at least with probability `(1 - ratio) ^ 3`.
Missing: the documented `1 - ratio`, see `C106_refuted`. -/
theorem C106_scan_potential_partial (P : Measure τ) [IsProbabilityMeasure P] (sim : AnySim τ) (d : ScanSensor) (hs : sim.sensor = .scan d) (i : ℕ)
    (scale std height : M τ ℝ) (r : ℝ) (rng : Rng τ) (hp : sim.pot = some [.rtn i scale std height r rng]) (hr : sim.resp = none)
    (hc : CoinDraws P rng r) (lab : Labelling) (rq : ScanRequest) (s : SimState τ) (out : Scan ℝ × Scan ℕ × Scan ℕ)
    (hout : ∀ g, g ∈ Gives (AnySim.measureScan { sim with pot := none } lab rq) s out) :
    (1 - r) ^ 3 ≤ P.real (Gives (sim.measureScan lab rq) s out) :=
  scan_lower hs hp hr hc hout

example (r : ℝ) (h0 : 0 ≤ r) (h1 : r ≤ 1) (lab : Labelling) (s : SimState Flips) : ∃ out,
    (1 - r) ^ 3 ≤ flips.real (Gives ((flipScanSim r).measureScan lab flipRequest) s out) := by
  obtain ⟨out, h, -⟩ := flip_actual h0 h1 lab s
  exact ⟨out, C106_scan_potential_partial flips (flipScanSim r) flipSensor rfl 0 _ _ _ r (flipRng 0) rfl rfl (flips_draws h0 h1 0) lab flipRequest s out h⟩

/-- C106 (actual behaviour for the potentials of sensor scans): the noise decides separately for each of the three potentials.  For every ratio there
is a simulation with a scan that never fails and gives the data without noise with probability `(1 - ratio) ^ 3` only. -/
theorem C106_scan_potential_actual (r : ℝ) (h0 : 0 ≤ r) (h1 : r ≤ 1) : ∃ (τ : Type) (_ : MeasurableSpace τ) (P : Measure τ) (_ : IsProbabilityMeasure P)
    (sim : AnySim τ) (d : ScanSensor) (i : ℕ) (scale std height : M τ ℝ) (rng : Rng τ) (rq : ScanRequest), sim.sensor = .scan d ∧
    sim.pot = some [.rtn i scale std height r rng] ∧ sim.occ = none ∧ sim.resp = none ∧ CoinDraws P rng r ∧ ∀ lab s, ∃ out,
      (∀ g, g ∈ Gives (AnySim.measureScan { sim with pot := none } lab rq) s out) ∧ (∀ g, g ∈ Succeeds (sim.measureScan lab rq) s) ∧
      P.real (Gives (sim.measureScan lab rq) s out) = (1 - r) ^ 3 :=
  ⟨Flips, inferInstance, flips, inferInstance, flipScanSim r, flipSensor, 0, _, _, _, flipRng 0, flipRequest, rfl, rfl, rfl, rfl,
    flips_draws h0 h1 0, flip_actual h0 h1⟩

/-- C106 is false for the potentials of sensor scans: with ratio 1/2 there is a scan that is undisturbed with a probability less than 1/2. -/
theorem C106_refuted (lab : Labelling) : ¬ ∀ (τ : Type) (_ : MeasurableSpace τ) (P : Measure τ) (_ : IsProbabilityMeasure P) (sim : AnySim τ)
    (d : ScanSensor) (i : ℕ) (scale std height : M τ ℝ) (r : ℝ) (rng : Rng τ) (rq : ScanRequest) (s : SimState τ) (out : Scan ℝ × Scan ℕ × Scan ℕ),
    sim.sensor = .scan d → sim.pot = some [.rtn i scale std height r rng] → sim.occ = none → sim.resp = none → CoinDraws P rng r →
    (∀ g, g ∈ Gives (AnySim.measureScan { sim with pot := none } lab rq) s out) → (∀ g, g ∈ Succeeds (sim.measureScan lab rq) s) →
    1 - r ≤ P.real (Gives (sim.measureScan lab rq) s out) := by
  intro h
  let s : SimState Flips := (none, ⟨fun _ => none, fun _ => ⟨none, none⟩, fun _ => none, fun _ _ _ => false⟩)
  obtain ⟨out, ha, hb, he⟩ := flip_actual (r := 1 / 2) (by norm_num) (by norm_num) lab s
  have := h Flips inferInstance flips inferInstance (flipScanSim (1 / 2)) flipSensor 0 _ _ _ (1 / 2) (flipRng 0) flipRequest s out rfl rfl rfl rfl
    (flips_draws (by norm_num) (by norm_num) 0) ha hb
  rw [he] at this
  norm_num at this

end SimCATS
