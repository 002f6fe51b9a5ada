import Verif.Lemmas.Reports
import Verif.Lemmas.HistoryNoise

/-! C96: what the distortions report (`latest_sigma`, `activated`) describes the latest measurement. -/

namespace SimCATS

open Spec

variable {τ : Type}

/-- C96 (`measure` with a `SensorGeneric`): after a successful measurement in which no object is used twice, the returned data are obtained from
the ideal occupations, the sensor and the distortions in the configured order, and every distortion has been applied exactly as it reports at the
end: blurring and noise with the reported strength, which was drawn for this measurement, jumps and telegraph noise switched on or off as
reported, and without effect and further draws if reported as off. -/
theorem C96_measure (sim : AnySim τ) (lab : Labelling) (d : SensorGeneric) (hs : sim.sensor = .generic d) (hd : Distinct sim) (rq : Request)
    (s s' : SimState τ) (csd : Scan ℝ) (occ : Scan (ℝ × ℝ)) (lead : Scan ℕ) (h : sim.measure lab rq s = (.ok (csd, occ, lead), s')) :
    ∃ cfg ideal g1 g2 pot pot' a b, sim.ideal = some cfg ∧ rq.g1 = [g1.1, g1.2] ∧ rq.g2 = [g2.1, g2.2] ∧
      idealCsd cfg lab rq.g1 rq.g2 rq.res = .ok ideal ∧
      Steps (fun o => OccDid g1 g2 (occReport s' o) o) (sim.occ.getD []) ideal.data (generators s) (occ, lead) a ∧
      d.potential occ g1 g2 = .ok pot ∧ Steps (fun o => SigDid (sigReport s' o) o) (sim.pot.getD []) pot a pot' b ∧
      Steps (fun o => SigDid (sigReport s' o) o) (sim.resp.getD []) (d.response pot') b csd (generators s') := by
  unfold AnySim.measure at h
  rw [hs] at h
  obtain ⟨t, ht, rfl⟩ : ∃ t, measure (sim.generic lab d) rq s.2 = (.ok (csd, occ, lead), t) ∧ s' = (s.1, t) := by
    change onRest (measure (sim.generic lab d) rq) s = _ at h
    unfold onRest at h
    cases e : measure (sim.generic lab d) rq s.2 with
    | mk r t =>
      rw [e] at h
      cases h
      exact ⟨t, rfl, rfl⟩
  simp only [occReport_report, sigReport_report]
  exact generic_told hd ht

/-- Non-vacuity: the default configuration with a blurring of drawn strength; it reports the strength 0 of its first measurement. -/
example (lab : Labelling) : Distinct countingSim ∧ countingSim.sensor = .generic defaultSensor ∧
    ∃ csd occ lead s', countingSim.measure lab countingRequest (newState 0) = (.ok (csd, occ, lead), s') ∧ occReport s' countingBlur = (some 0, none) := by
  obtain ⟨⟨csd, occ, lead⟩, h⟩ := counting_measure lab none (newState 0).2 rfl
  refine ⟨by simp [Distinct, countingSim], rfl, csd, occ, lead, _, h, ?_⟩
  simp [occReport, countingBlur]

/-- C96 (`measure` with a sensor scan sensor), partial: as `C96_measure` for the distortions of the occupations and of the response.  A
distortion of the potentials is applied to three potentials (dot, barrier 1, barrier 2), with new draws for each; it reports how it was applied to
the last one.  Missing: the same for the other two, see `C96_refuted`. -/
theorem C96_scan_sensor_partial (sim : AnySim τ) (lab : Labelling) (d : ScanSensor) (hs : sim.sensor = .scan d) (hd : Distinct sim) (rq : Request)
    (s s' : SimState τ) (csd : Scan ℝ) (occ : Scan (ℝ × ℝ)) (lead : Scan ℕ) (h : sim.measure lab rq s = (.ok (csd, occ, lead), s')) :
    ∃ cfg ideal g1 g2 mu mu' rows resp st a b, sim.ideal = some cfg ∧ rq.g1 = [g1.1, g1.2] ∧ rq.g2 = [g2.1, g2.2] ∧
      idealCsd cfg lab rq.g1 rq.g2 rq.res = .ok ideal ∧
      Steps (fun o => OccDid g1 g2 (occReport s' o) o) (sim.occ.getD []) ideal.data (generators s) (occ, lead) a ∧
      d.potential occ (.arr g1) (.arr g2) (voltOfOption rq.s1) (voltOfOption rq.s2) s.1 = (.ok mu, st) ∧
      Steps (fun o => LastTold (sigReport s' o) o) (sim.pot.getD []) (potRows mu) a rows b ∧ fromRows rows = .ok mu' ∧
      d.response mu' st = (.ok resp, s'.1) ∧ Steps (fun o => SigDid (sigReport s' o) o) (sim.resp.getD []) resp b csd (generators s') := by
  unfold AnySim.measure at h
  rw [hs] at h
  simp only [occReport_report, sigReport_report]
  exact scan_told hd h

/-- C96 (`measure_sensor_scan`), partial: the distortions of the response have been applied as they report, those of the potentials to the last of
the three potentials as they report; the distortions of the occupations are not used and still report what they reported before. -/
theorem C96_scan_partial (sim : AnySim τ) (lab : Labelling) (d : ScanSensor) (hs : sim.sensor = .scan d) (hd : Distinct sim) (rq : ScanRequest)
    (s s' : SimState τ) (scan : Scan ℝ) (cond peaks : Scan ℕ) (h : sim.measureScan lab rq s = (.ok (scan, cond, peaks), s')) :
    ∃ s1 s2 : ℝ × ℝ, rq.s1 = [s1.1, s1.2] ∧ rq.s2 = [s2.1, s2.2] ∧ ∃ occ mu mu' rows resp st st' st'' b,
      scanOcc (sim.ideal.map fun cfg => idealGen cfg lab) rq s = (.ok occ, s) ∧
      d.potential occ rq.g1 rq.g2 (.arr s1) (.arr s2) s.1 = (.ok mu, st) ∧
      Steps (fun o => LastTold (sigReport s' o) o) (sim.pot.getD []) (potRows mu) (generators s) rows b ∧ fromRows rows = .ok mu' ∧
      d.response mu' st' = (.ok resp, st'') ∧ Steps (fun o => SigDid (sigReport s' o) o) (sim.resp.getD []) resp b scan (generators s') ∧
      ∀ o ∈ sim.occ.getD [], occReport s' o = occReport s o := by
  unfold AnySim.measureScan at h
  rw [hs] at h
  simp only [occReport_report, sigReport_report]
  exact sensor_scan_told hd h

/-- C96 for sensor scan sensors, partial: if all distortions of the potentials add noise of a fixed strength, their reports describe all three
potentials, for both kinds of measurement.  Missing: distortions with drawn strength and telegraph noise, see `C96_refuted`. -/
theorem C96_constant_partial (sim : AnySim τ) (lab : Labelling) (d : ScanSensor) (hs : sim.sensor = .scan d) (hd : Distinct sim)
    (hc : ∀ o ∈ sim.pot.getD [], ∃ i v noise, o = .additive i (pure v) noise) (s s' : SimState τ) :
    (∀ rq csd occ lead, sim.measure lab rq s = (.ok (csd, occ, lead), s') → ∃ g1 g2 mu mu' rows resp st a b,
      rq.g1 = [g1.1, g1.2] ∧ rq.g2 = [g2.1, g2.2] ∧
      d.potential occ (.arr g1) (.arr g2) (voltOfOption rq.s1) (voltOfOption rq.s2) s.1 = (.ok mu, st) ∧
      Steps (fun o => EachTold (sigReport s' o) o) (sim.pot.getD []) (potRows mu) a rows b ∧ fromRows rows = .ok mu' ∧
      d.response mu' st = (.ok resp, s'.1) ∧ Steps (fun o => SigDid (sigReport s' o) o) (sim.resp.getD []) resp b csd (generators s')) ∧
    ∀ rq scan cond peaks, sim.measureScan lab rq s = (.ok (scan, cond, peaks), s') → ∃ s1 s2 occ mu mu' rows resp st st' st'' b,
      rq.s1 = [s1.1, s1.2] ∧ rq.s2 = [s2.1, s2.2] ∧ d.potential occ rq.g1 rq.g2 (.arr s1) (.arr s2) s.1 = (.ok mu, st) ∧
      Steps (fun o => EachTold (sigReport s' o) o) (sim.pot.getD []) (potRows mu) (generators s) rows b ∧ fromRows rows = .ok mu' ∧
      d.response mu' st' = (.ok resp, st'') ∧ Steps (fun o => SigDid (sigReport s' o) o) (sim.resp.getD []) resp b scan (generators s') := by
  have each : ∀ o ∈ sim.pot.getD [], ∀ xs g ys g', LastTold (sigReport s' o) o xs g ys g' → EachTold (sigReport s' o) o xs g ys g' := by
    intro o ho xs g ys g' h
    obtain ⟨i, v, noise, rfl⟩ := hc o ho
    exact (lastTold_constant h).2
  constructor
  · intro rq csd occ lead h
    obtain ⟨_, _, g1, g2, mu, mu', rows, resp, st, a, b, -, r1, r2, -, -, h1, h2, h3, h4, h5⟩ :=
      C96_scan_sensor_partial sim lab d hs hd rq s s' csd occ lead h
    exact ⟨g1, g2, mu, mu', rows, resp, st, a, b, r1, r2, h1, h2.congr each, h3, h4, h5⟩
  · intro rq scan cond peaks h
    obtain ⟨s1, s2, r1, r2, occ, mu, mu', rows, resp, st, st', st'', b, -, h1, h2, h3, h4, h5, -⟩ :=
      C96_scan_partial sim lab d hs hd rq s s' scan cond peaks h
    exact ⟨s1, s2, occ, mu, mu', rows, resp, st, st', st'', b, r1, r2, h1, h2.congr each, h3, h4, h5⟩

/-- Non-vacuity of `C96_scan_partial` and `C96_constant_partial`. -/
example (lab : Labelling) (v : ℝ) : Distinct (silentSim (pure v)) ∧ (silentSim (pure v)).sensor = .scan (twoPeaks []) ∧
    (∀ o ∈ (silentSim (pure v)).pot.getD [], ∃ i v noise, o = .additive i (pure v) noise) ∧ ∃ scan cond peaks s',
      (silentSim (pure v)).measureScan lab ⟨[-1 / 2, 1], [0, 2], .none, .none, .int 2⟩ (newState 0) = (.ok (scan, cond, peaks), s') := by
  refine ⟨by simp [Distinct, silentSim], rfl, fun o ho => ?_, silent_scan lab (fun n => ⟨v, n, rfl⟩) _⟩
  have : o = silentNoise (pure v) := by simpa [silentSim] using ho
  exact ⟨0, v, _, this⟩

/-- C96 is refuted for sensor scan sensors: noise with a drawn strength is applied to the three potentials with three different strengths, and
reports only one of them. -/
theorem C96_refuted : ∃ (sim : AnySim ℕ) (rq : ScanRequest), Distinct sim ∧ ∀ lab : Labelling, ∃ scan cond peaks s',
    sim.measureScan lab rq (newState 0) = (.ok (scan, cond, peaks), s') ∧
    ¬ ∃ xs ys g', xs.length = 3 ∧ Steps (fun o => EachTold (sigReport s' o) o) (sim.pot.getD []) xs (generators (newState 0)) ys g' := by
  refine ⟨silentSim fun n => (.ok n, n + 1), ⟨[-1 / 2, 1], [0, 2], .none, .none, .int 2⟩, by simp [Distinct, silentSim], fun lab => ?_⟩
  obtain ⟨scan, cond, peaks, s', h⟩ := silent_scan lab (sigma := fun n => (.ok n, n + 1)) (fun n => ⟨_, _, rfl⟩) (newState 0)
  refine ⟨scan, cond, peaks, s', h, ?_⟩
  rintro ⟨xs, ys, g', hx, hst⟩
  cases hst with
  | cons first rest =>
    cases first with
    | nil g => exact absurd hx (by norm_num)
    | cons f1 r1 =>
      cases r1 with
      | nil g => exact absurd hx (by norm_num)
      | cons f2 r2 =>
        obtain ⟨σ, h1, l, e1, e2, e3, -⟩ := f1
        obtain ⟨σ', h2, l', e4, e5, e6, -⟩ := f2
        cases e1
        cases e2
        cases e4
        rw [e3] at e6
        simp [generators, newState] at e6

end SimCATS
