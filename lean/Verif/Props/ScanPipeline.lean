import Verif.Lemmas.ScanPipeline

/-! Property C100: distortions of sensor scans. -/

namespace SimCATS

open Spec

/-- C100: a sensor scan of the ranges `r1` and `r2` is made stage by stage: occupation, potential of the sensor, labels (from this
undistorted potential), potential distortions in list order on the potentials of the sensor dot and of both barriers, response of the
sensor to the distorted potential, and response distortions in list order. Every stage works on the result of the stage before it. -/
theorem C100_stages {τ : Type} (sim : ScanSim τ) (rq : ScanRequest) (r1 r2 : ℝ × ℝ)
    (hck : scanCheck sim.lim true rq = .ok (r1, r2)) (s s' : Option ScanState × τ) (scan : Scan ℝ) (area peaks : Scan ℕ) :
    measureSensorScan sim rq s = (.ok (scan, area, peaks), s') ↔
      ∃ occ mu mu' resp t p1 p2 p3 t' p4, scanOcc sim.gen rq s = (.ok occ, t) ∧
        sim.sensor.potential occ rq.g1 rq.g2 (.arr r1) (.arr r2) t.1 = (.ok mu, p1) ∧
        sim.sensor.potential occ rq.g1 rq.g2 (.arr r1) (.arr r2) p1 = (.ok mu, p2) ∧
        sim.sensor.labels rq.g1 rq.g2 r1 r2 mu p2 = (.ok (area, peaks), p3) ∧
        AppliedEach r1 r2 (sim.potD.getD []) (channels mu) (p3, t.2) (channels mu') t' ∧
        sim.sensor.response mu' t'.1 = (.ok resp, p4) ∧
        Applied r1 r1 (sim.respD.getD []) resp (p4, t'.2) scan s' := by
  have hresp : ∀ x : Scan ℝ, distortResponse r1 r1 sim.respD x = applySig r1 r1 (sim.respD.getD []) x := by
    intro x
    cases sim.respD <;> rfl
  have hm : measureSensorScan sim rq s = scanRun sim rq r1 r2 s := by
    unfold measureSensorScan
    rw [hck]
  rw [hm]
  unfold scanRun
  simp only [M.bind_ok, M.pure_run, Prod.mk.injEq, Except.ok.injEq, hresp, distortScanPot_iff, applySig_iff, onSensor_iff]
  constructor
  · rintro ⟨occ, t, e1, mu, ⟨p1, x1⟩, ⟨e2, rfl⟩, mu0, ⟨p2, x2⟩, ⟨e3, rfl⟩, ⟨m1, m2⟩, ⟨p3, x3⟩, ⟨e4, rfl⟩, mu', t', e5, resp, ⟨p4, x4⟩,
      ⟨e6, rfl⟩, scan', t7, e7, ⟨rfl, rfl, rfl⟩, rfl⟩
    have h0 := potential_fst sim.sensor occ rq.g1 rq.g2 (.arr r1) (.arr r2) p1 t.1
    dsimp only at e3
    rw [e3, e2] at h0
    cases h0
    exact ⟨occ, mu, mu', resp, t, p1, p2, p3, t', p4, e1, e2, e3, e4, e5, e6, e7⟩
  · rintro ⟨occ, mu, mu', resp, t, p1, p2, p3, t', p4, e1, e2, e3, e4, e5, e6, e7⟩
    exact ⟨occ, t, e1, mu, (p1, t.2), ⟨e2, rfl⟩, mu, (p2, t.2), ⟨e3, rfl⟩, (area, peaks), (p3, t.2), ⟨e4, rfl⟩, mu', t', e5, resp,
      (p4, t'.2), ⟨e6, rfl⟩, scan, s', e7, ⟨rfl, rfl, rfl⟩, rfl⟩

/-- C100: distortions do not change the labels: two simulations that differ in their distortions return the same labels. -/
theorem C100_labels {τ : Type} (sim sim' : ScanSim τ) (hl : sim'.lim = sim.lim) (hg : sim'.gen = sim.gen)
    (hs : sim'.sensor = sim.sensor) (rq : ScanRequest) (s t t' : Option ScanState × τ) (scan scan' : Scan ℝ)
    (area area' peaks peaks' : Scan ℕ) (h : measureSensorScan sim rq s = (.ok (scan, area, peaks), t))
    (h' : measureSensorScan sim' rq s = (.ok (scan', area', peaks'), t')) : area' = area ∧ peaks' = peaks := by
  cases hc : scanCheck sim.lim true rq with
  | error e =>
    unfold measureSensorScan at h
    rw [hc] at h
    simp at h
  | ok g =>
    obtain ⟨r1, r2⟩ := g
    rw [C100_stages sim rq r1 r2 hc] at h
    rw [C100_stages sim' rq r1 r2 (by rw [hl]; exact hc), hg, hs] at h'
    obtain ⟨occ, mu, mu1, resp, u, p1, p2, p3, u', p4, e1, e2, e3, e4, -, -, -⟩ := h
    obtain ⟨occ', mu', mu1', resp', v, q1, q2, q3, v', q4, k1, k2, k3, k4, -, -, -⟩ := h'
    rw [e1] at k1
    cases k1
    rw [e2] at k2
    cases k2
    rw [e3] at k3
    cases k3
    rw [e4] at k4
    cases k4
    exact ⟨rfl, rfl⟩

/-- C100: occupation distortions play no role in sensor scans, also if they raise exceptions. -/
theorem C100_occupation_distortions {τ : Type} (sim : ScanSim τ) (ds : Option (List (OccDist (Option ScanState × τ))))
    (rq : ScanRequest) : measureSensorScan { sim with occD := ds } rq = measureSensorScan sim rq := rfl

/-- C100, exceptions: if all stages up to the response of the sensor succeed, a sensor scan raises an exception exactly if a
response distortion raises it when it is applied to the result of the ones before it. -/
theorem C100_exception {τ : Type} (sim : ScanSim τ) (rq : ScanRequest) (r1 r2 : ℝ × ℝ)
    (hck : scanCheck sim.lim true rq = .ok (r1, r2)) {s t t' : Option ScanState × τ} {occ : Scan (ℝ × ℝ)} {mu mu' : Scan (Fin 3 → ℝ)}
    {resp : Scan ℝ} {p1 p2 p3 p4 : Option ScanState} {masks : Scan ℕ × Scan ℕ} (h1 : scanOcc sim.gen rq s = (.ok occ, t))
    (h2 : sim.sensor.potential occ rq.g1 rq.g2 (.arr r1) (.arr r2) t.1 = (.ok mu, p1))
    (h3 : sim.sensor.potential occ rq.g1 rq.g2 (.arr r1) (.arr r2) p1 = (.ok mu, p2))
    (h4 : sim.sensor.labels rq.g1 rq.g2 r1 r2 mu p2 = (.ok masks, p3))
    (h5 : AppliedEach r1 r2 (sim.potD.getD []) (channels mu) (p3, t.2) (channels mu') t')
    (h6 : sim.sensor.response mu' t'.1 = (.ok resp, p4)) (e : PyErr) (s' : Option ScanState × τ) :
    measureSensorScan sim rq s = (.error e, s') ↔ ∃ pre d post y u, sim.respD.getD [] = pre ++ d :: post ∧
      Applied r1 r1 pre resp (p4, t'.2) y u ∧ d y r1 r1 u = (.error e, s') := by
  rw [← C69_exception]
  have hresp : distortResponse r1 r1 sim.respD resp = applySig r1 r1 (sim.respD.getD []) resp := by
    cases sim.respD <;> rfl
  have hm : measureSensorScan sim rq s = scanRun sim rq r1 r2 s := by
    unfold measureSensorScan
    rw [hck]
  rw [hm]
  unfold scanRun
  simp only [M.bind_run, h1, onSensor, h2, h3, h4, distortScanPot_iff.2 h5, h6, hresp]
  cases hx : applySig r1 r1 (sim.respD.getD []) resp (p4, t'.2) with
  | mk v t => cases v <;> simp [M.pure_run]

/-- C100 for distortions that change pixels one by one, and a sensor without deformations and final rise: the potential distortions, in
list order, change the potentials of sensor dot and barriers of every pixel, the signal is that of the changed potentials, and the
response distortions change it in list order. -/
theorem C100_pixels {τ : Type} (sim : ScanSim τ) (hd : sim.sensor.defs = []) (hr : sim.sensor.rise = none) (fs hs : List (ℝ → ℝ))
    (h2 : sim.potD = some (fs.map pixelwise)) (h3 : sim.respD = some (hs.map pixelwise)) (rq : ScanRequest)
    (s s' : Option ScanState × τ) (scan : Scan ℝ) (area peaks : Scan ℕ)
    (h : measureSensorScan sim rq s = (.ok (scan, area, peaks), s')) :
    ∃ w1 w2 : ℝ × ℝ, rq.s1 = [w1.1, w1.2] ∧ rq.s2 = [w2.1, w2.2] ∧ ∃ o, ScanOccupation sim.gen rq.g1 rq.g2 s o ∧
      ((∃ n : ℕ, (rq.res = .int n ∨ rq.res = .arr [(n : ℤ)]) ∧ scan = .d1 n fun i =>
        oneByOne hs (signalOf sim.sensor fun k => oneByOne fs (potentialAt sim.sensor k o
          (argVoltage rq.g1 1 0, argVoltage rq.g2 1 0) (argVoltage (.arr w1) n i, argVoltage (.arr w2) n i)))) ∨
      ∃ r c : ℕ, rq.res = .arr [(c : ℤ), (r : ℤ)] ∧ scan = .d2 r c fun i j =>
        oneByOne hs (signalOf sim.sensor fun k => oneByOne fs (potentialAt sim.sensor k o
          (argVoltage rq.g1 1 0, argVoltage rq.g2 1 0) (argVoltage (.arr w1) c j, argVoltage (.arr w2) r i)))) := by
  cases hc : scanCheck sim.lim true rq with
  | error e =>
    unfold measureSensorScan at h
    rw [hc] at h
    simp at h
  | ok g =>
    obtain ⟨w1, w2⟩ := g
    have hw : ScanWellFormed sim.lim true rq := (C51_accepts sim.lim true rq).1.2 ⟨_, hc⟩
    have hr12 : rq.s1 = [w1.1, w1.2] ∧ rq.s2 = [w2.1, w2.2] := scanCheck_ranges _ _ _ _ _ hc
    rw [C100_stages sim rq w1 w2 hc, h2, h3] at h
    obtain ⟨occ, mu, mu', resp, t, p1, p2, p3, t', p4, e1, e2, -, -, e5, e6, e7⟩ := h
    obtain ⟨o, ho, hmu⟩ := scan_potential hw.res e1 e2
    refine ⟨w1, w2, hr12.1, hr12.2, o, ho, ?_⟩
    have hmu' : mu' = mu.map fun m k => oneByOne fs (m k) := by
      refine channels_inj ((appliedEach_unique e5 (pixelwise_appliedEach w1 w2 fs (channels mu) (p3, t.2))).1.trans ?_)
      cases mu <;> rfl
    have hresp := response_plain hr (Or.inl hd) e6
    simp only [signalOf_series] at hresp
    have hscan := (applied_unique e7 (pixelwise_applied w1 w1 hs resp (p4, t'.2))).1
    subst hmu'
    subst hresp
    rcases hmu with ⟨n, hres, rfl⟩ | ⟨r, c, hres, rfl⟩
    · left
      exact ⟨n, hres, hscan⟩
    · right
      exact ⟨r, c, hres, hscan⟩

/-- Non-vacuity: a sensor scan of 2 pixels whose potentials are doubled and then shifted and whose signal is inverted. -/
example : ∃ out t, measureSensorScan (⟨⟨none, none, none, none⟩, none, twoPeaks [], none,
      some ([fun v => 2 * v, fun v => v + 1].map pixelwise), some ([fun v => -v].map pixelwise)⟩ : ScanSim Unit)
    ⟨[-1 / 2, 1], [0, 2], .none, .none, .int 2⟩ (none, ()) = (.ok out, t) := by
  have hchk : scanCheck ⟨none, none, none, none⟩ true ⟨[-1 / 2, 1], [0, 2], .none, .none, .int 2⟩ = .ok ((-1 / 2, 1), (0, 2)) := by
    simp [scanCheck, rangeOutside, fixedIn2d, fixedOutside, scanResCheck, VoltArg.isNone]
  set mu : Fin 2 → Fin 3 → ℝ := fun i k => (twoPeaks []).mu k (0, 0) (linspace 0 0 2 i, linspace 0 0 2 i)
    (linspace (-1 / 2) 1 2 i, linspace 0 2 2 i) with hmu
  have hpot : ∀ st, (twoPeaks []).potential (.d1 2 fun _ => (0, 0)) .none .none (.arr (-1 / 2, 1)) (.arr (0, 2)) st =
      (.ok (.d1 2 mu), some ⟨(0, 0), (0, 0), (-1 / 2, 1), (0, 2), .d1 2 fun _ => (0, 0)⟩) := by
    intro st
    simp only [ScanSensor.potential, VoltArg.isArr, Bool.or_self, Bool.false_and, Bool.false_eq_true, if_false,
      ScanSensor.potentialArray, VoltArg.lims]
    rw [if_neg (by norm_num)]
  have hpt : (twoPeaks []).calcPoint ⟨(0, 0), (0, 0), (-1 / 2, 1), (0, 2), .d1 2 fun _ => (0, 0)⟩ 10 10 true = .ok (10, 10) :=
    twoPeaks_point [] ⟨(0, 0), (0, 0), (-1 / 2, 1), (0, 2), .d1 2 fun _ => (0, 0)⟩ 10 rfl
  have hlab := labels_run_1d (twoPeaks []) .none .none (-1 / 2, 1) (0, 2) 2 mu
    ⟨(0, 0), (0, 0), (-1 / 2, 1), (0, 2), .d1 2 fun _ => (0, 0)⟩ (0, 0) (10, 10) (0, 0) _ rfl hpt rfl rfl rfl rfl
  refine ⟨(_, _, _), _, (C100_stages _ _ _ _ hchk _ _ _ _ _).2 ⟨.d1 2 fun _ => (0, 0), .d1 2 mu,
    (Scan.d1 2 mu).map fun m k => oneByOne [fun v => 2 * v, fun v => v + 1] (m k), _, (none, ()), _, _, _, _, _, rfl, hpot _, hpot _, hlab,
    pixelwise_appliedEach _ _ _ _ _, C23_response (twoPeaks []) rfl rfl _ _, pixelwise_applied _ _ _ _ _⟩⟩

end SimCATS
