import Verif.Spec.RiseSignal
import Verif.Props.ScanSignal

/-! Lemmas for the signal at a voltage point and for the final rise. -/

namespace SimCATS

open Spec

/-- The sensor gate voltages that the code takes for those at which both barriers are fully conductive. -/
noncomputable def openPoint (s : ScanSensor) (x : ScanState) (o : ℝ × ℝ) : ℝ × ℝ :=
  solvePoint (s.alphaSensor 1) (s.alphaSensor 2)
    (s.barrier1.fullyConductive - (s.gateOffset x x.sensorSwept 1 + s.offset 1 + (s.alphaDot 1).1 * o.1 + (s.alphaDot 1).2 * o.1))
    (s.barrier2.fullyConductive - (s.gateOffset x x.sensorSwept 2 + s.offset 2 + (s.alphaDot 2).1 * o.1 + (s.alphaDot 2).2 * o.2))

/-- The offset of the final rise for the stored state `x` with the occupation `o` of the first pixel. -/
noncomputable def riseOff (s : ScanSensor) (x : ScanState) (o : ℝ × ℝ) : ℝ :=
  potentialAt s 0 o (x.g1.1, x.g2.1) (openPoint s x o)

/-- The signal with the offset `off` of the final rise, if there is one. -/
noncomputable def signalFrom (s : ScanSensor) (off : ℝ) (o v w : ℝ × ℝ) : ℝ :=
  match s.rise with
  | none => scanSignal s o v w
  | some rise => riseSignal s rise off o v w

/-- The signal at a pixel from its potentials. -/
noncomputable def dotSeries (s : ScanSensor) (off : ℝ) (m : Fin 3 → ℝ) : ℝ :=
  match s.rise with
  | none => series (s.plainResponse (m 0)) (s.barrier1.value (m 1)) (s.barrier2.value (m 2))
  | some rise => series (max (s.plainResponse (m 0)) (rise (m 0) off)) (s.barrier1.value (m 1)) (s.barrier2.value (m 2))

theorem dotSeries_at (s : ScanSensor) (off : ℝ) (o v w : ℝ × ℝ) :
    dotSeries s off (fun k => potentialAt s k o v w) = signalFrom s off o v w := by
  unfold dotSeries signalFrom
  cases s.rise with
  | none => exact signal_at s o v w _ fun k => rfl
  | some rise =>
    simp only
    rw [series_inSeries, plain_signal]
    rfl

theorem response_run (s : ScanSensor) (mu : Scan (Fin 3 → ℝ)) (x : ScanState) (o : ℝ × ℝ) (ho : firstOcc x.occ = .ok o)
    (hd : s.defs = [] ∨ x.onlySensor = false) :
    ∃ t, s.response mu (some x) = (.ok (mu.map fun m => dotSeries s (riseOff s x o) m), t) := by
  have hb : (!s.defs.isEmpty && x.onlySensor) = false := by
    rcases hd with hd | hd
    · rw [hd]; rfl
    · rw [hd, Bool.and_false]
  unfold ScanSensor.response ScanSensor.dotResponse
  rw [bind_assoc, M.bind_run, getState_run]
  simp only [hb, Bool.false_eq_true, if_false]
  unfold dotSeries
  cases hr : s.rise with
  | none =>
    refine ⟨some x, ?_⟩
    simp only
    rw [M.bind_run, M.pure_run]
    simp only
    rw [M.bind_run, ofPy_run, Scan.zip_map_self]
    simp only [M.pure_run, Scan.map_map]
  | some rise =>
    have hp : s.calcPoint x s.barrier1.fullyConductive s.barrier2.fullyConductive x.sensorSwept = .ok (openPoint s x o) := by
      unfold ScanSensor.calcPoint
      rw [ho]
      rfl
    have hrun := riseOffset_run s x o _ ho hp
    rw [mu_at] at hrun
    refine ⟨some ⟨(x.g1.1, x.g1.1), (x.g2.1, x.g2.1), ((openPoint s x o).1, (openPoint s x o).1),
      ((openPoint s x o).2, (openPoint s x o).2), .d1 1 fun _ => o⟩, ?_⟩
    simp only
    rw [bind_assoc, M.bind_run, hrun]
    simp only [pure_bind]
    rw [M.bind_run, ofPy_run, Scan.zip_map_self]
    simp only [M.pure_run, Scan.map_map]
    rfl

theorem potential_full {s : ScanSensor} {occ : Scan (ℝ × ℝ)} {g1 g2 s1 s2 : VoltArg} {st t : Option ScanState}
    {mu : Scan (Fin 3 → ℝ)} (h : s.potential occ g1 g2 s1 s2 st = (.ok mu, t)) :
    t = some ⟨g1.lims, g2.lims, s1.lims, s2.lims, occ⟩ ∧ ((∃ n f, n ≠ 0 ∧ occ = .d1 n f ∧ mu = .d1 n fun i k => potentialAt s k (f i)
      (argVoltage g1 n i, argVoltage g2 n i) (argVoltage s1 n i, argVoltage s2 n i)) ∨
    ∃ r c f, r ≠ 0 ∧ c ≠ 0 ∧ occ = .d2 r c f ∧ mu = .d2 r c fun i j k => potentialAt s k (f i j)
      (argVoltage g1 c j, argVoltage g2 r i) (argVoltage s1 c j, argVoltage s2 r i)) := by
  unfold ScanSensor.potential at h
  cases occ with
  | d0 x => simp at h
  | d1 n f =>
    simp only at h
    split_ifs at h with hb
    · simp at h
    · obtain ⟨h1, h2⟩ := Prod.mk.inj h
      refine ⟨h2.symm, Or.inl ⟨n, f, ?_⟩⟩
      simp only [ScanSensor.potentialArray, lims_voltage, mu_at] at h1
      split_ifs at h1 with hn
      cases h1
      exact ⟨hn, rfl, rfl⟩
  | d2 r c f =>
    simp only at h
    split_ifs at h with hb
    · simp at h
    · obtain ⟨h1, h2⟩ := Prod.mk.inj h
      refine ⟨h2.symm, Or.inr ⟨r, c, f, ?_⟩⟩
      simp only [ScanSensor.potentialArray, lims_voltage, mu_at] at h1
      split_ifs at h1 with hn
      cases h1
      push Not at hn
      exact ⟨hn.1, hn.2, rfl, rfl⟩

/-- Every CSD is the response to its potentials, computed with the stored ranges. -/
theorem csd_parts {τ : Type} {sim : Simulation (Option ScanState × τ)} {sens : ScanSensor} (hsens : sim.sensor = sens.toSensor)
    (h2 : sim.potD = none) (h3 : sim.respD = none) {a1 b1 a2 b2 : ℝ} {w1 w2 : Option ℝ} {res : Resolution} {s s' : Option ScanState × τ}
    {csd : Scan ℝ} {occ : Scan (ℝ × ℝ)} {lead : Scan ℕ}
    (h : measure sim ⟨[a1, b1], [a2, b2], w1, w2, res⟩ s = (.ok (csd, occ, lead), s')) :
    ∃ mu t t', sens.potential occ (.arr (a1, b1)) (.arr (a2, b2)) (voltOfOption w1) (voltOfOption w2) t =
        (.ok mu, some ⟨(a1, b1), (a2, b2), (voltOfOption w1).lims, (voltOfOption w2).lims, occ⟩) ∧
      sens.response mu (some ⟨(a1, b1), (a2, b2), (voltOfOption w1).lims, (voltOfOption w2).lims, occ⟩) = (.ok csd, t') := by
  obtain ⟨g1, g2, gen, hm, hg, -⟩ := measure_ok h
  have hck : measureCheck sim.lim true ⟨[a1, b1], [a2, b2], w1, w2, res⟩ = .ok (g1, g2) := by
    rw [hg] at hm
    exact hm
  obtain ⟨e1, e2⟩ := C02_ranges _ _ _ _ _ hm
  simp only [List.cons.injEq, and_true] at e1 e2
  obtain ⟨rfl, rfl⟩ := e1
  obtain ⟨rfl, rfl⟩ := e2
  rw [C69_measure sim _ _ _ _ hg hck] at h
  rw [h2, h3, hsens] at h
  obtain ⟨ideal, gen', pot, pot', resp, s1, s2, s3, s4, s5, k1, k2, k3, k4, k5, k6⟩ := h
  rw [Option.getD_none, ← applySig_iff] at k6
  simp only [applySig, M.pure_run, Prod.mk.injEq, Except.ok.injEq] at k6
  obtain ⟨rfl, rfl⟩ := k6
  rw [← distortPotential_iff (ds := none)] at k4
  simp only [distortPotential, M.pure_run, Prod.mk.injEq, Except.ok.injEq] at k4
  obtain ⟨rfl, rfl⟩ := k4
  simp only [ScanSensor.toSensor, if_true, Option.getD_some, M.bind_ok, M.pure_run, Prod.mk.injEq, Except.ok.injEq] at k3
  obtain ⟨mu, t, k3, rfl, rfl⟩ := k3
  simp only [ScanSensor.toSensor, fromRows_potRows, M.bind_ok, ofPy_run, Prod.mk.injEq, Except.ok.injEq] at k5
  obtain ⟨mu', t', ⟨rfl, rfl⟩, k5⟩ := k5
  rw [onSensor_iff] at k3 k5
  obtain ⟨hst, -⟩ := potential_full k3.1
  rw [hst] at k3 k5
  exact ⟨mu, _, _, k3.1, k5.1⟩

theorem firstOcc_spec {occ : Scan (ℝ × ℝ)} {o : ℝ × ℝ} (h : FirstOccupation occ o) : firstOcc occ = .ok o := by
  rcases h with ⟨n, e, rfl, rfl⟩ | ⟨r, c, e, rfl, rfl⟩ <;> simp [firstOcc]

/-- The state in which a CSD computes the offset of the final rise. -/
noncomputable def csdState (a1 b1 a2 b2 : ℝ) (w : ℝ × ℝ) (occ : Scan (ℝ × ℝ)) : ScanState :=
  ⟨(a1, b1), (a2, b2), (w.1, w.1), (w.2, w.2), occ⟩

theorem voltOfOption_lims (a : Option ℝ) : (voltOfOption a).lims = (a.getD 0, a.getD 0) := by cases a <;> rfl

theorem csd_signal {τ : Type} {sim : Simulation (Option ScanState × τ)} {sens : ScanSensor} (hsens : sim.sensor = sens.toSensor)
    (h2 : sim.potD = none) (h3 : sim.respD = none) {a1 b1 a2 b2 : ℝ} {w1 w2 : Option ℝ} {res : Resolution} {s s' : Option ScanState × τ}
    {csd : Scan ℝ} {occ : Scan (ℝ × ℝ)} {lead : Scan ℕ} (hd : sens.defs = [] ∨ a1 ≠ b1 ∨ a2 ≠ b2)
    (h : measure sim ⟨[a1, b1], [a2, b2], w1, w2, res⟩ s = (.ok (csd, occ, lead), s')) {o0 : ℝ × ℝ} (ho : FirstOccupation occ o0)
    {o v : ℝ × ℝ} {y : ℝ} (hp : CsdPixel (a1, b1) (a2, b2) csd occ o v y) :
    y = signalFrom sens (riseOff sens (csdState a1 b1 a2 b2 (w1.getD 0, w2.getD 0) occ) o0) o v (w1.getD 0, w2.getD 0) := by
  obtain ⟨mu, t, t', hpot, hresp⟩ := csd_parts hsens h2 h3 h
  simp only [voltOfOption_lims] at hpot hresp
  obtain ⟨t1, hrun⟩ := response_run sens mu (csdState a1 b1 a2 b2 (w1.getD 0, w2.getD 0) occ) o0 (firstOcc_spec ho)
    (hd.imp_right fun hne => by
      unfold ScanState.onlySensor
      rw [Bool.and_eq_false_iff]
      exact hne.imp (fun h => decide_eq_false h) fun h => decide_eq_false h)
  have hcsd := (Prod.mk.inj (hresp.symm.trans hrun)).1
  simp only [Except.ok.injEq] at hcsd
  rcases (potential_full hpot).2 with ⟨n, f, hn, rfl, rfl⟩ | ⟨r, c, f, hr, hc, rfl, rfl⟩
  · rcases hp with ⟨n', f', e', rfl, he, i, rfl, rfl, rfl⟩ | ⟨r, c, f', e', -, he, -⟩
    · cases he
      simp only [Scan.map, Scan.d1.injEq, heq_eq_eq, true_and] at hcsd
      rw [hcsd]
      simp only [voltOfOption_voltage]
      rw [dotSeries_at]
    · cases he
  · rcases hp with ⟨n', f', e', -, he, -⟩ | ⟨r', c', f', e', rfl, he, i, j, rfl, rfl, rfl⟩
    · cases he
    · cases he
      simp only [Scan.map, Scan.d2.injEq, heq_eq_eq, true_and] at hcsd
      rw [hcsd]
      simp only [voltOfOption_voltage]
      rw [dotSeries_at]

theorem scanOccupation_unique {σ : Type} {gen : Option (Gen σ)} {g1 g2 : VoltArg} {s : σ} {o o' : ℝ × ℝ}
    (h : ScanOccupation gen g1 g2 s o) (h' : ScanOccupation gen g1 g2 s o') : o = o' := by
  unfold ScanOccupation at h h'
  split at h
  · simp only at h'
    obtain ⟨d, t, e, h⟩ := h
    obtain ⟨d', t', e', h'⟩ := h'
    have hd := (Prod.mk.inj (e.symm.trans e')).1
    simp only [Except.ok.injEq] at hd
    subst hd
    rcases h with ⟨n, f, hf, rfl⟩ | ⟨r, c, f, hf, rfl⟩
    · rcases h' with ⟨n', f', hf', rfl⟩ | ⟨r', c', f', hf', rfl⟩
      · rw [hf] at hf'
        cases hf'
        rfl
      · rw [hf] at hf'
        cases hf'
    · rcases h' with ⟨n', f', hf', rfl⟩ | ⟨r', c', f', hf', rfl⟩
      · rw [hf] at hf'
        cases hf'
      · rw [hf] at hf'
        cases hf'
        rfl
  · rename_i hne
    split at h'
    · exact absurd rfl (hne _ _ _ _ _ rfl rfl)
    · exact h.trans h'.symm

/-- The state in which a sensor scan computes the offset of the final rise. -/
noncomputable def scanState (v1 : ℝ) (q o : ℝ × ℝ) : ScanState := ⟨(v1, v1), (v1, v1), (q.1, q.1), (q.2, q.2), .d1 1 fun _ => o⟩

theorem lims_fixed {a : VoltArg} (h : a.isArr = false) : a.lims = (argVoltage a 1 0, argVoltage a 1 0) := by
  cases a with
  | none => rfl
  | num b v => rfl
  | arr g => cases h

theorem voltage_fixed {a : VoltArg} (n i : ℕ) (h : a.isArr = false) : argVoltage a n i = argVoltage a 1 0 := by
  cases a with
  | none => rfl
  | num b v => rfl
  | arr g => cases h

theorem scan_signal {τ : Type} {sim : ScanSim τ} (hd : sim.sensor.defs = []) (h2 : sim.potD = none) (h3 : sim.respD = none)
    {w1 w2 : ℝ × ℝ} {g1 g2 : VoltArg} {res : Resolution} {s s' : Option ScanState × τ} {scan : Scan ℝ} {m1 m2 : Scan ℕ}
    (h : measureSensorScan sim ⟨[w1.1, w1.2], [w2.1, w2.2], g1, g2, res⟩ s = (.ok (scan, m1, m2), s')) {o : ℝ × ℝ}
    (ho : ScanOccupation sim.gen g1 g2 s o) {w : ℝ × ℝ} {y : ℝ}
    (hp : (∃ n f, scan = .d1 n f ∧ ∃ i : Fin n, f i = y ∧ w = (argVoltage (.arr w1) n i, argVoltage (.arr w2) n i)) ∨
      ∃ r c f, scan = .d2 r c f ∧ ∃ (i : Fin r) (j : Fin c), f i j = y ∧
        w = (argVoltage (.arr w1) c j, argVoltage (.arr w2) r i)) :
    ∃ q, y = signalFrom sim.sensor (riseOff sim.sensor (scanState (argVoltage g1 1 0) q o) o) o
      (argVoltage g1 1 0, argVoltage g2 1 0) w := by
  unfold measureSensorScan at h
  cases hc : scanCheck sim.lim true ⟨[w1.1, w1.2], [w2.1, w2.2], g1, g2, res⟩ with
  | error e => rw [hc] at h; simp at h
  | ok g =>
    obtain ⟨u1, u2⟩ := g
    obtain ⟨hr1, hr2⟩ := scanCheck_ranges _ _ _ _ _ hc
    simp only [List.cons.injEq, and_true] at hr1 hr2
    have hu1 : u1 = w1 := Prod.ext hr1.1.symm hr1.2.symm
    have hu2 : u2 = w2 := Prod.ext hr2.1.symm hr2.2.symm
    subst hu1 hu2
    rw [hc] at h
    simp only at h
    unfold scanRun at h
    simp only [M.bind_ok] at h
    obtain ⟨occ, t1, e1, mu, t2, e2, mu0, t3, e3, masks, t4, e4, mu', t5, e5, scan0, t6, e6, scan1, t7, e7, e8⟩ := h
    rw [h2] at e5
    simp only [distortScanPot, M.pure_run, Prod.mk.injEq, Except.ok.injEq] at e5
    obtain ⟨rfl, rfl⟩ := e5
    rw [h3] at e7
    simp only [distortResponse, M.pure_run, Prod.mk.injEq, Except.ok.injEq] at e7 e8
    obtain ⟨rfl, rfl⟩ := e7
    obtain ⟨⟨rfl, -, -⟩, rfl⟩ := e8
    rw [onSensor_iff] at e2 e3 e4 e6
    obtain ⟨o', ho', hocc⟩ := scanOcc_ok e1
    have hoo : o' = o := scanOccupation_unique ho' ho
    subst hoo
    obtain ⟨x, o2, q, mid, ps, hx, hfo, -, -, -, ha1, ha2, hst, -⟩ := labels_ok _ _ _ _ _ _ _ _ _ e4.1
    have hx2 := (potential_full e3.1).1
    rw [hx] at hx2
    cases hx2
    have ho2 : o2 = o' := by
      rcases hocc with ⟨n, -, rfl⟩ | ⟨c, r, l, -, rfl⟩
      · simp only [firstOcc] at hfo
        split_ifs at hfo
        cases hfo
        rfl
      · simp only [firstOcc] at hfo
        split_ifs at hfo
        cases hfo
        rfl
    subst ho2
    rw [hst, lims_fixed ha1] at e6
    obtain ⟨t8, hrun⟩ := response_run sim.sensor mu (scanState (argVoltage g1 1 0) q o2) o2 rfl (Or.inl hd)
    have hscan := (Prod.mk.inj (e6.1.symm.trans hrun)).1
    simp only [Except.ok.injEq] at hscan
    refine ⟨q, ?_⟩
    rcases (potential_full e2.1).2 with ⟨n, f, hn, hf, rfl⟩ | ⟨r, c, f, hr, hc, hf, rfl⟩
    · have hfo : ∀ i, f i = o2 := by
        rcases hocc with ⟨n, -, rfl⟩ | ⟨c, r, l, -, rfl⟩
        · cases hf
          exact fun i => rfl
        · cases hf
      rcases hp with ⟨n', f', rfl, i, rfl, rfl⟩ | ⟨r, c, f', rfl, -⟩
      · cases hscan
        simp only [hfo]
        rw [dotSeries_at, voltage_fixed n i ha1, voltage_fixed n i ha2]
      · cases hscan
    · have hfo : ∀ i j, f i j = o2 := by
        rcases hocc with ⟨n, -, rfl⟩ | ⟨c, r, l, -, rfl⟩
        · cases hf
        · cases hf
          exact fun i j => rfl
      rcases hp with ⟨n', f', rfl, -⟩ | ⟨r', c', f', rfl, i, j, rfl, rfl⟩
      · cases hscan
      · cases hscan
        simp only [hfo]
        rw [dotSeries_at, voltage_fixed c j ha1, voltage_fixed r i ha2]

/-- The offset in sensor scans depends on the voltage of plunger gate 1 and the occupation only. -/
theorem scan_off (s : ScanSensor) (v1 : ℝ) (q q' o : ℝ × ℝ) : riseOff s (scanState v1 q o) o = riseOff s (scanState v1 q' o) o := by
  have h : ∀ q, (scanState v1 q o).sensorSwept = true := by
    intro q
    unfold ScanState.sensorSwept scanState
    simp only [eqB_self]
    rfl
  unfold riseOff openPoint ScanSensor.gateOffset
  rw [h, h]
  rfl

/-- The point for a state with a fixed plunger gate. -/
theorem openPoint_fixed (s : ScanSensor) (x : ScanState) (o : ℝ × ℝ) (hx : x.sensorSwept = true) (hdet : barrierDet s ≠ 0)
    (heps : (s.alphaSensor 1).2 = 0 ∨ floatEps ≤ |(s.alphaSensor 1).2|) :
    potentialAt s 1 o (x.g1.1, x.g2.1) (openPoint s x o) = s.barrier1.fullyConductive + (s.alphaDot 1).2 * (o.2 - o.1) ∧
      potentialAt s 2 o (x.g1.1, x.g2.1) (openPoint s x o) = s.barrier2.fullyConductive := by
  have h := solvePoint_spec (s.alphaSensor 1) (s.alphaSensor 2)
    (s.barrier1.fullyConductive - (s.gateOffset x x.sensorSwept 1 + s.offset 1 + (s.alphaDot 1).1 * o.1 + (s.alphaDot 1).2 * o.1))
    (s.barrier2.fullyConductive - (s.gateOffset x x.sensorSwept 2 + s.offset 2 + (s.alphaDot 2).1 * o.1 + (s.alphaDot 2).2 * o.2))
    hdet heps
  change dot2 (openPoint s x o) _ = _ ∧ dot2 (openPoint s x o) _ = _ at h
  simp only [ScanSensor.gateOffset, hx, if_true, dot2] at h
  unfold potentialAt
  constructor
  · linarith [h.1]
  · linarith [h.2]

/-- The point for a state with both plunger gates swept. -/
theorem openPoint_swept (s : ScanSensor) (x : ScanState) (o : ℝ × ℝ) (hx : x.sensorSwept = false) (hdet : barrierDet s ≠ 0)
    (heps : (s.alphaSensor 1).2 = 0 ∨ floatEps ≤ |(s.alphaSensor 1).2|) :
    potentialAt s 1 o (0, 0) ((openPoint s x o).1 + x.s1.1, (openPoint s x o).2 + x.s1.1) =
        s.barrier1.fullyConductive + (s.alphaDot 1).2 * (o.2 - o.1) ∧
      potentialAt s 2 o (0, 0) ((openPoint s x o).1 + x.s1.1, (openPoint s x o).2 + x.s1.1) = s.barrier2.fullyConductive := by
  have h := solvePoint_spec (s.alphaSensor 1) (s.alphaSensor 2)
    (s.barrier1.fullyConductive - (s.gateOffset x x.sensorSwept 1 + s.offset 1 + (s.alphaDot 1).1 * o.1 + (s.alphaDot 1).2 * o.1))
    (s.barrier2.fullyConductive - (s.gateOffset x x.sensorSwept 2 + s.offset 2 + (s.alphaDot 2).1 * o.1 + (s.alphaDot 2).2 * o.2))
    hdet heps
  change dot2 (openPoint s x o) _ = _ ∧ dot2 (openPoint s x o) _ = _ at h
  simp only [ScanSensor.gateOffset, hx, Bool.false_eq_true, if_false, dot2] at h
  unfold potentialAt
  constructor
  · linarith [h.1]
  · linarith [h.2]

/-- Voltages that give the same barrier potentials are the same. -/
theorem point_unique (s : ScanSensor) (o v p q : ℝ × ℝ) (hdet : barrierDet s ≠ 0) (h1 : potentialAt s 1 o v p = potentialAt s 1 o v q)
    (h2 : potentialAt s 2 o v p = potentialAt s 2 o v q) : p = q := by
  unfold potentialAt at h1 h2
  unfold barrierDet at hdet
  have e1 : ((s.alphaSensor 1).1 * (s.alphaSensor 2).2 - (s.alphaSensor 1).2 * (s.alphaSensor 2).1) * (p.1 - q.1) = 0 := by
    linear_combination (s.alphaSensor 2).2 * h1 - (s.alphaSensor 1).2 * h2
  have e2 : ((s.alphaSensor 1).1 * (s.alphaSensor 2).2 - (s.alphaSensor 1).2 * (s.alphaSensor 2).1) * (p.2 - q.2) = 0 := by
    linear_combination (s.alphaSensor 1).1 * h2 - (s.alphaSensor 2).1 * h1
  rw [mul_eq_zero, or_iff_right hdet, sub_eq_zero] at e1 e2
  exact Prod.ext e1 e2

/-- 1D measurements with given occupations succeed. -/
theorem csd_exists (sens : ScanSensor) (hd : sens.defs = []) (n : ℕ) (e : Fin (n + 1) → ℝ × ℝ) (a1 b1 a2 b2 w1 w2 : ℝ) (i : Fin (n + 1)) :
    ∃ y, CsdFrom sens (a1, a2) (e 0) (a1 ≠ b1 ∧ a2 ≠ b2) (e i) (argVoltage (.arr (a1, b1)) (n + 1) i, argVoltage (.arr (a2, b2)) (n + 1) i)
      (w1, w2) y := by
  obtain ⟨mu, x, hx, hmu, hxo⟩ : ∃ mu x, sens.potential (.d1 (n + 1) e) (.arr (a1, b1)) (.arr (a2, b2)) (voltOfOption (some w1))
      (voltOfOption (some w2)) none = (.ok mu, some x) ∧ (∃ f, mu = .d1 (n + 1) f) ∧ firstOcc x.occ = .ok (e 0) :=
    ⟨_, _, Prod.ext (C71_potential_1d sens (n + 1) (by omega) e (.arr (a1, b1)) (.arr (a2, b2)) (voltOfOption (some w1))
      (voltOfOption (some w2)) (Or.inr ⟨rfl, rfl⟩) none) rfl, ⟨_, rfl⟩, by simp [firstOcc]⟩
  obtain ⟨f, rfl⟩ := hmu
  obtain ⟨t, hrun⟩ := response_run sens (.d1 (n + 1) f) x (e 0) hxo (Or.inl hd)
  refine ⟨dotSeries sens (riseOff sens x (e 0)) (f i), Unit, ⟨⟨none, none, none, none⟩, some fun _ _ _ => pure (.d1 (n + 1) e, .d1 (n + 1) fun _ => 0),
      sens.toSensor, none, none, none⟩, a1, b1, a2, b2, some w1, some w2, .int (n + 1), (none, ()), (t, ()), .d1 (n + 1) fun i => dotSeries sens (riseOff sens x (e 0)) (f i),
    .d1 (n + 1) e, .d1 (n + 1) fun _ => 0,
    rfl, rfl, rfl, (C69_measure _ _ _ (a1, b1) (a2, b2) rfl ?_ _ _ _ _ _).2 ⟨_, _, .multi (potRows (.d1 (n + 1) f)),
      .multi (potRows (.d1 (n + 1) f)), _, (none, ()), (none, ()), (some x, ()), (some x, ()), (t, ()), rfl, rfl, ?_,
      (distortPotential_iff (ds := none)).1 rfl, ?_, .none _ _⟩, rfl, Or.inl ⟨n, e, rfl, rfl⟩, Iff.rfl, rfl,
    Or.inl ⟨n + 1, fun i => dotSeries sens (riseOff sens x (e 0)) (f i), e, rfl, rfl, i, rfl, rfl, rfl⟩⟩
  · simp [measureCheck, rangeOutside, sensorOutside, valueOutside, resCheck]
  · simp only [ScanSensor.toSensor, if_true, Option.getD_some, M.bind_ok, M.pure_run, onSensor_iff, Prod.mk.injEq, Except.ok.injEq]
    exact ⟨_, (some x, ()), ⟨hx, trivial⟩, rfl, rfl⟩
  · simp only [ScanSensor.toSensor, fromRows_potRows, M.bind_ok, ofPy_run, onSensor_iff, Prod.mk.injEq, Except.ok.injEq]
    exact ⟨_, (some x, ()), ⟨rfl, rfl⟩, hrun, trivial⟩

/-- 1D sensor scans without electrons succeed. -/
theorem scan_exists (sens : ScanSensor) (hd : sens.defs = []) (ps : List Peak) (hps : sens.peaks = some ps) (n : ℕ) (v1 v2 : ℝ)
    (w1 w2 : ℝ × ℝ) (i : Fin (n + 1)) :
    ∃ y, ScanShows sens (0, 0) (v1, v2) (argVoltage (.arr w1) (n + 1) i, argVoltage (.arr w2) (n + 1) i) y := by
  let sim : ScanSim Unit := ⟨⟨none, none, none, none⟩, none, sens, none, none, none⟩
  have hchk : scanCheck sim.lim true ⟨[w1.1, w1.2], [w2.1, w2.2], .num true v1, .num true v2, .int (n + 1)⟩ = .ok (w1, w2) := by
    simp [scanCheck, sim, rangeOutside, fixedIn2d, fixedOutside, scanResCheck, VoltArg.isNone]
  set x : ScanState := ⟨(v1, v1), (v2, v2), w1, w2, .d1 (n + 1) fun _ => (0, 0)⟩ with hx
  obtain ⟨f, hpot⟩ : ∃ f, ∀ st, sens.potential (.d1 (n + 1) fun _ => (0, 0)) (.num true v1) (.num true v2) (.arr w1) (.arr w2) st =
      (.ok (.d1 (n + 1) f), some x) :=
    ⟨_, fun st => Prod.ext (C71_potential_1d sens (n + 1) (by omega) (fun _ => (0, 0)) (.num true v1) (.num true v2) (.arr w1) (.arr w2)
      (Or.inl ⟨rfl, rfl⟩) st) rfl⟩
  obtain ⟨q, hq⟩ : ∃ q, sens.calcPoint x sens.barrier1.fullyConductive sens.barrier2.fullyConductive true = .ok q := by
    unfold ScanSensor.calcPoint
    simp only [hx, firstOcc, Nat.zero_lt_succ, dite_true]
    exact ⟨_, rfl⟩
  have hmid : sens.labelMiddle ⟨(VoltArg.num true v1).lims, (VoltArg.num true v1).lims, (q.1, q.1), (q.2, q.2), .d1 1 fun _ => (0, 0)⟩ =
      .ok (0, 0) := by
    unfold ScanSensor.labelMiddle
    rw [hd]
    rfl
  have hlab := labels_run_1d sens (.num true v1) (.num true v2) w1 w2 (n + 1) f x (0, 0) q (0, 0) ps (by simp [hx, firstOcc]) hq hmid hps
    rfl rfl
  obtain ⟨t, hresp⟩ := response_run sens (.d1 (n + 1) f)
    ⟨(VoltArg.num true v1).lims, (VoltArg.num true v1).lims, (q.1, q.1), (q.2, q.2), .d1 1 fun _ => (0, 0)⟩ (0, 0) rfl (Or.inl hd)
  have hocc : scanOcc sim.gen ⟨[w1.1, w1.2], [w2.1, w2.2], .num true v1, .num true v2, .int (n + 1)⟩ (none, ()) =
      (.ok (.d1 (n + 1) fun _ => (0, 0)), (none, ())) := by
    unfold scanOcc
    simp only [sim, ofPy_run, fillOcc]
    rw [if_neg (by omega)]
    rfl
  have hrun : ∃ m, measureSensorScan sim ⟨[w1.1, w1.2], [w2.1, w2.2], .num true v1, .num true v2, .int (n + 1)⟩ (none, ()) =
      (.ok ((Scan.d1 (n + 1) f).map fun m => dotSeries sens (riseOff sens ⟨(VoltArg.num true v1).lims, (VoltArg.num true v1).lims,
        (q.1, q.1), (q.2, q.2), .d1 1 fun _ => (0, 0)⟩ (0, 0)) m, m), (t, ())) := by
    unfold measureSensorScan
    rw [hchk]
    simp only
    unfold scanRun
    rw [M.bind_run, hocc]
    simp only
    rw [M.bind_run, onSensor_ok (hpot _)]
    simp only
    rw [M.bind_run, onSensor_ok (hpot _)]
    simp only
    rw [M.bind_run, onSensor_ok hlab]
    simp only
    rw [M.bind_run]
    have hpd : ∀ m (t : Option ScanState × Unit), distortScanPot w1 w2 sim.potD m t = (.ok m, t) := fun m t => rfl
    rw [hpd]
    simp only
    rw [M.bind_run, onSensor_ok hresp]
    exact ⟨_, rfl⟩
  obtain ⟨⟨m1, m2⟩, hrun⟩ := hrun
  exact ⟨_, Unit, sim, w1, w2, .num true v1, .num true v2, .int (n + 1), (none, ()), (t, ()), _, m1, m2, rfl, rfl, rfl, hrun, rfl, rfl,
    Or.inl ⟨n + 1, _, rfl, i, rfl, rfl⟩⟩

theorem sampleSensor_signal (off off' : ℝ) (o v w : ℝ × ℝ) (h : off < off') :
    signalFrom sampleSensor off' o v w < signalFrom sampleSensor off o v w := by
  have e : ∀ off, signalFrom sampleSensor off o v w = series (max 0 ((⟨0, ⟨0, 1, 1, 1, 1, 1⟩, 1 / 2⟩ : RiseGlf).sensorFunction
      (potentialAt sampleSensor 0 o v w) off)) (sampleSensor.barrier1.value (potentialAt sampleSensor 1 o v w))
      (sampleSensor.barrier2.value (potentialAt sampleSensor 2 o v w)) := by
    intro off
    rw [series_inSeries]
    change inSeries (max ([] : List ℝ).sum _) _ _ = _
    rfl
  have hval : ∀ x, 0 < (⟨1 / 4, 3 / 4, ⟨0, 1, 1, 1, 1, 1⟩, 0⟩ : BarrierGlf).barrier.value x := fun x =>
    lt_of_le_of_lt (by norm_num) (C17_glf_between ⟨0, 1, 1, 1, 1, 1⟩ unitGlf_ok rfl 0 x).1
  have hs : ∀ x y, 0 < (⟨0, ⟨0, 1, 1, 1, 1, 1⟩, 1 / 2⟩ : RiseGlf).sensorFunction x y := fun x y =>
    lt_of_le_of_lt (by norm_num) (C17_glf_between ⟨0, 1, 1, 1, 1, 1⟩ unitGlf_ok rfl _ x).1
  rw [e, e, max_eq_right (hs _ _).le, max_eq_right (hs _ _).le]
  refine series_strictMono_first _ _ _ _ (hs _ _) (hval _) (hval _) ?_
  unfold RiseGlf.sensorFunction
  rw [C17_glf_offset, C17_glf_offset _ (-_ + off)]
  exact (C17_glf_monotone ⟨0, 1, 1, 1, 1, 1⟩ unitGlf_ok 0).1 (by norm_num) (by linarith)

theorem sampleSensor_at (o v w : ℝ × ℝ) : potentialAt sampleSensor 0 o v w = v.1 + v.2 + w.1 + w.2 ∧
    potentialAt sampleSensor 1 o v w = -o.1 - o.2 + v.1 + v.2 + w.1 ∧ potentialAt sampleSensor 2 o v w = -o.1 - o.2 + v.1 + v.2 + w.2 := by
  refine ⟨?_, ?_, ?_⟩ <;> simp [potentialAt, sampleSensor] <;> ring

/-- The offset in CSDs over both plunger gates, with the sensor gates at 0 V. -/
theorem sampleSensor_csdOff (a1 b1 a2 b2 : ℝ) (h1 : a1 ≠ b1) (h2 : a2 ≠ b2) (occ : Scan (ℝ × ℝ)) :
    riseOff sampleSensor (csdState a1 b1 a2 b2 (0, 0) occ) (0, 0) = a1 + a2 + 2 * sampleSensor.barrier1.fullyConductive := by
  have hx : (csdState a1 b1 a2 b2 (0, 0) occ).sensorSwept = false := by
    unfold ScanState.sensorSwept csdState eqB
    simp [h1, h2]
  have h := openPoint_swept sampleSensor _ (0, 0) hx sampleSensor_det.1 (Or.inl sampleSensor_det.2)
  have f : sampleSensor.barrier2.fullyConductive = sampleSensor.barrier1.fullyConductive := rfl
  rw [(sampleSensor_at _ _ _).2.1, (sampleSensor_at _ _ _).2.2, f] at h
  unfold riseOff
  rw [(sampleSensor_at _ _ _).1]
  obtain ⟨e1, e2⟩ := h
  simp only [csdState, sub_self, mul_zero, add_zero] at e1 e2 ⊢
  linarith

/-- The offset in sensor scans. -/
theorem sampleSensor_scanOff (v1 : ℝ) (q : ℝ × ℝ) :
    riseOff sampleSensor (scanState v1 q (0, 0)) (0, 0) = 2 * sampleSensor.barrier1.fullyConductive - 2 * v1 := by
  have hx : (scanState v1 q (0, 0)).sensorSwept = true := by
    unfold ScanState.sensorSwept scanState
    simp only [eqB_self]
    rfl
  have h := openPoint_fixed sampleSensor _ (0, 0) hx sampleSensor_det.1 (Or.inl sampleSensor_det.2)
  have f : sampleSensor.barrier2.fullyConductive = sampleSensor.barrier1.fullyConductive := rfl
  rw [(sampleSensor_at _ _ _).2.1, (sampleSensor_at _ _ _).2.2, f] at h
  unfold riseOff
  rw [(sampleSensor_at _ _ _).1]
  obtain ⟨e1, e2⟩ := h
  simp only [scanState, sub_self, mul_zero, add_zero] at e1 e2 ⊢
  linarith

theorem sampleSensor_csd (a b : ℝ) (hab : a ≠ b) (i : Fin 2) : ∃ y, CsdShows sampleSensor (0, 0)
    (argVoltage (.arr (a, b)) 2 i, argVoltage (.arr (a, b)) 2 i) (0, 0) y ∧
    y = signalFrom sampleSensor (2 * a + 2 * sampleSensor.barrier1.fullyConductive) (0, 0)
      (argVoltage (.arr (a, b)) 2 i, argVoltage (.arr (a, b)) 2 i) (0, 0) := by
  obtain ⟨y, hy⟩ := csd_exists sampleSensor rfl 1 (fun _ => (0, 0)) a b a b 0 0 i
  refine ⟨y, ⟨_, _, _, hy⟩, ?_⟩
  obtain ⟨τ, sim, a1, b1, a2, b2, w1, w2, res, s, s', csd, occ, lead, hs, h2, h3, hm, hv0, ho, hb, hw, hp⟩ := hy
  have e := csd_signal hs h2 h3 (Or.inl rfl) hm ho hp
  have hne := hb.1 ⟨hab, hab⟩
  rw [← hw, sampleSensor_csdOff _ _ _ _ hne.1 hne.2] at e
  simp only [Prod.mk.injEq] at hv0
  rw [e, ← hv0.1, ← hv0.2, two_mul a]

theorem sampleSensor_scan (v1 v2 : ℝ) : ∃ y, ScanShows sampleSensor (0, 0) (v1, v2) (0, 0) y ∧
    y = signalFrom sampleSensor (2 * sampleSensor.barrier1.fullyConductive - 2 * v1) (0, 0) (v1, v2) (0, 0) := by
  obtain ⟨y, hy⟩ := scan_exists sampleSensor rfl [] rfl 1 v1 v2 (0, 1) (0, 1) 0
  have hw : (argVoltage (.arr (0, 1)) (1 + 1) ((0 : Fin 2) : ℕ), argVoltage (.arr (0, 1)) (1 + 1) ((0 : Fin 2) : ℕ)) = ((0, 0) : ℝ × ℝ) := by
    simp [argVoltage]
  rw [hw] at hy
  refine ⟨y, hy, ?_⟩
  obtain ⟨τ, sim, w1, w2, g1, g2, res, s, s', scan, m1, m2, hs, h2, h3, hm, ho, hv, hp⟩ := hy
  obtain ⟨q, e⟩ := scan_signal (by rw [hs]; rfl) h2 h3 hm ho hp
  have hv1 := congrArg Prod.fst hv
  simp only at hv1
  rw [hs, ← hv, ← hv1, sampleSensor_scanOff] at e
  exact e

end SimCATS
