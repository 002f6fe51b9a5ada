import Verif.Spec.ScanSignal
import Verif.Props.SensorScan
import Verif.Props.Pipeline

/-! Property C71: potentials and signal of sensors with barriers. -/

namespace SimCATS

open Spec

theorem lims_voltage (a : VoltArg) (n : ℕ) (i : Fin n) : linspace a.lims.1 a.lims.2 n i = argVoltage a n i := by
  cases a with
  | none => simp [VoltArg.lims, linspace, linAt, argVoltage]
  | num b v => simp [VoltArg.lims, linspace, linAt, argVoltage]
  | arr g => exact linspace_sweep g n i

theorem mu_at (s : ScanSensor) (k : Fin 3) (o v w : ℝ × ℝ) : s.mu k o v w = potentialAt s k o v w := by
  unfold ScanSensor.mu potentialAt dot2
  ring

theorem series_inSeries (a b c : ℝ) : series a b c = inSeries a b c := by
  unfold inSeries
  by_cases h : a = 0 ∨ b = 0 ∨ c = 0
  · rw [if_pos h, C23_zero a b c h]
  · rw [if_neg h]
    push Not at h
    obtain ⟨ha, hb, hc⟩ := h
    have e : 1 / a + 1 / b + 1 / c = (b * c + a * b + a * c) / (a * b * c) := by
      field_simp
      ring
    unfold series
    rw [e, one_div_div]
    split_ifs with h0
    · rfl
    · rw [not_ne_iff] at h0
      rw [h0, div_zero]

/-- C71 (2D potentials): if not both kinds of gates are swept, every pixel gets the lever arm sums of its occupation and of its gate
voltages, for the sensor dot and both barriers; gates 1 vary along the columns and gates 2 along the rows. -/
theorem C71_potential_2d (s : ScanSensor) (r c : ℕ) (hr : r ≠ 0) (hc : c ≠ 0) (occ : Fin r → Fin c → ℝ × ℝ) (g1 g2 s1 s2 : VoltArg)
    (hsw : (g1.isArr = false ∧ g2.isArr = false) ∨ (s1.isArr = false ∧ s2.isArr = false)) (st : Option ScanState) :
    (s.potential (.d2 r c occ) g1 g2 s1 s2 st).1 = .ok (.d2 r c fun i j k => potentialAt s k (occ i j)
      (argVoltage g1 c j, argVoltage g2 r i) (argVoltage s1 c j, argVoltage s2 r i)) := by
  have hb : ((g1.isArr || g2.isArr) && (s1.isArr || s2.isArr)) = false := by
    rcases hsw with ⟨h1, h2⟩ | ⟨h1, h2⟩ <;> rw [h1, h2] <;> simp
  simp only [ScanSensor.potential, hb, Bool.false_eq_true, if_false, ScanSensor.potentialArray, lims_voltage, mu_at]
  rw [if_neg (by simp [hr, hc])]

/-- C71 (1D potentials): all gates are swept together. -/
theorem C71_potential_1d (s : ScanSensor) (n : ℕ) (hn : n ≠ 0) (occ : Fin n → ℝ × ℝ) (g1 g2 s1 s2 : VoltArg)
    (hsw : (g1.isArr = false ∧ g2.isArr = false) ∨ (s1.isArr = false ∧ s2.isArr = false)) (st : Option ScanState) :
    (s.potential (.d1 n occ) g1 g2 s1 s2 st).1 = .ok (.d1 n fun i k => potentialAt s k (occ i)
      (argVoltage g1 n i, argVoltage g2 n i) (argVoltage s1 n i, argVoltage s2 n i)) := by
  have hb : ((g1.isArr || g2.isArr) && (s1.isArr || s2.isArr)) = false := by
    rcases hsw with ⟨h1, h2⟩ | ⟨h1, h2⟩ <;> rw [h1, h2] <;> simp
  simp only [ScanSensor.potential, hb, Bool.false_eq_true, if_false, ScanSensor.potentialArray, lims_voltage, mu_at]
  rw [if_neg hn]

/-- C71: sweeping a plunger gate together with a sensor gate raises `ValueError` and leaves the sensor as it was. -/
theorem C71_rejects (s : ScanSensor) (occ : Scan (ℝ × ℝ)) (g1 g2 s1 s2 : VoltArg) (h : g1.isArr = true ∨ g2.isArr = true)
    (h' : s1.isArr = true ∨ s2.isArr = true) (st : Option ScanState) :
    s.potential occ g1 g2 s1 s2 st = (.error .valueError, st) := by
  have hb : ((g1.isArr || g2.isArr) && (s1.isArr || s2.isArr)) = true := by
    rw [Bool.and_eq_true, Bool.or_eq_true, Bool.or_eq_true]
    exact ⟨h, h'⟩
  cases occ <;> simp only [ScanSensor.potential, hb, if_true]

/-- Non-vacuity: a 2D scan of the sensor gates at fixed plunger voltages, and one of the plunger gates. -/
example (s : ScanSensor) (occ : Fin 3 → Fin 4 → ℝ × ℝ) :
    (s.potential (.d2 3 4 occ) (.num true (-0.1)) .none (.arr (0, 1)) (.arr (1, 0)) none).1 = .ok (.d2 3 4 fun i j k =>
      potentialAt s k (occ i j) (-0.1, 0) (argVoltage (.arr (0, 1)) 4 j, argVoltage (.arr (1, 0)) 3 i)) ∧
    s.potential (.d2 3 4 occ) (.num true 0) (.arr (0, 1)) .none (.arr (0, 1)) none = (.error .valueError, none) :=
  ⟨C71_potential_2d s 3 4 (by norm_num) (by norm_num) occ _ _ _ _ (Or.inl ⟨rfl, rfl⟩) none,
    C71_rejects s _ _ _ _ _ (Or.inr rfl) (Or.inr rfl) none⟩

theorem plain_signal (s : ScanSensor) (mu : ℝ) : s.plainResponse mu = match s.peaks with
    | none => mu
    | some ps => (ps.map fun p => peakSignal p mu).sum := by
  unfold ScanSensor.plainResponse
  cases s.peaks with
  | none => rfl
  | some ps => simp only [sumPeaks, peak_eval_signal]

theorem signal_at (s : ScanSensor) (o v w : ℝ × ℝ) (m : Fin 3 → ℝ) (hm : ∀ k, m k = potentialAt s k o v w) :
    series (s.plainResponse (m 0)) (s.barrier1.value (m 1)) (s.barrier2.value (m 2)) = scanSignal s o v w := by
  rw [series_inSeries, plain_signal, hm, hm, hm]
  rfl

theorem fromRows_potRows (mu : Scan (Fin 3 → ℝ)) : fromRows (potRows mu) = .ok mu := by
  have hv : ∀ m : Fin 3 → ℝ, ![m 0, m 1, m 2] = m := by
    intro m
    funext k
    fin_cases k <;> rfl
  cases mu <;> simp [fromRows, potRows, Scan.map, Scan.zip, hv]

theorem onSensor_iff {τ α : Type} {x : SM α} {s s' : Option ScanState × τ} {a : α} :
    (onSensor x : M (Option ScanState × τ) α) s = (.ok a, s') ↔ x s.1 = (.ok a, s'.1) ∧ s'.2 = s.2 := by
  unfold onSensor
  cases hx : x s.1 with
  | mk r st =>
    obtain ⟨a', b'⟩ := s'
    simp only [Prod.mk.injEq]
    constructor
    · rintro ⟨rfl, rfl, rfl⟩
      exact ⟨⟨rfl, rfl⟩, rfl⟩
    · rintro ⟨⟨rfl, rfl⟩, rfl⟩
      exact ⟨rfl, rfl, rfl⟩

theorem potential_some {s : ScanSensor} {occ : Scan (ℝ × ℝ)} {g1 g2 s1 s2 : VoltArg} {st t : Option ScanState}
    {mu : Scan (Fin 3 → ℝ)} (h : s.potential occ g1 g2 s1 s2 st = (.ok mu, t)) : ∃ x, t = some x := by
  unfold ScanSensor.potential at h
  cases occ with
  | d0 x => simp at h
  | d1 n f =>
    simp only at h
    split_ifs at h with hb
    · simp at h
    · exact ⟨_, (Prod.mk.inj h).2.symm⟩
  | d2 r c f =>
    simp only at h
    split_ifs at h with hb
    · simp at h
    · exact ⟨_, (Prod.mk.inj h).2.symm⟩

theorem voltOfOption_isArr (a : Option ℝ) : (voltOfOption a).isArr = false := by cases a <;> rfl

theorem voltOfOption_voltage (a : Option ℝ) (n i : ℕ) : argVoltage (voltOfOption a) n i = a.getD 0 := by cases a <;> rfl

theorem response_plain {s : ScanSensor} (hr : s.rise = none) {mu : Scan (Fin 3 → ℝ)} {st t : Option ScanState}
    (hd : s.defs = [] ∨ ∀ x, st = some x → x.onlySensor = false) {out : Scan ℝ} (h : s.response mu st = (.ok out, t)) :
    out = mu.map fun m => series (s.plainResponse (m 0)) (s.barrier1.value (m 1)) (s.barrier2.value (m 2)) := by
  cases st with
  | none =>
    unfold ScanSensor.response ScanSensor.dotResponse at h
    rw [bind_assoc, M.bind_run] at h
    simp [getState] at h
  | some st =>
    have hb : (!s.defs.isEmpty && st.onlySensor) = false := by
      rcases hd with hd | hd
      · rw [hd]; rfl
      · rw [hd st rfl, Bool.and_false]
    unfold ScanSensor.response ScanSensor.dotResponse at h
    rw [bind_assoc, M.bind_run, getState_run] at h
    simp only [hb, Bool.false_eq_true, if_false, hr] at h
    rw [M.bind_run, M.pure_run] at h
    simp only at h
    rw [M.bind_run, ofPy_run, Scan.zip_map_self] at h
    simp only [M.pure_run, Scan.map_map] at h
    cases h
    rfl

theorem potential_state {s : ScanSensor} {occ : Scan (ℝ × ℝ)} {g1 g2 s1 s2 : VoltArg} {st : Option ScanState} {x : ScanState}
    {mu : Scan (Fin 3 → ℝ)} (h : s.potential occ g1 g2 s1 s2 st = (.ok mu, some x)) : x.g1 = g1.lims ∧ x.g2 = g2.lims := by
  unfold ScanSensor.potential at h
  cases occ with
  | d0 x => simp at h
  | d1 n f =>
    simp only at h
    split_ifs at h with hb
    · simp at h
    · have := Option.some.inj (Prod.mk.inj h).2
      rw [← this]
      exact ⟨rfl, rfl⟩
  | d2 r c f =>
    simp only at h
    split_ifs at h with hb
    · simp at h
    · have := Option.some.inj (Prod.mk.inj h).2
      rw [← this]
      exact ⟨rfl, rfl⟩

/-- C71 (CSD): a measurement with a sensor with barriers, without final rise, and potential and response distortions: the
signal of every pixel is that of the returned occupations, the voltages of the pixel and the fixed voltages of the sensor gates (0 if
they are not given). Peak deformations have no influence if a plunger gate is swept. -/
theorem C71_measure {τ : Type} (sim : Simulation (Option ScanState × τ)) (sens : ScanSensor) (hsens : sim.sensor = sens.toSensor)
    (hr : sens.rise = none) (h2 : sim.potD = none) (h3 : sim.respD = none) (a1 b1 a2 b2 : ℝ)
    (hd : sens.defs = [] ∨ a1 ≠ b1 ∨ a2 ≠ b2) (w1 w2 : Option ℝ) (res : Resolution) (s s' : Option ScanState × τ) (csd : Scan ℝ) (occ : Scan (ℝ × ℝ)) (lead : Scan ℕ)
    (h : measure sim ⟨[a1, b1], [a2, b2], w1, w2, res⟩ s = (.ok (csd, occ, lead), s')) :
    (∃ n o, occ = .d1 n o ∧ csd = .d1 n fun i => scanSignal sens (o i)
      (argVoltage (.arr (a1, b1)) n i, argVoltage (.arr (a2, b2)) n i) (w1.getD 0, w2.getD 0)) ∨
    ∃ r c o, occ = .d2 r c o ∧ csd = .d2 r c fun i j => scanSignal sens (o i j)
      (argVoltage (.arr (a1, b1)) c j, argVoltage (.arr (a2, b2)) r i) (w1.getD 0, w2.getD 0) := by
  obtain ⟨g1, g2, gen, hm, hg, -⟩ := measure_ok h
  have hck : measureCheck sim.lim true ⟨[a1, b1], [a2, b2], w1, w2, res⟩ = .ok (g1, g2) := by
    rw [hg] at hm
    exact hm
  obtain ⟨e1, e2⟩ := C02_ranges _ _ _ _ _ hm
  simp only [List.cons.injEq, and_true] at e1 e2
  obtain ⟨rfl, rfl⟩ := e1
  obtain ⟨rfl, rfl⟩ := e2
  rw [C69_measure sim _ _ _ _ hg hck] at h
  rw [h2, h3, hsens] at h
  obtain ⟨ideal, gen', pot, pot', resp, s1, s2, s3, s4, s5, k1, k2, k3, k4, k5, k6⟩ := h
  rw [Option.getD_none, ← applySig_iff] at k6
  simp only [applySig, M.pure_run, Prod.mk.injEq, Except.ok.injEq] at k6
  obtain ⟨rfl, rfl⟩ := k6
  rw [← distortPotential_iff (ds := none)] at k4
  simp only [distortPotential, M.pure_run, Prod.mk.injEq, Except.ok.injEq] at k4
  obtain ⟨rfl, rfl⟩ := k4
  simp only [ScanSensor.toSensor, if_true, Option.getD_some, M.bind_ok, M.pure_run, Prod.mk.injEq, Except.ok.injEq] at k3
  obtain ⟨mu, t, k3, rfl, rfl⟩ := k3
  simp only [ScanSensor.toSensor, fromRows_potRows, M.bind_ok, ofPy_run, Prod.mk.injEq, Except.ok.injEq] at k5
  obtain ⟨mu', t', ⟨rfl, rfl⟩, k5⟩ := k5
  rw [onSensor_iff] at k3 k5
  have hresp := response_plain hr (hd.imp_right fun hne x hx => by
    rw [hx] at k3
    obtain ⟨e1, e2⟩ := potential_state k3.1
    unfold ScanState.onlySensor
    rw [e1, e2, Bool.and_eq_false_iff]
    exact hne.imp (fun h => decide_eq_false h) fun h => decide_eq_false h) k5.1
  have hsw : ((VoltArg.arr g1).isArr = false ∧ (VoltArg.arr g2).isArr = false) ∨
      ((voltOfOption w1).isArr = false ∧ (voltOfOption w2).isArr = false) :=
    Or.inr ⟨voltOfOption_isArr _, voltOfOption_isArr _⟩
  cases occ with
  | d0 x => exact absurd k3.1 (by simp [ScanSensor.potential])
  | d1 n o =>
    left
    refine ⟨n, o, rfl, ?_⟩
    have hn : n ≠ 0 := by
      rintro rfl
      have := k3.1
      unfold ScanSensor.potential at this
      simp only at this
      split_ifs at this
      · simp at this
      · simp [ScanSensor.potentialArray] at this
    have hp := C71_potential_1d sens n hn o (.arr g1) (.arr g2) (voltOfOption w1) (voltOfOption w2) hsw s2.1
    rw [k3.1] at hp
    simp only [Except.ok.injEq] at hp
    subst hp
    rw [hresp]
    simp only [Scan.map, voltOfOption_voltage]
    congr 1
    funext i
    exact signal_at sens _ _ _ _ fun k => rfl
  | d2 r c o =>
    right
    refine ⟨r, c, o, rfl, ?_⟩
    have hn : r ≠ 0 ∧ c ≠ 0 := by
      rw [← not_or]
      intro h0
      have := k3.1
      unfold ScanSensor.potential at this
      simp only at this
      split_ifs at this
      · simp at this
      · simp only [ScanSensor.potentialArray, if_pos h0] at this
        simp at this
    have hp := C71_potential_2d sens r c hn.1 hn.2 o (.arr g1) (.arr g2) (voltOfOption w1) (voltOfOption w2) hsw s2.1
    rw [k3.1] at hp
    simp only [Except.ok.injEq] at hp
    subst hp
    rw [hresp]
    simp only [Scan.map, voltOfOption_voltage]
    congr 1
    funext i j
    exact signal_at sens _ _ _ _ fun k => rfl

/-- Non-vacuity: a measurement of 2 pixels with constant occupations and the sensor gates at 0.1 V and 0.2 V. -/
example : ∃ csd s', measure (⟨⟨none, none, none, none⟩, some fun _ _ _ => pure (.d1 2 fun _ => (1, 0), .d1 2 fun _ => 0),
      (twoPeaks []).toSensor, none, none, none⟩ : Simulation (Option ScanState × Unit)) ⟨[0, 1], [0, 1], some 0.1, some 0.2, .int 2⟩ (none, ()) =
    (.ok (csd, .d1 2 fun _ => (1, 0), .d1 2 fun _ => 0), s') := by
  obtain ⟨mu, x, hx⟩ : ∃ mu x, (twoPeaks []).potential (.d1 2 fun _ => (1, 0)) (.arr (0, 1)) (.arr (0, 1)) (voltOfOption (some 0.1))
      (voltOfOption (some 0.2)) none = (.ok mu, some x) := ⟨_, _, Prod.ext (C71_potential_1d (twoPeaks []) 2 (by norm_num) (fun _ => (1, 0))
        (.arr (0, 1)) (.arr (0, 1)) (voltOfOption (some 0.1)) (voltOfOption (some 0.2)) (Or.inr ⟨rfl, rfl⟩) none) rfl⟩
  refine ⟨mu.map fun m => series ((twoPeaks []).plainResponse (m 0)) ((twoPeaks []).barrier1.value (m 1)) ((twoPeaks []).barrier2.value (m 2)),
    (some x, ()), (C69_measure _ _ _ (0, 1) (0, 1) rfl ?_ _ _ _ _ _).2 ⟨_, _, .multi (potRows mu), .multi (potRows mu), _, (none, ()),
      (none, ()), (some x, ()), (some x, ()), (some x, ()), rfl, rfl, ?_, (distortPotential_iff (ds := none)).1 rfl, ?_, .none _ _⟩⟩
  · simp [measureCheck, rangeOutside, sensorOutside, valueOutside, resCheck]
  · simp only [ScanSensor.toSensor, if_true, Option.getD_some, M.bind_ok, M.pure_run, onSensor_iff, Prod.mk.injEq, Except.ok.injEq]
    exact ⟨_, (some x, ()), ⟨hx, trivial⟩, rfl, rfl⟩
  · simp only [ScanSensor.toSensor, fromRows_potRows, M.bind_ok, ofPy_run, onSensor_iff, Prod.mk.injEq, Except.ok.injEq]
    exact ⟨_, (some x, ()), ⟨rfl, rfl⟩, C23_response (twoPeaks []) rfl rfl _ x, trivial⟩

theorem scanOcc_ok {σ : Type} {gen : Option (Gen σ)} {rq : ScanRequest} {s s' : σ} {occ : Scan (ℝ × ℝ)}
    (h : scanOcc gen rq s = (.ok occ, s')) :
    ∃ o, ScanOccupation gen rq.g1 rq.g2 s o ∧ ((∃ n : ℤ, (rq.res = .int n ∨ rq.res = .arr [n]) ∧ occ = .d1 n.toNat fun _ => o) ∨
      ∃ c r l, rq.res = .arr (c :: r :: l) ∧ occ = .d2 r.toNat c.toNat fun _ _ => o) := by
  have fill : ∀ {res : Resolution} {o : ℝ × ℝ} {occ : Scan (ℝ × ℝ)}, fillOcc o res = .ok occ →
      (∃ n : ℤ, res = .int n ∧ occ = .d1 n.toNat fun _ => o) ∨
        ∃ c r l, res = .arr (c :: r :: l) ∧ occ = .d2 r.toNat c.toNat fun _ _ => o := by
    intro res o occ h
    unfold fillOcc at h
    split at h
    · split_ifs at h
      cases h
      exact Or.inl ⟨_, rfl, rfl⟩
    · split_ifs at h
      cases h
      exact Or.inr ⟨_, _, _, rfl, rfl⟩
    · cases h
  have other : ∀ {P : (ℝ × ℝ) → Prop}, P (0, 0) → (ofPy (fillOcc (0, 0) rq.res) : M σ (Scan (ℝ × ℝ))) s = (.ok occ, s') →
      ∃ o, P o ∧ ((∃ n : ℤ, (rq.res = .int n ∨ rq.res = .arr [n]) ∧ occ = .d1 n.toNat fun _ => o) ∨
        ∃ c r l, rq.res = .arr (c :: r :: l) ∧ occ = .d2 r.toNat c.toNat fun _ _ => o) := by
    intro P hP h
    simp only [ofPy_run, Prod.mk.injEq] at h
    refine ⟨(0, 0), hP, ?_⟩
    rcases fill h.1 with ⟨n', e', h'⟩ | ⟨c, r, l, e', h'⟩
    · exact Or.inl ⟨n', Or.inl e', h'⟩
    · exact Or.inr ⟨c, r, l, e', h'⟩
  obtain ⟨s1, s2, g1, g2, res⟩ := rq
  simp only at *
  by_cases hn : (∃ g, gen = some g) ∧ (∃ b v, g1 = .num b v) ∧ ∃ b v, g2 = .num b v
  · obtain ⟨⟨gen, rfl⟩, ⟨b1, v1, rfl⟩, b2, v2, rfl⟩ := hn
    simp only [scanOcc, M.bind_ok, ofPy_run, Prod.mk.injEq] at h
    obtain ⟨data, t, k1, res', t', ⟨k2, rfl⟩, o, t', ⟨k3, rfl⟩, k4, rfl⟩ := h
    refine ⟨o, ?_, ?_⟩
    · refine ⟨data, _, k1, ?_⟩
      cases hd : data.1 with
      | d0 x => rw [hd] at k3; cases k3
      | d1 n f =>
        left
        rw [hd] at k3
        simp only [firstOcc] at k3
        split_ifs at k3 with hn
        cases k3
        obtain ⟨m, rfl⟩ : ∃ m, n = m + 1 := ⟨n - 1, by omega⟩
        exact ⟨m, f, rfl, rfl⟩
      | d2 r c f =>
        right
        rw [hd] at k3
        simp only [firstOcc] at k3
        split_ifs at k3 with hn
        cases k3
        obtain ⟨m, rfl⟩ : ∃ m, r = m + 1 := ⟨r - 1, by omega⟩
        obtain ⟨m', rfl⟩ : ∃ m, c = m + 1 := ⟨c - 1, by omega⟩
        exact ⟨m, m', f, rfl, rfl⟩
    · unfold lenOneToInt at k2
      split at k2
      · cases k2
      · cases k2
        rcases fill k4 with ⟨n', e', h'⟩ | ⟨c, r, l, e', -⟩
        · cases e'
          exact Or.inl ⟨_, Or.inr rfl, h'⟩
        · cases e'
      · cases k2
        rcases fill k4 with ⟨n', e', h'⟩ | ⟨c, r, l, e', h'⟩
        · cases e'
        · cases e'
          exact Or.inr ⟨c, r, l, rfl, h'⟩
  · cases gen with
    | none => exact other rfl h
    | some gen =>
      cases g1 with
      | none => exact other rfl h
      | arr g => exact other rfl h
      | num b v =>
        cases g2 with
        | none => exact other rfl h
        | arr g => exact other rfl h
        | num b' v' => exact absurd ⟨⟨gen, rfl⟩, ⟨b, v, rfl⟩, b', v', rfl⟩ hn

/-- C71 (sensor scans): without deformations, final rise and distortions, the signal of every pixel of a sensor scan is that of the
occupation at the fixed plunger voltages, these voltages, and the sensor gate voltages of the pixel. -/
theorem C71_scan {τ : Type} (sim : ScanSim τ) (hd : sim.sensor.defs = []) (hr : sim.sensor.rise = none) (h2 : sim.potD = none)
    (h3 : sim.respD = none) (rq : ScanRequest) (s s' : Option ScanState × τ) (scan : Scan ℝ) (m1 m2 : Scan ℕ)
    (h : measureSensorScan sim rq s = (.ok (scan, m1, m2), s')) :
    ∃ w1 w2 : ℝ × ℝ, rq.s1 = [w1.1, w1.2] ∧ rq.s2 = [w2.1, w2.2] ∧ ∃ o, ScanOccupation sim.gen rq.g1 rq.g2 s o ∧
      ((∃ n : ℕ, (rq.res = .int n ∨ rq.res = .arr [(n : ℤ)]) ∧ scan = .d1 n fun i => scanSignal sim.sensor o
        (argVoltage rq.g1 1 0, argVoltage rq.g2 1 0) (argVoltage (.arr w1) n i, argVoltage (.arr w2) n i)) ∨
      ∃ r c : ℕ, rq.res = .arr [(c : ℤ), (r : ℤ)] ∧ scan = .d2 r c fun i j => scanSignal sim.sensor o
        (argVoltage rq.g1 1 0, argVoltage rq.g2 1 0) (argVoltage (.arr w1) c j, argVoltage (.arr w2) r i)) := by
  unfold measureSensorScan at h
  cases hc : scanCheck sim.lim true rq with
  | error e => rw [hc] at h; simp at h
  | ok g =>
    obtain ⟨w1, w2⟩ := g
    have hw : ScanWellFormed sim.lim true rq := (C51_accepts sim.lim true rq).1.2 ⟨_, hc⟩
    have hr12 : rq.s1 = [w1.1, w1.2] ∧ rq.s2 = [w2.1, w2.2] := scanCheck_ranges _ _ _ _ _ hc
    rw [hc] at h
    simp only at h
    unfold scanRun at h
    simp only [M.bind_ok] at h
    obtain ⟨occ, t1, e1, mu, t2, e2, mu0, t3, e3, masks, t4, e4, mu', t5, e5, scan0, t6, e6, scan1, t7, e7, e8⟩ := h
    rw [h2] at e5
    simp only [distortScanPot, M.pure_run, Prod.mk.injEq, Except.ok.injEq] at e5
    obtain ⟨rfl, rfl⟩ := e5
    rw [h3] at e7
    simp only [distortResponse, M.pure_run, Prod.mk.injEq, Except.ok.injEq] at e7 e8
    obtain ⟨rfl, rfl⟩ := e7
    obtain ⟨⟨rfl, -, -⟩, rfl⟩ := e8
    rw [onSensor_iff] at e2 e6
    have hresp := response_plain hr (Or.inl hd) e6.1
    have fixedV : ∀ {a : VoltArg} (n i : ℕ), a.isArr = false → argVoltage a n i = argVoltage a 1 0 := by
      intro a n i ha
      cases a with
      | none => rfl
      | num b v => rfl
      | arr g => cases ha
    have hna : rq.g1.isArr = false ∧ rq.g2.isArr = false := by
      rw [← Bool.not_eq_true, ← Bool.not_eq_true, ← not_or]
      intro hh
      rw [C71_rejects sim.sensor occ rq.g1 rq.g2 (.arr w1) (.arr w2) hh (Or.inl rfl)] at e2
      simp at e2
    obtain ⟨o, ho, hocc⟩ := scanOcc_ok e1
    refine ⟨w1, w2, hr12.1, hr12.2, o, ho, ?_⟩
    rcases hocc with ⟨n, hres, rfl⟩ | ⟨c, r, l, hres, rfl⟩
    · left
      have hn : n.toNat ≠ 0 := by
        intro h0
        have := e2.1
        unfold ScanSensor.potential at this
        simp only at this
        split_ifs at this
        · simp at this
        · simp [ScanSensor.potentialArray, h0] at this
      have hn' : (n.toNat : ℤ) = n := by omega
      refine ⟨n.toNat, by rw [hn']; exact hres, ?_⟩
      have hp := C71_potential_1d sim.sensor n.toNat hn (fun _ => o) rq.g1 rq.g2 (.arr w1) (.arr w2) (Or.inl hna) t1.1
      rw [e2.1] at hp
      simp only [Except.ok.injEq] at hp
      subst hp
      rw [hresp]
      simp only [Scan.map]
      congr 1
      funext i
      rw [← fixedV n.toNat i hna.1, ← fixedV n.toNat i hna.2]
      exact signal_at sim.sensor _ _ _ _ fun k => rfl
    · right
      have hl : l = [] := by
        have := hw.res
        rw [hres] at this
        simp only [Resolution.entries, List.length_cons] at this
        exact List.eq_nil_of_length_eq_zero (by omega)
      subst hl
      have hn : r.toNat ≠ 0 ∧ c.toNat ≠ 0 := by
        rw [← not_or]
        intro h0
        have := e2.1
        unfold ScanSensor.potential at this
        simp only at this
        split_ifs at this
        · simp at this
        · simp only [ScanSensor.potentialArray, if_pos h0] at this
          simp at this
      have hn1 : (r.toNat : ℤ) = r := by omega
      have hn2 : (c.toNat : ℤ) = c := by omega
      refine ⟨r.toNat, c.toNat, by rw [hn1, hn2]; exact hres, ?_⟩
      have hp := C71_potential_2d sim.sensor r.toNat c.toNat hn.1 hn.2 (fun _ _ => o) rq.g1 rq.g2 (.arr w1) (.arr w2) (Or.inl hna) t1.1
      rw [e2.1] at hp
      simp only [Except.ok.injEq] at hp
      subst hp
      rw [hresp]
      simp only [Scan.map]
      congr 1
      funext i j
      rw [← fixedV c.toNat j hna.1, ← fixedV r.toNat i hna.2]
      exact signal_at sim.sensor _ _ _ _ fun k => rfl

/-- Non-vacuity: a sensor scan of 2 pixels. -/
example : ∃ out t, measureSensorScan (⟨⟨none, none, none, none⟩, none, twoPeaks [], none, none, none⟩ : ScanSim Unit)
    ⟨[-1 / 2, 1], [0, 2], .none, .none, .int 2⟩ (none, ()) = (.ok out, t) := by
  let s : ScanSensor := twoPeaks []
  let sim : ScanSim Unit := ⟨⟨none, none, none, none⟩, none, s, none, none, none⟩
  have hchk : scanCheck sim.lim true ⟨[-1 / 2, 1], [0, 2], .none, .none, .int 2⟩ = .ok ((-1 / 2, 1), (0, 2)) := by
    simp [scanCheck, sim, rangeOutside, fixedIn2d, fixedOutside, scanResCheck, VoltArg.isNone]
  set mu : Fin 2 → Fin 3 → ℝ := fun i k => s.mu k (0, 0) (linspace 0 0 2 i, linspace 0 0 2 i)
    (linspace (-1 / 2) 1 2 i, linspace 0 2 2 i) with hmu
  have hpot : ∀ st, s.potential (.d1 2 fun _ => (0, 0)) .none .none (.arr (-1 / 2, 1)) (.arr (0, 2)) st =
      (.ok (.d1 2 mu), some ⟨(0, 0), (0, 0), (-1 / 2, 1), (0, 2), .d1 2 fun _ => (0, 0)⟩) := by
    intro st
    simp only [ScanSensor.potential, VoltArg.isArr, Bool.or_self, Bool.false_and, Bool.false_eq_true, if_false,
      ScanSensor.potentialArray, VoltArg.lims]
    rw [if_neg (by norm_num)]
  have hpt : s.calcPoint ⟨(0, 0), (0, 0), (-1 / 2, 1), (0, 2), .d1 2 fun _ => (0, 0)⟩ 10 10 true = .ok (10, 10) :=
    twoPeaks_point [] ⟨(0, 0), (0, 0), (-1 / 2, 1), (0, 2), .d1 2 fun _ => (0, 0)⟩ 10 rfl
  have hlab := labels_run_1d s .none .none (-1 / 2, 1) (0, 2) 2 mu
    ⟨(0, 0), (0, 0), (-1 / 2, 1), (0, 2), .d1 2 fun _ => (0, 0)⟩ (0, 0) (10, 10) (0, 0) _ rfl hpt rfl rfl rfl rfl
  have hresp := C23_response s rfl rfl (.d1 2 mu) ⟨VoltArg.none.lims, VoltArg.none.lims, (10, 10), (10, 10), .d1 1 fun _ => (0, 0)⟩
  change ∃ out t, measureSensorScan sim _ _ = _
  unfold measureSensorScan
  rw [hchk]
  simp only
  unfold scanRun
  have hocc : scanOcc sim.gen ⟨[-1 / 2, 1], [0, 2], .none, .none, .int 2⟩ (none, ()) = (.ok (.d1 2 fun _ => (0, 0)), (none, ())) := rfl
  rw [M.bind_run, hocc]
  simp only
  rw [M.bind_run, onSensor_ok (hpot _)]
  simp only
  rw [M.bind_run, onSensor_ok (hpot _)]
  simp only
  rw [M.bind_run, onSensor_ok hlab]
  simp only
  rw [M.bind_run]
  have hd : ∀ m (t : Option ScanState × Unit), distortScanPot (-1 / 2, 1) (0, 2) sim.potD m t = (.ok m, t) := fun m t => rfl
  rw [hd]
  simp only
  rw [M.bind_run, onSensor_ok hresp]
  exact ⟨_, _, rfl⟩

end SimCATS
