import Verif.Model.SensorScan
import Verif.Props.Labels

/-! Properties C26, C27, C28, C51 and C52 of sensor scans (`Simulation.measure_sensor_scan`). -/

namespace SimCATS

open Spec

/-! ### C51: validation of sensor scans -/

/-- A sensor scan that a user of the documentation expects to be accepted. -/
structure ScanWellFormed (lim : Limits) (isScan : Bool) (rq : ScanRequest) : Prop where
  sensor : isScan = true
  len1 : rq.s1.length = 2
  len2 : rq.s2.length = 2
  lim1 : RangeWithin lim.s1 rq.s1
  lim2 : RangeWithin lim.s2 rq.s2
  plunger1 : ∀ b x, rq.g1 = .num b x → Within lim.g1 x
  plunger2 : ∀ b x, rq.g2 = .num b x → Within lim.g2 x
  both : rq.g1 = .none ↔ rq.g2 = .none
  res : rq.res.entries.length ≤ 2
  sweeps : Sweeps2d rq.s1 rq.s2 rq.res.entries

theorem fixedOutside_false {lim : Option (ℝ × ℝ)} {v : VoltArg} :
    fixedOutside lim v = false ↔ ∀ b x, v = .num b x → Within lim x := by
  cases lim with
  | none => simp [fixedOutside, Within]
  | some l =>
    cases v with
    | none => simp [fixedOutside]
    | arr a => simp [fixedOutside]
    | num b x => simp [fixedOutside, Within]

theorem VoltArg.isNone_iff {v : VoltArg} : v.isNone = true ↔ v = .none := by cases v <;> simp [VoltArg.isNone]

theorem scanRes_ok {a1 b1 a2 b2 : ℝ} {res : Resolution} : (¬ fixedIn2d (a1, b1) (a2, b2) res ∧ scanResCheck res = .ok ()) ↔
    res.entries.length ≤ 2 ∧ Sweeps2d [a1, b1] [a2, b2] res.entries := by
  cases res with
  | int n => simp [fixedIn2d, scanResCheck, Resolution.entries, Sweeps2d]
  | arr ns =>
    rcases ns with _ | ⟨a, _ | ⟨b, _ | ⟨c, ns⟩⟩⟩
    · simp [fixedIn2d, scanResCheck, Resolution.entries, Sweeps2d]
    · simp [fixedIn2d, scanResCheck, Resolution.entries, Sweeps2d]
    · simp only [fixedIn2d, scanResCheck, Resolution.entries, Sweeps2d, List.length_cons, List.length_nil, zero_add,
        Nat.reduceAdd, true_and, le_refl, forall_true_left, gt_iff_lt, lt_self_iff_false, if_false, not_or,
        List.mem_cons, List.not_mem_nil, or_false, forall_eq_or_imp, forall_eq, List.getElem?_cons_zero,
        List.getElem?_cons_succ, ne_eq, Option.some.injEq]
      split_ifs with h
      · simp only [and_false, false_iff, not_and]
        omega
      · simp only [and_true]
        constructor
        · exact fun hh => ⟨by omega, hh⟩
        · exact fun hh => hh.2
    · simp [fixedIn2d, scanResCheck, Resolution.entries, Sweeps2d]

theorem scanResCheck_error {res : Resolution} {e : PyErr} (h : scanResCheck res = .error e) : e = .valueError := by
  unfold scanResCheck at h
  split at h
  · cases h
  · split at h
    · cases h; rfl
    · split at h
      · split at h
        · cases h; rfl
        · cases h
      · cases h

/-- C51: a sensor scan is accepted exactly if it is well formed; otherwise it is rejected with `ValueError`. -/
theorem C51_accepts (lim : Limits) (isScan : Bool) (rq : ScanRequest) :
    (ScanWellFormed lim isScan rq ↔ ∃ g, scanCheck lim isScan rq = .ok g) ∧
    (¬ ScanWellFormed lim isScan rq ↔ scanCheck lim isScan rq = .error .valueError) := by
  have key : (ScanWellFormed lim isScan rq ∧ ∃ g, scanCheck lim isScan rq = .ok g) ∨
      (¬ ScanWellFormed lim isScan rq ∧ scanCheck lim isScan rq = .error .valueError) := by
    unfold scanCheck
    by_cases hs : isScan = false
    · rw [if_pos hs]
      exact Or.inr ⟨fun h => absurd (h.sensor.symm.trans hs) (by decide), rfl⟩
    rw [if_neg hs]
    by_cases hl : rq.s1.length = 2 ∧ rq.s2.length = 2
    · obtain ⟨a1, b1, e1⟩ := length_two hl.1
      obtain ⟨a2, b2, e2⟩ := length_two hl.2
      rw [e1, e2]
      simp only
      by_cases hr : rangeOutside lim.s1 (a1, b1) = true ∨ rangeOutside lim.s2 (a2, b2) = true
      · rw [if_pos hr]
        refine Or.inr ⟨fun h => ?_, rfl⟩
        have h1 := rangeOutside_false.2 (e1 ▸ h.lim1)
        have h2 := rangeOutside_false.2 (e2 ▸ h.lim2)
        rw [h1, h2] at hr
        simp at hr
      rw [if_neg hr]
      push Not at hr
      have r1 := rangeOutside_false.1 (Bool.eq_false_iff.2 hr.1)
      have r2 := rangeOutside_false.1 (Bool.eq_false_iff.2 hr.2)
      by_cases hf : fixedIn2d (a1, b1) (a2, b2) rq.res
      · rw [if_pos hf]
        refine Or.inr ⟨fun h => ?_, rfl⟩
        have := (scanRes_ok (a1 := a1) (b1 := b1) (a2 := a2) (b2 := b2)).2 ⟨h.res, e1 ▸ e2 ▸ h.sweeps⟩
        exact this.1 hf
      rw [if_neg hf]
      by_cases hp : fixedOutside lim.g1 rq.g1 = true ∨ fixedOutside lim.g2 rq.g2 = true
      · rw [if_pos hp]
        refine Or.inr ⟨fun h => ?_, rfl⟩
        rw [fixedOutside_false.2 h.plunger1, fixedOutside_false.2 h.plunger2] at hp
        simp at hp
      rw [if_neg hp]
      push Not at hp
      have p1 := fixedOutside_false.1 (Bool.eq_false_iff.2 hp.1)
      have p2 := fixedOutside_false.1 (Bool.eq_false_iff.2 hp.2)
      by_cases hb : rq.g1.isNone ≠ rq.g2.isNone
      · rw [if_pos hb]
        refine Or.inr ⟨fun h => hb ?_, rfl⟩
        rw [Bool.eq_iff_iff, VoltArg.isNone_iff, VoltArg.isNone_iff]
        exact h.both
      rw [if_neg hb]
      push Not at hb
      rw [Bool.eq_iff_iff, VoltArg.isNone_iff, VoltArg.isNone_iff] at hb
      cases hc : scanResCheck rq.res with
      | error e =>
        rw [scanResCheck_error hc]
        refine Or.inr ⟨fun h => ?_, rfl⟩
        have := (scanRes_ok (a1 := a1) (b1 := b1) (a2 := a2) (b2 := b2)).2 ⟨h.res, e1 ▸ e2 ▸ h.sweeps⟩
        rw [hc] at this
        simp at this
      | ok u =>
        have := (scanRes_ok (a1 := a1) (b1 := b1) (a2 := a2) (b2 := b2)).1 ⟨hf, hc⟩
        exact Or.inl ⟨⟨by simpa using hs, hl.1, hl.2, e1 ▸ r1, e2 ▸ r2, p1, p2, hb, this.1, by rw [e1, e2]; exact this.2⟩, _, rfl⟩
    · refine Or.inr ⟨fun h => hl ⟨h.len1, h.len2⟩, ?_⟩
      split
      · rename_i a1 b1 a2 b2 e1 e2
        rw [e1, e2] at hl
        simp at hl
      · rfl
  rcases key with ⟨h1, h2⟩ | ⟨h1, h2⟩
  · refine ⟨⟨fun _ => h2, fun _ => h1⟩, ⟨fun h => absurd h1 h, fun h => ?_⟩⟩
    obtain ⟨g, hg⟩ := h2
    rw [hg] at h
    cases h
  · refine ⟨⟨fun h => absurd h h1, fun ⟨g, hg⟩ => ?_⟩, ⟨fun _ => h2, fun _ => h1⟩⟩
    rw [h2] at hg
    cases hg

theorem scanCheck_ranges (lim : Limits) (isScan : Bool) (rq : ScanRequest) (s1 s2 : ℝ × ℝ)
    (h : scanCheck lim isScan rq = .ok (s1, s2)) : rq.s1 = [s1.1, s1.2] ∧ rq.s2 = [s2.1, s2.2] := by
  unfold scanCheck at h
  split at h
  · cases h
  split at h
  · rename_i a1 b1 a2 b2 e1 e2
    split at h
    · cases h
    split at h
    · cases h
    split at h
    · cases h
    split at h
    · cases h
    split at h
    · cases h
    · cases h
      exact ⟨e1, e2⟩
  · cases h

/-- C51: a rejected sensor scan has no effect on the sensor and the rest of the simulation. -/
theorem C51_no_effect {τ : Type} (sim : ScanSim τ) (rq : ScanRequest) (h : ¬ ScanWellFormed sim.lim true rq)
    (s : Option ScanState × τ) : measureSensorScan sim rq s = (.error .valueError, s) := by
  unfold measureSensorScan
  rw [(C51_accepts sim.lim true rq).2.1 h]
  rfl

/-- C51: if `measure_sensor_scan` returns data, all sensor voltages of all pixels and the plunger voltages respect the
limits. -/
theorem C51_within {τ : Type} (sim : ScanSim τ) (rq : ScanRequest) (s s' : Option ScanState × τ)
    (out : Scan ℝ × Scan ℕ × Scan ℕ) (h : measureSensorScan sim rq s = (.ok out, s')) :
    (∀ b x, rq.g1 = .num b x → Within sim.lim.g1 x) ∧ (∀ b x, rq.g2 = .num b x → Within sim.lim.g2 x) ∧
    ∃ s1 s2 : ℝ × ℝ, rq.s1 = [s1.1, s1.2] ∧ rq.s2 = [s2.1, s2.2] ∧
      ∀ (n : ℕ) (i : Fin n), Within sim.lim.s1 (sweepVolt s1 n i) ∧ Within sim.lim.s2 (sweepVolt s2 n i) := by
  have hw : ScanWellFormed sim.lim true rq := by
    by_contra hn
    rw [C51_no_effect sim rq hn] at h
    cases h
  obtain ⟨⟨s1, s2⟩, hg⟩ := (C51_accepts sim.lim true rq).1.1 hw
  obtain ⟨e1, e2⟩ := scanCheck_ranges _ _ _ _ _ hg
  refine ⟨hw.plunger1, hw.plunger2, s1, s2, e1, e2, fun n i => ⟨fun l hl => ?_, fun l hl => ?_⟩⟩
  · have a := hw.lim1 s1.1 (by simp [e1]) l hl
    have b := hw.lim1 s1.2 (by simp [e1]) l hl
    obtain ⟨c, d⟩ := sweepVolt_mem s1 n i
    exact ⟨le_trans (le_min a.1 b.1) c, le_trans d (max_le a.2 b.2)⟩
  · have a := hw.lim2 s2.1 (by simp [e2]) l hl
    have b := hw.lim2 s2.2 (by simp [e2]) l hl
    obtain ⟨c, d⟩ := sweepVolt_mem s2 n i
    exact ⟨le_trans (le_min a.1 b.1) c, le_trans d (max_le a.2 b.2)⟩

/-- Non-vacuity: a 2D sensor scan with limits and plunger voltages. -/
example : ScanWellFormed ⟨some (-1, 1), none, some (0, 2), none⟩ true
    ⟨[0, 1], [1, 0], .num true 0, .num true 5, .arr [100, 50]⟩ := by
  constructor <;> simp [RangeWithin, Within, Resolution.entries, Sweeps2d]

/-! ### C27: forms of the resolution -/

/-- C27, the part that holds: with a CSD configuration and plunger voltages, a one-element array works and gives the same
occupation at all pixels, that of the CSD at the plunger voltages; without configuration an `int` works. -/
theorem C27_partial {σ : Type} (rq : ScanRequest) (n : ℕ) (s : σ) :
    (∀ (gen : Gen σ) b1 v1 b2 v2 m occ lead s' o, rq.g1 = .num b1 v1 → rq.g2 = .num b2 v2 → rq.res = .arr [(n : ℤ)] →
      gen (v1, v1) (v2, v2) (.int 1) s = (.ok (.d1 (m + 1) occ, lead), s') → o = occ 0 →
      scanOcc (some gen) rq s = (.ok (.d1 n fun _ => o), s')) ∧
    (rq.res = .int n → scanOcc none rq s = (.ok (.d1 n fun _ => (0, 0)), s)) := by
  constructor
  · intro gen b1 v1 b2 v2 m occ lead s' o h1 h2 hres hgen ho
    unfold scanOcc
    rw [h1, h2, hres]
    simp only
    rw [M.bind_run, hgen]
    subst ho
    simp only [lenOneToInt]
    rw [M.bind_run, ofPy_run]
    simp only
    rw [M.bind_run, ofPy_run]
    simp only [firstOcc, Nat.zero_lt_succ, dite_true, ofPy_run, fillOcc]
    rw [if_neg (by omega)]
    rfl
  · intro hres
    unfold scanOcc
    rw [hres]
    cases rq.g1 <;> cases rq.g2 <;> simp only [ofPy_run, fillOcc] <;> rw [if_neg (by omega)] <;> rfl

/-- C27 for images: a resolution of `c` pixels along sensor gate 1 and `r` along sensor gate 2 gives `r` rows with `c` columns, with and without
CSD configuration. -/
theorem C27_image {σ : Type} (rq : ScanRequest) (r c : ℕ) (hres : rq.res = .arr [(c : ℤ), (r : ℤ)]) (s : σ) :
    (∀ (gen : Gen σ) b1 v1 b2 v2 m occ lead s' o, rq.g1 = .num b1 v1 → rq.g2 = .num b2 v2 →
      gen (v1, v1) (v2, v2) (.int 1) s = (.ok (.d1 (m + 1) occ, lead), s') → o = occ 0 →
      scanOcc (some gen) rq s = (.ok (.d2 r c fun _ _ => o), s')) ∧
    scanOcc none rq s = (.ok (.d2 r c fun _ _ => (0, 0)), s) := by
  constructor
  · intro gen b1 v1 b2 v2 m occ lead s' o h1 h2 hgen ho
    unfold scanOcc
    rw [h1, h2, hres]
    simp only
    rw [M.bind_run, hgen]
    subst ho
    simp only [lenOneToInt]
    rw [M.bind_run, ofPy_run]
    simp only
    rw [M.bind_run, ofPy_run]
    simp only [firstOcc, Nat.zero_lt_succ, dite_true, ofPy_run, fillOcc]
    rw [if_neg (by omega)]
    rfl
  · unfold scanOcc
    rw [hres]
    cases rq.g1 <;> cases rq.g2 <;> simp only [ofPy_run, fillOcc] <;> rw [if_neg (by omega)] <;> rfl

/-- C27 is refuted: with a CSD configuration and plunger voltages every `int` resolution fails with `TypeError`
(`len` of an int). -/
theorem C27_int_refuted {τ : Type} (sim : ScanSim τ) (gen : Gen (Option ScanState × τ)) (hgen : sim.gen = some gen)
    (rq : ScanRequest) (hw : ScanWellFormed sim.lim true rq) (b1 b2 : Bool) (v1 v2 : ℝ) (h1 : rq.g1 = .num b1 v1)
    (h2 : rq.g2 = .num b2 v2) (n : ℤ) (hres : rq.res = .int n) (s s' : Option ScanState × τ) (data : CsdData)
    (hrun : gen (v1, v1) (v2, v2) (.int 1) s = (.ok data, s')) :
    measureSensorScan sim rq s = (.error .typeError, s') := by
  obtain ⟨⟨s1, s2⟩, hg⟩ := (C51_accepts sim.lim true rq).1.1 hw
  have hocc : scanOcc (some gen) rq s = (.error .typeError, s') := by
    unfold scanOcc
    rw [h1, h2]
    simp only
    rw [M.bind_run, hrun]
    simp only [hres, lenOneToInt]
    rw [M.bind_run, ofPy_run]
  unfold measureSensorScan
  rw [hg]
  simp only
  unfold scanRun
  rw [hgen, M.bind_run, hocc]

/-- C27 is refuted: without a CSD configuration every one-element array fails with `IndexError`. -/
theorem C27_array_refuted {τ : Type} (sim : ScanSim τ) (hgen : sim.gen = none) (rq : ScanRequest)
    (hw : ScanWellFormed sim.lim true rq) (n : ℤ) (hres : rq.res = .arr [n]) (s : Option ScanState × τ) :
    measureSensorScan sim rq s = (.error .indexError, s) := by
  obtain ⟨⟨s1, s2⟩, hg⟩ := (C51_accepts sim.lim true rq).1.1 hw
  unfold measureSensorScan
  rw [hg]
  simp only
  unfold scanRun
  rw [hgen, M.bind_run]
  have hocc : scanOcc none rq s = (.error .indexError, s) := by
    unfold scanOcc
    rw [hres]
    cases rq.g1 <;> cases rq.g2 <;> rfl
  rw [hocc]

/-- Non-vacuity of the two refutations: such requests are well formed. -/
example : ScanWellFormed ⟨none, none, none, none⟩ true ⟨[0, 1], [0, 1], .num true 0, .num true 0, .int 100⟩ ∧
    ScanWellFormed ⟨none, none, none, none⟩ true ⟨[0, 1], [0, 1], .none, .none, .arr [100]⟩ := by
  constructor <;> constructor <;> simp [RangeWithin, Within, Resolution.entries, Sweeps2d]

/-! ### C52: plunger voltages given as integers -/

theorem onSensor_error {τ α : Type} {x : SM α} {st st' : Option ScanState} {t : τ} {e : PyErr} (h : x st = (.error e, st')) :
    onSensor x (st, t) = (.error e, (st', t)) := by
  unfold onSensor
  simp only
  rw [h]

theorem onSensor_ok {τ α : Type} {x : SM α} {st st' : Option ScanState} {t : τ} {a : α} (h : x st = (.ok a, st')) :
    onSensor x (st, t) = (.ok a, (st', t)) := by
  unfold onSensor
  simp only
  rw [h]

/-- C52 is refuted: no sensor scan succeeds if a plunger voltage is given as `int` (not `float`), although the voltages are
valid: the labels insist on `float`. -/
theorem C52_refuted {τ : Type} (sim : ScanSim τ) (rq : ScanRequest) (v : ℝ) (h : rq.g1 = .num false v ∨ rq.g2 = .num false v)
    (s : Option ScanState × τ) (out : Scan ℝ × Scan ℕ × Scan ℕ) : (measureSensorScan sim rq s).1 ≠ .ok out := by
  intro hok
  cases hr : measureSensorScan sim rq s with
  | mk r s' =>
    rw [hr] at hok
    simp only at hok
    subst hok
    unfold measureSensorScan at hr
    cases hc : scanCheck sim.lim true rq with
    | error e => rw [hc] at hr; simp at hr
    | ok g =>
      obtain ⟨s1, s2⟩ := g
      rw [hc] at hr
      simp only at hr
      unfold scanRun at hr
      simp only [M.bind_ok] at hr
      obtain ⟨occ, t1, -, mu, t2, -, mu0, t3, -, masks, t4, e4, -⟩ := hr
      have : ∀ st, (sim.sensor.labels rq.g1 rq.g2 s1 s2 mu0 st).1 ≠ .ok masks := by
        intro st hst
        cases hx : sim.sensor.labels rq.g1 rq.g2 s1 s2 mu0 st with
        | mk r st' =>
          rw [hx] at hst
          simp only at hst
          subst hst
          unfold ScanSensor.labels at hx
          simp only [M.bind_ok] at hx
          obtain ⟨x, u1, -, o, u2, -, hif⟩ := hx
          rw [if_pos] at hif
          · simp at hif
          · rcases h with h | h <;> rw [h] <;> simp [VoltArg.noneOrFloat]
      unfold onSensor at e4
      cases hl : sim.sensor.labels rq.g1 rq.g2 s1 s2 mu0 t3.1 with
      | mk r st' =>
        rw [hl] at e4
        simp only [Prod.mk.injEq] at e4
        have := this t3.1
        rw [hl] at this
        exact this e4.1

/-- Non-vacuity: the scan is well formed. -/
example : ScanWellFormed ⟨none, none, none, none⟩ true ⟨[0, 1], [0, 1], .num false 0, .num true 0, .arr [100, 100]⟩ := by
  constructor <;> simp [RangeWithin, Within, Resolution.entries, Sweeps2d]

/-! ### C28: ranges passed to the distortions -/

/-- A distortion with fixed ranges. -/
def SigDist.fix {σ : Type} (d : SigDist σ) (g1 g2 : ℝ × ℝ) : SigDist σ := fun x _ _ => d x g1 g2

theorem applySig_fix {σ : Type} (g1 g2 : ℝ × ℝ) (ds : List (SigDist σ)) (x : Scan ℝ) :
    applySig g1 g2 (ds.map fun d => d.fix g1 g2) x = applySig g1 g2 ds x := by
  induction ds generalizing x with
  | nil => rfl
  | cons d ds ih =>
    simp only [List.map_cons, applySig, SigDist.fix]
    congr 1
    funext y
    exact ih y

theorem distortRows_fix {σ : Type} (g1 g2 : ℝ × ℝ) (d : SigDist σ) (xs : List (Scan ℝ)) :
    distortRows g1 g2 (d.fix g1 g2) xs = distortRows g1 g2 d xs := by
  induction xs with
  | nil => rfl
  | cons x xs ih => simp only [distortRows, ih]; rfl

theorem applyRows_fix {σ : Type} (g1 g2 : ℝ × ℝ) (ds : List (SigDist σ)) (xs : List (Scan ℝ)) :
    applyRows g1 g2 (ds.map fun d => d.fix g1 g2) xs = applyRows g1 g2 ds xs := by
  induction ds generalizing xs with
  | nil => rfl
  | cons d ds ih =>
    simp only [List.map_cons, applyRows, distortRows_fix]
    congr 1
    funext y
    exact ih y

/-- C28, the part that holds: the potential distortions of a sensor scan receive the ranges of sensor gates 1 and 2, each
as its own: fixing their ranges to these values changes nothing. -/
theorem C28_potential_partial {τ : Type} (sim : ScanSim τ) (rq : ScanRequest) (s1 s2 : ℝ × ℝ) :
    scanRun { sim with potD := sim.potD.map fun ds => ds.map fun d => d.fix s1 s2 } rq s1 s2 = scanRun sim rq s1 s2 := by
  have : ∀ mu, distortScanPot s1 s2 (sim.potD.map fun ds => ds.map fun d => d.fix s1 s2) mu =
      distortScanPot s1 s2 sim.potD mu := by
    intro mu
    cases sim.potD with
    | none => rfl
    | some ds => simp only [Option.map_some, distortScanPot, applyRows_fix]
  unfold scanRun
  simp only [this]

/-- C28: what the response distortions receive is the range of sensor gate 1, twice. -/
theorem C28_response_actual {τ : Type} (sim : ScanSim τ) (rq : ScanRequest) (s1 s2 : ℝ × ℝ) :
    scanRun { sim with respD := sim.respD.map fun ds => ds.map fun d => d.fix s1 s1 } rq s1 s2 = scanRun sim rq s1 s2 := by
  have : ∀ x, distortResponse s1 s1 (sim.respD.map fun ds => ds.map fun d => d.fix s1 s1) x =
      distortResponse s1 s1 sim.respD x := by
    intro x
    cases sim.respD with
    | none => rfl
    | some ds => simp only [Option.map_some, distortResponse, applySig_fix]
  unfold scanRun
  simp only [this]

/-- C28, the part that holds for the response distortions: if both sensor gates have the same range. -/
theorem C28_response_partial {τ : Type} (sim : ScanSim τ) (rq : ScanRequest) (s1 s2 : ℝ × ℝ) (h : s1 = s2) :
    scanRun { sim with respD := sim.respD.map fun ds => ds.map fun d => d.fix s1 s2 } rq s1 s2 = scanRun sim rq s1 s2 := by
  subst h
  exact C28_response_actual sim rq s1 s1

/-- A distortion that records the ranges it receives. -/
def recordRanges : SigDist (Option ScanState × List ((ℝ × ℝ) × (ℝ × ℝ))) := fun x g1 g2 s => (.ok x, (s.1, (g1, g2) :: s.2))

/-- C28 is refuted: a scan with different ranges of the two sensor gates, whose response distortion receives the range of
sensor gate 1 as range of the second gate. -/
theorem C28_refuted : ∃ (sim : ScanSim (List ((ℝ × ℝ) × (ℝ × ℝ)))) (rq : ScanRequest) (st : Option ScanState)
    (out : Scan ℝ × Scan ℕ × Scan ℕ), sim.respD = some [recordRanges] ∧ rq.s1 = [-1 / 2, 1] ∧ rq.s2 = [0, 2] ∧
    measureSensorScan sim rq (none, []) = (.ok out, (st, [((-1 / 2, 1), (-1 / 2, 1))])) := by
  let s : ScanSensor := { twoPeaks [] with peaks := some [] }
  let sim : ScanSim (List ((ℝ × ℝ) × (ℝ × ℝ))) := ⟨⟨none, none, none, none⟩, none, s, none, none, some [recordRanges]⟩
  have hchk : scanCheck sim.lim true ⟨[-1 / 2, 1], [0, 2], .none, .none, .int 2⟩ = .ok ((-1 / 2, 1), (0, 2)) := by
    simp [scanCheck, sim, rangeOutside, fixedIn2d, fixedOutside, scanResCheck, VoltArg.isNone]
  set mu : Fin 2 → Fin 3 → ℝ := fun i k => s.mu k (0, 0) (linspace 0 0 2 i, linspace 0 0 2 i)
    (linspace (-1 / 2) 1 2 i, linspace 0 2 2 i) with hmu
  have hpot : ∀ st, s.potential (.d1 2 fun _ => (0, 0)) .none .none (.arr (-1 / 2, 1)) (.arr (0, 2)) st =
      (.ok (.d1 2 mu), some ⟨(0, 0), (0, 0), (-1 / 2, 1), (0, 2), .d1 2 fun _ => (0, 0)⟩) := by
    intro st
    simp only [ScanSensor.potential, VoltArg.isArr, Bool.or_self, Bool.false_and, Bool.false_eq_true, if_false,
      ScanSensor.potentialArray, VoltArg.lims]
    rw [if_neg (by norm_num)]
  have hpt : s.calcPoint ⟨(0, 0), (0, 0), (-1 / 2, 1), (0, 2), .d1 2 fun _ => (0, 0)⟩ 10 10 true = .ok (10, 10) :=
    twoPeaks_point [] ⟨(0, 0), (0, 0), (-1 / 2, 1), (0, 2), .d1 2 fun _ => (0, 0)⟩ 10 rfl
  have hlab := labels_run_1d s .none .none (-1 / 2, 1) (0, 2) 2 mu
    ⟨(0, 0), (0, 0), (-1 / 2, 1), (0, 2), .d1 2 fun _ => (0, 0)⟩ (0, 0) (10, 10) (0, 0) [] rfl hpt rfl rfl rfl rfl
  have hresp := C23_response s rfl rfl (.d1 2 mu) ⟨VoltArg.none.lims, VoltArg.none.lims, (10, 10), (10, 10), .d1 1 fun _ => (0, 0)⟩
  refine ⟨sim, ⟨[-1 / 2, 1], [0, 2], .none, .none, .int 2⟩, ?_⟩
  unfold measureSensorScan
  rw [hchk]
  simp only
  unfold scanRun
  have hocc : scanOcc sim.gen ⟨[-1 / 2, 1], [0, 2], .none, .none, .int 2⟩ (none, []) = (.ok (.d1 2 fun _ => (0, 0)), (none, [])) := rfl
  rw [M.bind_run, hocc]
  simp only
  rw [M.bind_run, onSensor_ok (hpot _)]
  simp only
  rw [M.bind_run, onSensor_ok (hpot _)]
  simp only
  rw [M.bind_run, onSensor_ok hlab]
  simp only
  rw [M.bind_run]
  have hd : ∀ m (t : Option ScanState × List ((ℝ × ℝ) × (ℝ × ℝ))), distortScanPot (-1 / 2, 1) (0, 2) sim.potD m t = (.ok m, t) :=
    fun m t => rfl
  rw [hd]
  simp only
  rw [M.bind_run, onSensor_ok hresp]
  simp only
  rw [M.bind_run]
  exact ⟨_, _, rfl, trivial, trivial, rfl⟩

/-! ### C26: deformed peaks in sensor scans -/

/-- The response of all pixels if the deformed peaks of the pixel with potentials `m` are evaluated at the voltages `w`. -/
noncomputable def bentResponse (s : ScanSensor) (mid w : ℝ × ℝ) (m : Fin 3 → ℝ) : ℝ :=
  series (s.peakFunc (m 0) w mid) (s.barrier1.value (m 1)) (s.barrier2.value (m 2))

theorem eqB_self (a : ℝ) : eqB a a = true := by simp [eqB]

theorem isEmpty_false {α : Type} {l : List α} (h : l ≠ []) : l.isEmpty = false := by
  cases l with
  | nil => exact absurd rfl h
  | cons a l => rfl

/-- The response in the branch with deformations, for a 1D scan. -/
theorem response_bent_1d (s : ScanSensor) (hd : s.defs ≠ []) (n : ℕ) (f : Fin n → Fin 3 → ℝ) (st : ScanState)
    (hs : st.onlySensor = true) (mid : ℝ × ℝ) (hn : n ≠ 1)
    (hm : s.calcPoint st s.barrier1.pinchOff s.barrier2.pinchOff true = .ok mid) :
    s.response (.d1 n f) (some st) = (.ok (.d1 n fun i => bentResponse s mid
      (linspace st.s1.1 st.s1.2 n i, linspace st.s2.1 st.s2.2 n i) (f i)), some st) := by
  have hsw : st.sensorSwept = true := by
    unfold ScanState.onlySensor at hs
    unfold ScanState.sensorSwept
    rw [Bool.and_eq_true] at hs
    rw [hs.1, Bool.true_or]
  unfold ScanSensor.response ScanSensor.dotResponse
  rw [bind_assoc, M.bind_run, getState_run]
  simp only [isEmpty_false hd, hs, Bool.not_false, Bool.and_self, if_true, hsw, hm]
  rw [bind_assoc, M.bind_run, ofPy_run]
  simp only [Scan.map, ScanSensor.deformedResponse]
  rw [M.bind_run, ofPy_run, if_neg hn]
  simp only
  rw [M.bind_run, ofPy_run]
  simp only [Scan.zip, dite_true, M.pure_run]
  rfl

/-- The response in the branch with deformations, for a 2D scan. -/
theorem response_bent_2d (s : ScanSensor) (hd : s.defs ≠ []) (r c : ℕ) (f : Fin r → Fin c → Fin 3 → ℝ) (st : ScanState)
    (hs : st.onlySensor = true) (mid : ℝ × ℝ) (hr : r ≠ 1) (hc : c ≠ 1)
    (hm : s.calcPoint st s.barrier1.pinchOff s.barrier2.pinchOff true = .ok mid) :
    s.response (.d2 r c f) (some st) = (.ok (.d2 r c fun i j => bentResponse s mid
      (linspace st.s1.1 st.s1.2 c j, linspace st.s2.1 st.s2.2 r i) (f i j)), some st) := by
  have hsw : st.sensorSwept = true := by
    unfold ScanState.onlySensor at hs
    unfold ScanState.sensorSwept
    rw [Bool.and_eq_true] at hs
    rw [hs.1, Bool.true_or]
  unfold ScanSensor.response ScanSensor.dotResponse
  rw [bind_assoc, M.bind_run, getState_run]
  simp only [isEmpty_false hd, hs, Bool.not_false, Bool.and_self, if_true, hsw, hm]
  rw [bind_assoc, M.bind_run, ofPy_run]
  simp only [Scan.map, ScanSensor.deformedResponse]
  rw [M.bind_run, ofPy_run, if_neg (by rintro (h | ⟨-, h⟩); exacts [hr h, hc h])]
  simp only
  rw [M.bind_run, ofPy_run]
  simp only [Scan.zip, and_self, dite_true, M.pure_run]
  rfl

/-- C26, the part that holds: used directly (`sensor_potential` followed by `sensor_response`), the sensor bends the peaks
of every pixel according to the voltages of this pixel in the sweep. -/
theorem C26_direct_partial (s : ScanSensor) (hd : s.defs ≠ []) (r c : ℕ) (hr : 2 ≤ r) (hc : 2 ≤ c)
    (occ : Fin r → Fin c → ℝ × ℝ) (g1 g2 : VoltArg) (h1 : g1.isArr = false) (h2 : g2.isArr = false) (s1 s2 mid : ℝ × ℝ)
    (hm : s.calcPoint ⟨g1.lims, g2.lims, s1, s2, .d2 r c occ⟩ s.barrier1.pinchOff s.barrier2.pinchOff true = .ok mid)
    (st : Option ScanState) :
    ((s.potential (.d2 r c occ) g1 g2 (.arr s1) (.arr s2) >>= fun mu => s.response mu) st).1 =
      .ok (.d2 r c fun i j =>
        let w := (sweepVolt s1 c j, sweepVolt s2 r i)
        bentResponse s mid w fun k => s.mu k (occ i j) (g1.lims.1, g2.lims.1) w) := by
  have hl : ∀ g : VoltArg, g.isArr = false → g.lims.1 = g.lims.2 := by
    intro g hg
    cases g <;> simp_all [VoltArg.isArr, VoltArg.lims]
  have hlin : ∀ (g : VoltArg), g.isArr = false → ∀ n (i : Fin n), linspace g.lims.1 g.lims.2 n i = g.lims.1 := by
    intro g hg n i
    rw [← hl g hg]
    simp [linspace, linAt]
  have hpot : s.potential (.d2 r c occ) g1 g2 (.arr s1) (.arr s2) st = (.ok (.d2 r c fun i j k =>
      s.mu k (occ i j) (g1.lims.1, g2.lims.1) (sweepVolt s1 c j, sweepVolt s2 r i)),
      some ⟨g1.lims, g2.lims, s1, s2, .d2 r c occ⟩) := by
    simp only [ScanSensor.potential, h1, h2, Bool.or_self, Bool.false_and, Bool.false_eq_true, if_false,
      ScanSensor.potentialArray]
    rw [if_neg (by omega)]
    simp only [hlin g1 h1, hlin g2 h2, linspace_sweep]
    rfl
  rw [M.bind_run, hpot]
  simp only
  rw [response_bent_2d s hd r c _ _ _ mid (by omega) (by omega) hm]
  · simp only [linspace_sweep]
  · unfold ScanState.onlySensor
    simp only
    rw [← hl g1 h1, ← hl g2 h2, eqB_self, eqB_self]
    rfl

/-- C26, what happens instead in `measure_sensor_scan`: computing the labels replaces the stored sweep, and the peaks of
all pixels, with the potentials of the swept voltages, are bent according to one and the same voltage point. -/
theorem C26_actual {τ : Type} (sim : ScanSim τ) (hd : sim.sensor.defs ≠ []) (hp : sim.potD = none) (hr : sim.respD = none)
    (rq : ScanRequest) (s s' : Option ScanState × τ) (scan : Scan ℝ) (c p : Scan ℕ)
    (h : measureSensorScan sim rq s = (.ok (scan, c, p), s')) :
    ∃ (r1 r2 w mid : ℝ × ℝ) (occ : Scan (ℝ × ℝ)) (mu : Scan (Fin 3 → ℝ)) (st st' : Option ScanState),
      scanCheck sim.lim true rq = .ok (r1, r2) ∧ sim.sensor.potential occ rq.g1 rq.g2 (.arr r1) (.arr r2) st = (.ok mu, st') ∧
      scan = mu.map fun m => bentResponse sim.sensor mid w m := by
  unfold measureSensorScan at h
  cases hc : scanCheck sim.lim true rq with
  | error e => rw [hc] at h; simp at h
  | ok g =>
    obtain ⟨s1, s2⟩ := g
    rw [hc] at h
    simp only at h
    unfold scanRun at h
    simp only [M.bind_ok] at h
    obtain ⟨occ, t1, -, mu, t2, e2, mu0, t3, e3, masks, t4, e4, mu', t5, e5, scan0, t6, e6, scan1, t7, e7, e8⟩ := h
    rw [hp] at e5
    simp only [distortScanPot, M.pure_run, Prod.mk.injEq, Except.ok.injEq] at e5
    obtain ⟨rfl, rfl⟩ := e5
    rw [hr] at e7
    simp only [distortResponse, M.pure_run, Prod.mk.injEq, Except.ok.injEq] at e7 e8
    obtain ⟨rfl, rfl⟩ := e7
    obtain ⟨⟨rfl, -, -⟩, rfl⟩ := e8
    have hpot : ∃ st', sim.sensor.potential occ rq.g1 rq.g2 (.arr s1) (.arr s2) t1.1 = (.ok mu, st') := by
      have e2' := e2
      unfold onSensor at e2'
      cases hy : sim.sensor.potential occ rq.g1 rq.g2 (.arr s1) (.arr s2) t1.1 with
      | mk ry sy =>
        rw [hy] at e2'
        simp only [Prod.mk.injEq] at e2'
        exact ⟨sy, by rw [e2'.1]⟩
    obtain ⟨stp, hpot⟩ := hpot
    -- the state after the labels
    unfold onSensor at e4 e6
    cases hl : sim.sensor.labels rq.g1 rq.g2 s1 s2 mu0 t3.1 with
    | mk rl stl =>
      rw [hl] at e4
      simp only [Prod.mk.injEq] at e4
      obtain ⟨rfl, rfl⟩ := e4
      obtain ⟨x, o, q, mid', ps, -, -, -, -, -, ha1, -, hst, -⟩ := labels_ok _ _ _ _ _ _ _ _ _ hl
      subst hst
      simp only at e6
      have hs : (⟨rq.g1.lims, rq.g1.lims, (q.1, q.1), (q.2, q.2), .d1 1 fun _ => o⟩ : ScanState).onlySensor = true := by
        unfold ScanState.onlySensor
        have : rq.g1.lims.1 = rq.g1.lims.2 := by
          cases hg : rq.g1 <;> rw [hg] at ha1 <;> simp_all [VoltArg.isArr, VoltArg.lims]
        simp only [this, eqB_self]
        rfl
      have hcalc : ∃ m, sim.sensor.calcPoint ⟨rq.g1.lims, rq.g1.lims, (q.1, q.1), (q.2, q.2), .d1 1 fun _ => o⟩
          sim.sensor.barrier1.pinchOff sim.sensor.barrier2.pinchOff true = .ok m := ⟨_, rfl⟩
      obtain ⟨m, hm⟩ := hcalc
      have lin : ∀ n (i : Fin n), (linspace q.1 q.1 n i, linspace q.2 q.2 n i) = q := by
        intro n i
        simp [linspace, linAt]
      cases hx : sim.sensor.response mu (some ⟨rq.g1.lims, rq.g1.lims, (q.1, q.1), (q.2, q.2), .d1 1 fun _ => o⟩) with
      | mk rr st2 =>
        rw [hx] at e6
        simp only [Prod.mk.injEq] at e6
        obtain ⟨rfl, -⟩ := e6
        refine ⟨s1, s2, q, m, occ, mu, t1.1, stp, rfl, hpot, ?_⟩
        cases mu with
        | d0 y =>
          exfalso
          unfold onSensor at e2
          cases hy : sim.sensor.potential occ rq.g1 rq.g2 (.arr s1) (.arr s2) t1.1 with
          | mk ry sy =>
            rw [hy] at e2
            simp only [Prod.mk.injEq] at e2
            obtain ⟨rfl, -⟩ := e2
            unfold ScanSensor.potential at hy
            cases occ with
            | d0 z => simp at hy
            | d1 n f =>
              simp only [ScanSensor.potentialArray] at hy
              split_ifs at hy <;> simp at hy
            | d2 r c f =>
              simp only [ScanSensor.potentialArray] at hy
              split_ifs at hy <;> simp at hy
        | d1 n f =>
          by_cases hn : n = 1
          · subst hn
            exfalso
            unfold ScanSensor.response ScanSensor.dotResponse at hx
            rw [bind_assoc, M.bind_run, getState_run] at hx
            have hsw : ScanState.sensorSwept ⟨rq.g1.lims, rq.g1.lims, (q.1, q.1), (q.2, q.2), .d1 1 fun _ => o⟩ = true := by
              unfold ScanState.onlySensor at hs
              unfold ScanState.sensorSwept
              rw [Bool.and_eq_true] at hs
              rw [hs.1, Bool.true_or]
            simp only [isEmpty_false hd, hs, Bool.not_false, Bool.and_self, if_true, hsw, hm] at hx
            rw [bind_assoc, M.bind_run, ofPy_run] at hx
            simp only [Scan.map, ScanSensor.deformedResponse, if_true] at hx
            rw [M.bind_run, ofPy_run] at hx
            simp at hx
          · rw [response_bent_1d _ hd n f _ hs m hn hm] at hx
            simp only [Prod.mk.injEq, Except.ok.injEq] at hx
            rw [← hx.1]
            simp only [lin, Scan.map]
        | d2 r c f =>
          by_cases hn : r = 1 ∨ (r ≠ 0 ∧ c = 1)
          · exfalso
            unfold ScanSensor.response ScanSensor.dotResponse at hx
            rw [bind_assoc, M.bind_run, getState_run] at hx
            have hsw : ScanState.sensorSwept ⟨rq.g1.lims, rq.g1.lims, (q.1, q.1), (q.2, q.2), .d1 1 fun _ => o⟩ = true := by
              unfold ScanState.onlySensor at hs
              unfold ScanState.sensorSwept
              rw [Bool.and_eq_true] at hs
              rw [hs.1, Bool.true_or]
            simp only [isEmpty_false hd, hs, Bool.not_false, Bool.and_self, if_true, hsw, hm] at hx
            rw [bind_assoc, M.bind_run, ofPy_run] at hx
            simp only [Scan.map, ScanSensor.deformedResponse, if_pos hn] at hx
            rw [M.bind_run, ofPy_run] at hx
            simp at hx
          · by_cases hr0 : r = 0
            · subst hr0
              exfalso
              unfold onSensor at e2
              cases hy : sim.sensor.potential occ rq.g1 rq.g2 (.arr s1) (.arr s2) t1.1 with
              | mk ry sy =>
                rw [hy] at e2
                simp only [Prod.mk.injEq] at e2
                obtain ⟨rfl, -⟩ := e2
                unfold ScanSensor.potential at hy
                cases occ with
                | d0 z => simp at hy
                | d1 n f =>
                  simp only [ScanSensor.potentialArray] at hy
                  split_ifs at hy <;> simp at hy
                | d2 r c f =>
                  simp only [ScanSensor.potentialArray] at hy
                  split_ifs at hy with _ hz
                  · simp at hy
                  · simp at hy
                  · simp only [Prod.mk.injEq, Except.ok.injEq, Scan.d2.injEq] at hy
                    exact hz (Or.inl hy.1.1)
            · push Not at hn
              rw [response_bent_2d _ hd r c f _ hs m hn.1 (hn.2 hr0) hm] at hx
              simp only [Prod.mk.injEq, Except.ok.injEq] at hx
              rw [← hx.1]
              have l1 : ∀ j : Fin c, linspace q.1 q.1 c j = q.1 := by intro j; simp [linspace, linAt]
              have l2 : ∀ j : Fin r, linspace q.2 q.2 r j = q.2 := by intro j; simp [linspace, linAt]
              simp only [l1, l2, Scan.map]

/-- A sensor with one peak at potential 0, which the swept voltages bend by 45 degrees. -/
noncomputable def bentPeak : ScanSensor :=
  { twoPeaks [(0, .linear (Real.pi / 4))] with peaks := some [⟨.lorentzian, 0, 1, 1, 0⟩] }

theorem bentPeak_func (m : ℝ) (mid w : ℝ × ℝ) (hmid : mid.1 = mid.2) :
    bentPeak.peakFunc m w mid = 1 / (1 + (m - (w.1 - w.2)) ^ 2) := by
  have hd : middleLineDist mid bentPeak.slope w * bentPeak.alphaNorm = w.1 - w.2 := by
    have e1 : bentPeak.slope = 1 / 1 := rfl
    have e2 : bentPeak.alphaNorm = norm2 (1, 1) := rfl
    rw [e1, e2]
    unfold middleLineDist signedDist norm2 cross2
    simp only [Prod.fst_add, Prod.snd_add, Prod.fst_sub, Prod.snd_sub]
    norm_num
    linarith
  have e : bentPeak.peakFunc m w mid = lorentzResponse m
      (0 + 1 / Real.tan (Real.pi / 4) * middleLineDist mid bentPeak.slope w * bentPeak.alphaNorm) 1 1 0 + 0 := rfl
  rw [e, Real.tan_pi_div_four, div_one, one_mul, hd]
  unfold lorentzResponse
  norm_num

/-- C26 is refuted: in a scan of sensor gate 1 from 1 to 2 the measured first pixel is not the response that the sensor
itself has for the potentials of the same sweep. -/
theorem C26_refuted : ∃ (sim : ScanSim Unit) (rq : ScanRequest) (f f' : Fin 2 → ℝ) (c p : Scan ℕ) (t : Option ScanState × Unit)
    (t' : Option ScanState), sim.sensor = bentPeak ∧ sim.potD = none ∧ sim.respD = none ∧ rq = ⟨[1, 2], [0, 0], .none, .none, .int 2⟩ ∧
    measureSensorScan sim rq (none, ()) = (.ok (.d1 2 f, c, p), t) ∧
    (sim.sensor.potential (.d1 2 fun _ => (0, 0)) .none .none (.arr (1, 2)) (.arr (0, 0)) >>= fun mu =>
      sim.sensor.response mu) none = (.ok (.d1 2 f'), t') ∧
    f 0 = 1 / 4 ∧ f' 0 = 1 / 3 := by
  let s : ScanSensor := bentPeak
  let sim : ScanSim Unit := ⟨⟨none, none, none, none⟩, none, s, none, none, none⟩
  have hchk : scanCheck sim.lim true ⟨[1, 2], [0, 0], .none, .none, .int 2⟩ = .ok ((1, 2), (0, 0)) := by
    simp [scanCheck, sim, rangeOutside, fixedIn2d, fixedOutside, scanResCheck, VoltArg.isNone]
  set mu : Fin 2 → Fin 3 → ℝ := fun i k => s.mu k (0, 0) (linspace 0 0 2 i, linspace 0 0 2 i)
    (linspace 1 2 2 i, linspace 0 0 2 i) with hmu
  have hpot : ∀ st, s.potential (.d1 2 fun _ => (0, 0)) .none .none (.arr (1, 2)) (.arr (0, 0)) st =
      (.ok (.d1 2 mu), some ⟨(0, 0), (0, 0), (1, 2), (0, 0), .d1 2 fun _ => (0, 0)⟩) := by
    intro st
    simp only [ScanSensor.potential, VoltArg.isArr, Bool.or_self, Bool.false_and, Bool.false_eq_true, if_false,
      ScanSensor.potentialArray, VoltArg.lims]
    rw [if_neg (by norm_num)]
  have hpt : ∀ (x : ScanState) q, firstOcc x.occ = .ok (0, 0) → s.calcPoint x q q true = .ok (q, q) :=
    fun x q h => twoPeaks_point [(0, .linear (Real.pi / 4))] x q h
  have hmid : s.labelMiddle ⟨(0, 0), (0, 0), (10, 10), (10, 10), .d1 1 fun _ => (0, 0)⟩ = .ok (-10, -10) :=
    hpt ⟨(0, 0), (0, 0), (10, 10), (10, 10), .d1 1 fun _ => (0, 0)⟩ (-10) rfl
  have hlab := labels_run_1d s .none .none (1, 2) (0, 0) 2 mu
    ⟨(0, 0), (0, 0), (1, 2), (0, 0), .d1 2 fun _ => (0, 0)⟩ (0, 0) (10, 10) (-10, -10) _ rfl (hpt _ _ rfl) hmid rfl rfl rfl
  have hon : ∀ a b o, ScanState.onlySensor ⟨(0, 0), (0, 0), a, b, o⟩ = true := by
    intro a b o
    unfold ScanState.onlySensor
    simp only [eqB_self]
    rfl
  have hresp := response_bent_1d s (List.cons_ne_nil _ _) 2 mu
    ⟨VoltArg.none.lims, VoltArg.none.lims, (10, 10), (10, 10), .d1 1 fun _ => (0, 0)⟩ (hon _ _ _) (-10, -10) (by norm_num)
    (hpt _ _ rfl)
  have hresp' := response_bent_1d s (List.cons_ne_nil _ _) 2 mu
    ⟨(0, 0), (0, 0), (1, 2), (0, 0), .d1 2 fun _ => (0, 0)⟩ (hon _ _ _) (-10, -10) (by norm_num) (hpt _ _ rfl)
  have m0 : mu 0 0 = 1 := by
    have : mu 0 0 = dot2 (0, 0) (0, 0) + dot2 (linspace 0 0 2 (0 : Fin 2), linspace 0 0 2 (0 : Fin 2)) (0, 0) +
      dot2 (linspace 1 2 2 (0 : Fin 2), linspace 0 0 2 (0 : Fin 2)) (1, 1) + 0 := rfl
    rw [this]
    simp [dot2, linspace, linAt]
  refine ⟨sim, ⟨[1, 2], [0, 0], .none, .none, .int 2⟩, ?_⟩
  unfold measureSensorScan
  rw [hchk]
  simp only
  unfold scanRun
  have hocc : scanOcc sim.gen ⟨[1, 2], [0, 0], .none, .none, .int 2⟩ (none, ()) = (.ok (.d1 2 fun _ => (0, 0)), (none, ())) := rfl
  rw [M.bind_run, hocc]
  simp only
  rw [M.bind_run, onSensor_ok (hpot _)]
  simp only
  rw [M.bind_run, onSensor_ok (hpot _)]
  simp only
  rw [M.bind_run, onSensor_ok hlab]
  simp only
  rw [M.bind_run]
  have hd : ∀ m (t : Option ScanState × Unit), distortScanPot (1, 2) (0, 0) sim.potD m t = (.ok m, t) := fun m t => rfl
  rw [hd]
  simp only
  rw [M.bind_run, onSensor_ok hresp]
  simp only
  rw [M.bind_run]
  rw [M.bind_run, hpot]
  simp only
  rw [hresp']
  refine ⟨_, _, _, _, _, _, rfl, rfl, rfl, trivial, rfl, rfl, ?_, ?_⟩
  · change series (bentPeak.peakFunc (mu 0 0) _ (-10, -10)) 1 1 = _
    rw [bentPeak_func _ _ _ rfl, m0]
    simp only [linspace, linAt, series]
    norm_num
  · change series (bentPeak.peakFunc (mu 0 0) _ (-10, -10)) 1 1 = _
    rw [bentPeak_func _ _ _ rfl, m0]
    simp only [linspace, linAt, series]
    norm_num

/-- Non-vacuity of C26: the bent peak has deformations and a middle point, and its scan above succeeds. -/
example : bentPeak.defs ≠ [] ∧ ∀ x : ScanState, firstOcc x.occ = .ok (0, 0) →
    bentPeak.calcPoint x bentPeak.barrier1.pinchOff bentPeak.barrier2.pinchOff true = .ok (-10, -10) :=
  ⟨List.cons_ne_nil _ _, fun x h => twoPeaks_point [(0, .linear (Real.pi / 4))] x (-10) h⟩

end SimCATS
