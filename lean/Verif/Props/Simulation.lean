import Verif.Model.Simulation
import Verif.Lemmas.Monad
import Verif.Spec.Request
import Verif.Props.Sensor

/-!
Properties C01, C02, C03, C39, C49, C50: requests, order of the distortions, shapes and setters of a simulation.
-/

namespace SimCATS

open Spec

/-! ### Helper lemmas -/

theorem rangeOutside_false {lim : Option (ℝ × ℝ)} {a b : ℝ} :
    rangeOutside lim (a, b) = false ↔ RangeWithin lim [a, b] := by
  cases lim with
  | none => simp [rangeOutside, RangeWithin, Within]
  | some l =>
    simp only [rangeOutside, RangeWithin, Within, decide_eq_false_iff_not, not_or, not_lt, gt_iff_lt, Option.some.injEq,
      List.mem_cons, List.not_mem_nil, or_false, forall_eq_or_imp, forall_eq, forall_eq']
    constructor
    · rintro ⟨h1, -, -, h4⟩
      exact ⟨⟨le_trans h1 (min_le_left _ _), le_trans (le_max_left _ _) h4⟩,
        ⟨le_trans h1 (min_le_right _ _), le_trans (le_max_right _ _) h4⟩⟩
    · rintro ⟨⟨h1, h2⟩, h3, h4⟩
      refine ⟨le_min h1 h3, le_trans (min_le_left _ _) h2, le_trans h1 (le_max_left _ _), max_le h2 h4⟩

theorem valueOutside_ok {lim : Option (ℝ × ℝ)} {v : Option ℝ} :
    valueOutside lim v = .ok false ↔ (lim ≠ none → v ≠ none) ∧ ∀ x, v = some x → Within lim x := by
  cases lim <;> cases v <;> simp [valueOutside, Within]

theorem resCheck_ok {a1 b1 a2 b2 : ℝ} {res : Resolution} : resCheck (a1, b1) (a2, b2) res = .ok () ↔
    res.entries.length ≤ 2 ∧ Sweeps2d [a1, b1] [a2, b2] res.entries := by
  cases res with
  | int n => simp [resCheck, Resolution.entries, Sweeps2d]
  | arr ns =>
    rcases ns with _ | ⟨a, _ | ⟨b, _ | ⟨c, ns⟩⟩⟩
    · simp [resCheck, Resolution.entries, Sweeps2d]
    · simp [resCheck, Resolution.entries, Sweeps2d]
    · simp only [resCheck, Resolution.entries, Sweeps2d]
      simp only [List.length_cons, List.length_nil]
      by_cases h1 : a1 = b1 ∨ a2 = b2
      · rw [if_neg (by omega), if_pos ⟨by norm_num, h1⟩]
        rcases h1 with h1 | h1 <;> simp [h1]
      · rw [if_neg (by omega), if_neg (by rintro ⟨-, h⟩; exact h1 h)]
        push Not at h1
        by_cases h2 : a ≤ 1 ∨ b ≤ 1
        · rw [if_pos h2]
          simp only [reduceCtorEq, false_iff]
          rintro ⟨-, h⟩
          have := (h trivial).1
          simp only [List.mem_cons, List.not_mem_nil, or_false, forall_eq_or_imp, forall_eq] at this
          omega
        · rw [if_neg h2]
          simp only [true_iff]
          refine ⟨le_rfl, fun _ => ⟨?_, by simpa using h1.1, by simpa using h1.2⟩⟩
          simp only [List.mem_cons, List.not_mem_nil, or_false, forall_eq_or_imp, forall_eq]
          omega
    · simp [resCheck, Resolution.entries, Sweeps2d]

theorem resCheck_error {g1 g2 : ℝ × ℝ} {res : Resolution} {e : PyErr} (h : resCheck g1 g2 res = .error e) :
    e = .valueError := by
  unfold resCheck at h
  split at h
  · cases h
  · split_ifs at h
    · cases h; rfl
    · cases h; rfl
    · split at h
      · split_ifs at h
        cases h; rfl
      · cases h

/-! ### C02: the decision table -/

/-- A request that a user of the documentation expects to be accepted. -/
structure WellFormed (lim : Limits) (hasCfg : Bool) (rq : Request) : Prop where
  cfg : hasCfg = true
  len1 : rq.g1.length = 2
  len2 : rq.g2.length = 2
  lim1 : RangeWithin lim.g1 rq.g1
  lim2 : RangeWithin lim.g2 rq.g2
  sensor1 : ∀ x, rq.s1 = some x → Within lim.s1 x
  sensor2 : ∀ x, rq.s2 = some x → Within lim.s2 x
  both : rq.s1 = none ↔ rq.s2 = none
  res : rq.res.entries.length ≤ 2
  sweeps : Sweeps2d rq.g1 rq.g2 rq.res.entries

/-- The sensor voltages can be compared with the limits: a gate with a limit has a voltage. -/
def Comparable (lim : Limits) (rq : Request) : Prop :=
  (lim.s1 ≠ none → rq.s1 ≠ none) ∧ (lim.s2 ≠ none → rq.s2 ≠ none)

theorem length_two {α : Type} {l : List α} (h : l.length = 2) : ∃ a b, l = [a, b] := by
  match l, h with
  | [a, b], _ => exact ⟨a, b, rfl⟩

theorem sensorOutside_ok {lim : Limits} {s1 s2 : Option ℝ} : sensorOutside lim s1 s2 = .ok false ↔
    valueOutside lim.s1 s1 = .ok false ∧ valueOutside lim.s2 s2 = .ok false := by
  unfold sensorOutside
  split <;> simp_all

theorem sensorOutside_error {lim : Limits} {s1 s2 : Option ℝ} {e : PyErr} (h : sensorOutside lim s1 s2 = .error e) :
    e = .typeError ∧ ((lim.s1 ≠ none ∧ s1 = none) ∨ (lim.s2 ≠ none ∧ s2 = none)) := by
  rcases lim with ⟨_, _, _ | l1, _ | l2⟩ <;> rcases s1 with _ | x <;> rcases s2 with _ | y <;>
    simp only [sensorOutside, valueOutside] at h ⊢
  all_goals first
    | (split at h <;> simp_all)
    | simp_all

/-- C02: a request is accepted exactly if it is well formed and its sensor voltages can be compared with the limits. -/
theorem C02_accepts (lim : Limits) (hasCfg : Bool) (rq : Request) :
    (∃ g, measureCheck lim hasCfg rq = .ok g) ↔ WellFormed lim hasCfg rq ∧ Comparable lim rq := by
  constructor
  · rintro ⟨g, h⟩
    unfold measureCheck at h
    split at h
    · cases h
    rename_i hc
    split at h
    · rename_i a1 b1 a2 b2 e1 e2
      split at h
      · cases h
      rename_i hr
      push Not at hr
      simp only [ne_eq, Bool.not_eq_true] at hr
      split at h
      · cases h
      · cases h
      · rename_i hs
        split at h
        · cases h
        rename_i hb
        split at h
        · cases h
        · rename_i hres
          rw [sensorOutside_ok, valueOutside_ok, valueOutside_ok] at hs
          rw [rangeOutside_false, rangeOutside_false, ← e1, ← e2] at hr
          rw [resCheck_ok, ← e1, ← e2] at hres
          refine ⟨⟨by simpa using hc, by simp [e1], by simp [e2], hr.1, hr.2, hs.1.2, hs.2.2, ?_, hres.1, hres.2⟩,
            hs.1.1, hs.2.1⟩
          cases h1 : rq.s1 <;> cases h2 : rq.s2 <;> simp_all
    · cases h
  · rintro ⟨hw, hcmp⟩
    obtain ⟨a1, b1, e1⟩ := length_two hw.len1
    obtain ⟨a2, b2, e2⟩ := length_two hw.len2
    refine ⟨((a1, b1), (a2, b2)), ?_⟩
    unfold measureCheck
    rw [if_neg (by simp [hw.cfg]), e1, e2]
    simp only
    have r1 := rangeOutside_false.2 (e1 ▸ hw.lim1)
    have r2 := rangeOutside_false.2 (e2 ▸ hw.lim2)
    rw [if_neg (by simp [r1, r2]), sensorOutside_ok.2 ⟨valueOutside_ok.2 ⟨hcmp.1, hw.sensor1⟩,
      valueOutside_ok.2 ⟨hcmp.2, hw.sensor2⟩⟩]
    simp only
    rw [if_neg, resCheck_ok.2 ⟨hw.res, e1 ▸ e2 ▸ hw.sweeps⟩]
    have := hw.both
    cases h1 : rq.s1 <;> cases h2 : rq.s2 <;> simp_all

/-- C02: every other request with comparable values is rejected with `ValueError`; with incomparable values the only
other exception is `TypeError`. -/
theorem C02_rejects (lim : Limits) (hasCfg : Bool) (rq : Request) (h : ¬ WellFormed lim hasCfg rq) :
    (Comparable lim rq → measureCheck lim hasCfg rq = .error .valueError) ∧
    (measureCheck lim hasCfg rq = .error .valueError ∨ measureCheck lim hasCfg rq = .error .typeError) := by
  have key : measureCheck lim hasCfg rq = .error .valueError ∨
      (measureCheck lim hasCfg rq = .error .typeError ∧ ¬ Comparable lim rq) := by
    have hno : ¬ ∃ g, measureCheck lim hasCfg rq = .ok g := fun hg => h ((C02_accepts lim hasCfg rq).1 hg).1
    cases hm : measureCheck lim hasCfg rq with
    | ok g => exact absurd ⟨g, hm⟩ hno
    | error e =>
      unfold measureCheck at hm
      split at hm
      · cases hm; exact Or.inl rfl
      · split at hm
        · split at hm
          · cases hm; exact Or.inl rfl
          · split at hm
            · rename_i e' hs
              cases hm
              obtain ⟨rfl, hn⟩ := sensorOutside_error hs
              refine Or.inr ⟨rfl, fun hcmp => ?_⟩
              rcases hn with hn | hn
              · exact hcmp.1 hn.1 hn.2
              · exact hcmp.2 hn.1 hn.2
            · cases hm; exact Or.inl rfl
            · split at hm
              · cases hm; exact Or.inl rfl
              · split at hm
                · rename_i e' hr
                  cases hm
                  exact Or.inl (by rw [resCheck_error hr])
                · cases hm
        · cases hm; exact Or.inl rfl
  rcases key with k | ⟨k, hn⟩
  · exact ⟨fun _ => k, Or.inl k⟩
  · exact ⟨fun hc => absurd hc hn, Or.inr k⟩

/-- An accepted request runs with the sweep ranges it was given. -/
theorem C02_ranges (lim : Limits) (hasCfg : Bool) (rq : Request) (g1 g2 : ℝ × ℝ)
    (h : measureCheck lim hasCfg rq = .ok (g1, g2)) : rq.g1 = [g1.1, g1.2] ∧ rq.g2 = [g2.1, g2.2] := by
  unfold measureCheck at h
  split at h
  · cases h
  split at h
  · rename_i a1 b1 a2 b2 e1 e2
    split at h
    · cases h
    split at h
    · cases h
    · cases h
    · split at h
      · cases h
      split at h
      · cases h
      · cases h
        exact ⟨e1, e2⟩
  · cases h

/-! ### C01: limits -/

/-- C01: `measure` raises an error without calling any component (the state is unchanged, whatever the components do)
if a sweep end lies outside of the plunger limits; the error is `ValueError`. -/
theorem C01_plunger {σ : Type} (sim : Simulation σ) (rq : Request) (s : σ) (l1 : rq.g1.length = 2) (l2 : rq.g2.length = 2)
    (h : (∃ v ∈ rq.g1, ¬ Within sim.lim.g1 v) ∨ ∃ v ∈ rq.g2, ¬ Within sim.lim.g2 v) :
    measure sim rq s = (.error .valueError, s) := by
  have hm : measureCheck sim.lim sim.gen.isSome rq = .error .valueError := by
    obtain ⟨a1, b1, e1⟩ := length_two l1
    obtain ⟨a2, b2, e2⟩ := length_two l2
    unfold measureCheck
    split
    · rfl
    rw [e1, e2]
    simp only
    rw [if_pos]
    by_contra hc
    push Not at hc
    simp only [ne_eq, Bool.not_eq_true, rangeOutside_false] at hc
    rw [← e1, ← e2] at hc
    rcases h with ⟨v, hv, h⟩ | ⟨v, hv, h⟩
    · exact h (hc.1 v hv)
    · exact h (hc.2 v hv)
  unfold measure
  rw [hm]
  cases sim.gen <;> rfl

/-- C01: the same for given sensor gate voltages outside of their limits. -/
theorem C01_sensor {σ : Type} (sim : Simulation σ) (rq : Request) (s : σ) (hc : Comparable sim.lim rq)
    (h : (∃ v, rq.s1 = some v ∧ ¬ Within sim.lim.s1 v) ∨ ∃ v, rq.s2 = some v ∧ ¬ Within sim.lim.s2 v) :
    measure sim rq s = (.error .valueError, s) := by
  have hm : measureCheck sim.lim sim.gen.isSome rq = .error .valueError := by
    refine (C02_rejects _ _ _ fun hw => ?_).1 hc
    rcases h with ⟨v, hv, h⟩ | ⟨v, hv, h⟩
    · exact h (hw.sensor1 v hv)
    · exact h (hw.sensor2 v hv)
  unfold measure
  rw [hm]
  cases sim.gen <;> rfl

/-- The voltage of a pixel lies between the ends of the sweep. -/
theorem sweepVolt_mem (g : ℝ × ℝ) (n : ℕ) (i : Fin n) :
    min g.1 g.2 ≤ sweepVolt g n i ∧ sweepVolt g n i ≤ max g.1 g.2 := by
  unfold sweepVolt
  split_ifs with h
  · exact ⟨min_le_left _ _, le_max_left _ _⟩
  · have h2 : (2 : ℝ) ≤ n := by exact_mod_cast (by omega : 2 ≤ n)
    have hi : ((i : ℕ) : ℝ) + 1 ≤ n := by exact_mod_cast i.2
    have hi0 : (0 : ℝ) ≤ (i : ℕ) := by positivity
    set t := ((i : ℕ) : ℝ) / ((n : ℝ) - 1)
    have t0 : 0 ≤ t := div_nonneg hi0 (by linarith)
    have t1 : t ≤ 1 := (div_le_one (by linarith)).2 (by linarith)
    rcases le_total g.1 g.2 with hg | hg
    · rw [min_eq_left hg, max_eq_right hg]
      constructor <;> nlinarith
    · rw [min_eq_right hg, max_eq_left hg]
      constructor <;> nlinarith

theorem measure_ok {σ : Type} {sim : Simulation σ} {rq : Request} {s s' : σ} {out : Scan ℝ × Scan (ℝ × ℝ) × Scan ℕ}
    (h : measure sim rq s = (.ok out, s')) :
    ∃ g1 g2 gen, measureCheck sim.lim sim.gen.isSome rq = .ok (g1, g2) ∧ sim.gen = some gen ∧
      measureRun sim gen rq g1 g2 s = (.ok out, s') := by
  unfold measure at h
  cases hm : measureCheck sim.lim sim.gen.isSome rq with
  | error e => rw [hm] at h; simp [M.raise] at h
  | ok g =>
    rw [hm] at h
    cases hg : sim.gen with
    | none => rw [hg] at h; simp [M.raise] at h
    | some gen => rw [hg] at h; exact ⟨g.1, g.2, gen, rfl, rfl, h⟩

/-- C01: if `measure` returns data, then all voltages of all pixels (any number of pixels) and the given sensor voltages
respect the limits. -/
theorem C01_within {σ : Type} (sim : Simulation σ) (rq : Request) (s s' : σ) (out : Scan ℝ × Scan (ℝ × ℝ) × Scan ℕ)
    (h : measure sim rq s = (.ok out, s')) :
    (∀ v ∈ rq.g1, Within sim.lim.g1 v) ∧ (∀ v ∈ rq.g2, Within sim.lim.g2 v) ∧
    (∀ v, rq.s1 = some v → Within sim.lim.s1 v) ∧ (∀ v, rq.s2 = some v → Within sim.lim.s2 v) ∧
    ∃ g1 g2 : ℝ × ℝ, rq.g1 = [g1.1, g1.2] ∧ rq.g2 = [g2.1, g2.2] ∧
      ∀ (n : ℕ) (i : Fin n), Within sim.lim.g1 (sweepVolt g1 n i) ∧ Within sim.lim.g2 (sweepVolt g2 n i) := by
  obtain ⟨g1, g2, gen, hm, -, -⟩ := measure_ok h
  · obtain ⟨hw, -⟩ := (C02_accepts _ _ _).1 ⟨_, hm⟩
    obtain ⟨e1, e2⟩ := C02_ranges _ _ _ _ _ hm
    refine ⟨hw.lim1, hw.lim2, hw.sensor1, hw.sensor2, g1, g2, e1, e2, fun n i => ⟨fun l hl => ?_, fun l hl => ?_⟩⟩
    · have a := hw.lim1 g1.1 (by simp [e1]) l hl
      have b := hw.lim1 g1.2 (by simp [e1]) l hl
      obtain ⟨c, d⟩ := sweepVolt_mem g1 n i
      exact ⟨le_trans (le_min a.1 b.1) c, le_trans d (max_le a.2 b.2)⟩
    · have a := hw.lim2 g2.1 (by simp [e2]) l hl
      have b := hw.lim2 g2.2 (by simp [e2]) l hl
      obtain ⟨c, d⟩ := sweepVolt_mem g2 n i
      exact ⟨le_trans (le_min a.1 b.1) c, le_trans d (max_le a.2 b.2)⟩

/-- Every request that is not accepted fails without touching any component. -/
theorem C01_no_effect {σ : Type} (sim : Simulation σ) (rq : Request) (s : σ) (e : PyErr)
    (h : measureCheck sim.lim sim.gen.isSome rq = .error e) : measure sim rq s = (.error e, s) := by
  unfold measure
  rw [h]
  cases sim.gen <;> rfl

/-! ### C03: omitted sensor voltages -/

/-- C03 is refuted: an otherwise well-formed request without sensor voltages fails with `TypeError` as soon as limits of
sensor gate 1 are configured. -/
theorem C03_refuted : ∃ (lim : Limits) (rq : Request), rq.s1 = none ∧ rq.s2 = none ∧ WellFormed lim true rq ∧
    measureCheck lim true rq = .error .typeError := by
  refine ⟨⟨none, none, some (-1, 1), none⟩, ⟨[0, 1], [0, 1], none, none, .arr [100, 100]⟩, rfl, rfl, ?_, ?_⟩
  · constructor <;> simp [RangeWithin, Within, Sweeps2d, Resolution.entries]
  · simp [measureCheck, rangeOutside, sensorOutside, valueOutside]

/-- C03, the part that holds: without configured sensor limits, omitting both voltages is fine; and with a limit on any
sensor gate every otherwise well-formed request without sensor voltages fails with `TypeError`. -/
theorem C03_partial (lim : Limits) (rq : Request) (h1 : rq.s1 = none) (h2 : rq.s2 = none)
    (hw : WellFormed lim true rq) :
    ((∃ g, measureCheck lim true rq = .ok g) ↔ lim.s1 = none ∧ lim.s2 = none) ∧
    (¬ (lim.s1 = none ∧ lim.s2 = none) → measureCheck lim true rq = .error .typeError) := by
  have hiff : (∃ g, measureCheck lim true rq = .ok g) ↔ lim.s1 = none ∧ lim.s2 = none := by
    rw [C02_accepts]
    constructor
    · rintro ⟨-, hc⟩
      exact ⟨by by_contra h; exact hc.1 h h1, by by_contra h; exact hc.2 h h2⟩
    · rintro ⟨e1, e2⟩
      exact ⟨hw, by simp [e1], by simp [e2]⟩
  refine ⟨hiff, fun hn => ?_⟩
  obtain ⟨a1, b1, e1⟩ := length_two hw.len1
  obtain ⟨a2, b2, e2⟩ := length_two hw.len2
  unfold measureCheck
  rw [if_neg (by simp), e1, e2]
  simp only
  rw [if_neg (by simp [rangeOutside_false.2 (e1 ▸ hw.lim1), rangeOutside_false.2 (e2 ▸ hw.lim2)])]
  have : sensorOutside lim rq.s1 rq.s2 = .error .typeError := by
    rw [h1, h2]
    rcases lim with ⟨_, _, _ | l1, _ | l2⟩ <;> simp [sensorOutside, valueOutside] at hn ⊢
  rw [this]

/-! ### C39: order of the occupation distortions -/

/-- Specification: the generator that yields data of `gen` distorted by the given distortions (in list order), each in
frozen mode and each provided with the generator distorted by the distortions before it. -/
def frozenGen {σ : Type} (gen : Gen σ) (ds : List (OccDist σ)) : Gen σ :=
  ds.reverse.rec gen fun d _ prev => fun v1 v2 res => do
    let data ← prev v1 v2 res
    d data v1 v2 prev true

theorem frozenGen_nil {σ : Type} (gen : Gen σ) : frozenGen gen [] = gen := rfl

theorem frozenGen_snoc {σ : Type} (gen : Gen σ) (pre : List (OccDist σ)) (d : OccDist σ) :
    frozenGen gen (pre ++ [d]) = fun v1 v2 res =>
      frozenGen gen pre v1 v2 res >>= fun data => d data v1 v2 (frozenGen gen pre) true := by
  unfold frozenGen
  rw [List.reverse_append]
  rfl

theorem frozenGen_cons {σ : Type} (gen : Gen σ) (d : OccDist σ) (ds : List (OccDist σ)) :
    frozenGen (withNoise gen d) ds = frozenGen gen (d :: ds) := by
  induction ds using List.reverseRecOn with
  | nil => rfl
  | append_singleton ds e ih =>
    rw [frozenGen_snoc, ih, ← List.cons_append, frozenGen_snoc]

theorem applyOcc_append {σ : Type} (g1 g2 : ℝ × ℝ) (pre post : List (OccDist σ)) (gen : Gen σ) (data : CsdData) :
    applyOcc g1 g2 (pre ++ post) gen data =
      (applyOcc g1 g2 pre gen data >>= fun x => applyOcc g1 g2 post (frozenGen gen pre) x.1) := by
  induction pre generalizing gen data with
  | nil => simp [applyOcc, frozenGen_nil]
  | cons d pre ih =>
    simp only [List.cons_append, applyOcc, bind_assoc]
    congr 1
    funext x
    rw [ih, frozenGen_cons]

/-- C39: in `measure`, distortion `d` at any position of the list is called once, after all distortions before it, with
the data they left, with `freeze = False`, and with the generator that yields ideal data distorted by exactly the
distortions before it in frozen mode; the remaining distortions follow. -/
theorem C39_order {σ : Type} (g1 g2 : ℝ × ℝ) (gen : Gen σ) (data : CsdData) (pre post : List (OccDist σ))
    (d : OccDist σ) :
    applyOcc g1 g2 (pre ++ d :: post) gen data = (do
      let x ← applyOcc g1 g2 pre gen data
      let y ← d x.1 g1 g2 (frozenGen gen pre) false
      applyOcc g1 g2 post (frozenGen gen (pre ++ [d])) y) := by
  rw [applyOcc_append]
  congr 1
  funext x
  simp only [applyOcc]
  congr 1
  funext y
  congr 1
  rw [frozenGen_snoc]
  rfl

/-- C39 for `measure` itself: the occupations and lead transitions returned are those left by the loop over the
distortions started on the ideal data of the request, and the sensor sees the distorted occupations. -/
theorem C39_measure {σ : Type} (sim : Simulation σ) (gen : Gen σ) (rq : Request) (g1 g2 : ℝ × ℝ) (s : σ)
    (hgen : sim.gen = some gen) (h : measureCheck sim.lim true rq = .ok (g1, g2)) (csd : Scan ℝ) (occ : Scan (ℝ × ℝ))
    (lead : Scan ℕ) (s' : σ) (hm : measure sim rq s = (.ok (csd, occ, lead), s')) :
    ∃ ideal s1 gen' s2 pot s3, gen g1 g2 rq.res s = (.ok ideal, s1) ∧
      applyOcc g1 g2 (sim.occD.getD []) gen ideal s1 = (.ok ((occ, lead), gen'), s2) ∧
      sim.sensor.potential occ g1 g2 (if sim.sensor.scan then some (rq.s1, rq.s2) else none) s2 = (.ok pot, s3) := by
  unfold measure at hm
  rw [hgen] at hm
  simp only [Option.isSome_some, h] at hm
  unfold measureRun at hm
  simp only [M.bind_ok] at hm
  obtain ⟨data, t1, e1, out, t2, e2, pot, t3, e3, pot', t4, e4, c, t5, e5, c', t6, e6, e7⟩ := hm
  simp only [M.pure_run, Prod.mk.injEq, Except.ok.injEq] at e7
  obtain ⟨⟨rfl, rfl, rfl⟩, rfl⟩ := e7
  exact ⟨data, t1, out.2, t2, pot, t3, e1, e2, e3⟩

/-- Distortions that are a function `T` of the data and the sweep ranges only. -/
def pureDist {σ : Type} (T : CsdData → ℝ × ℝ → ℝ × ℝ → CsdData) : OccDist σ := fun data v1 v2 _ _ => pure (T data v1 v2)

/-- C39 for such distortions: the data returned are `T_n (... (T_1 ideal))`, and the generator given to the distortion
after `pre` yields, for every other request, the ideal data transformed by exactly the functions in `pre` in order. -/
theorem C39_pure {σ : Type} (g1 g2 : ℝ × ℝ) (gen : Gen σ) (data : CsdData)
    (Ts : List (CsdData → ℝ × ℝ → ℝ × ℝ → CsdData)) (s : σ) :
    (∃ gen', applyOcc g1 g2 (Ts.map pureDist) gen data s = (.ok (Ts.foldl (fun x T => T x g1 g2) data, gen'), s)) ∧
    ∀ v1 v2 res ideal s', gen v1 v2 res s = (.ok ideal, s') →
      frozenGen gen (Ts.map pureDist) v1 v2 res s = (.ok (Ts.foldl (fun x T => T x v1 v2) ideal), s') := by
  constructor
  · induction Ts generalizing gen data with
    | nil => exact ⟨gen, rfl⟩
    | cons T Ts ih =>
      obtain ⟨g', h⟩ := ih (withNoise gen (pureDist T)) (T data g1 g2)
      exact ⟨g', h⟩
  · induction Ts using List.reverseRecOn with
    | nil => intro v1 v2 res ideal s' h; exact h
    | append_singleton Ts T ih =>
      intro v1 v2 res ideal s' h
      rw [List.map_append, List.map_cons, List.map_nil, frozenGen_snoc]
      refine (M.bind_run (frozenGen gen (Ts.map pureDist) v1 v2 res) _ s).trans ?_
      rw [ih v1 v2 res ideal s' h]
      simp [pureDist]

/-- Non-vacuity: two distortions that do not commute are applied in list order. -/
example : ∃ gen', applyOcc (0, 1) (0, 1)
    ([fun d _ _ => (d.1.map fun o => (o.1 + 1, o.2), d.2), fun d _ _ => (d.1.map fun o => (2 * o.1, o.2), d.2)].map
      pureDist) (fun _ _ _ => pure (.d0 (0, 0), .d0 0)) (.d0 (3, 0), .d0 7) () =
    (.ok ((.d0 (8, 0), .d0 7), gen'), ()) := by
  obtain ⟨g, h⟩ := (C39_pure (0, 1) (0, 1) (fun _ _ _ => pure (.d0 (0, 0), .d0 0)) (.d0 (3, 0), .d0 7)
    [fun d _ _ => (d.1.map fun o => (o.1 + 1, o.2), d.2), fun d _ _ => (d.1.map fun o => (2 * o.1, o.2), d.2)] ()).1
  refine ⟨g, h.trans ?_⟩
  norm_num [Scan.map]

/-! ### C49: shapes -/

/-- The shape of a scan with the given numbers of pixels per gate: gate 2 is axis 0, gate 1 is axis 1. -/
def requestShape (res : List ℤ) : List ℕ := (res.map Int.toNat).reverse

/-- An occupation distortion that keeps the shapes of both arrays (if it does not raise). -/
def OccShape {σ : Type} (d : OccDist σ) : Prop := ∀ data v1 v2 gen fr s data' s', d data v1 v2 gen fr s = (.ok data', s') →
  data'.1.shape = data.1.shape ∧ data'.2.shape = data.2.shape

/-- A potential or response distortion that keeps the shape. -/
def SigShape {σ : Type} (d : SigDist σ) : Prop := ∀ x v1 v2 s y s', d x v1 v2 s = (.ok y, s') → y.shape = x.shape

theorem applyOcc_shape {σ : Type} (g1 g2 : ℝ × ℝ) : ∀ (ds : List (OccDist σ)) (gen : Gen σ) (data : CsdData) (s : σ)
    (data' : CsdData) (gen' : Gen σ) (s' : σ), (∀ d ∈ ds, OccShape d) →
    applyOcc g1 g2 ds gen data s = (.ok (data', gen'), s') →
    data'.1.shape = data.1.shape ∧ data'.2.shape = data.2.shape
  | [], gen, data, s, data', gen', s', _, h => by
    simp only [applyOcc, M.pure_run, Prod.mk.injEq, Except.ok.injEq] at h
    obtain ⟨⟨rfl, rfl⟩, rfl⟩ := h
    exact ⟨rfl, rfl⟩
  | d :: ds, gen, data, s, data', gen', s', hd, h => by
    simp only [applyOcc, M.bind_ok] at h
    obtain ⟨x, t, e1, e2⟩ := h
    have a := hd d (by simp) _ _ _ _ _ _ _ _ e1
    have b := applyOcc_shape g1 g2 ds _ _ _ _ _ _ (fun d' h' => hd d' (by simp [h'])) e2
    exact ⟨b.1.trans a.1, b.2.trans a.2⟩

theorem applySig_shape {σ : Type} (g1 g2 : ℝ × ℝ) : ∀ (ds : List (SigDist σ)) (x : Scan ℝ) (s : σ) (y : Scan ℝ) (s' : σ),
    (∀ d ∈ ds, SigShape d) → applySig g1 g2 ds x s = (.ok y, s') → y.shape = x.shape
  | [], x, s, y, s', _, h => by
    simp only [applySig, M.pure_run, Prod.mk.injEq, Except.ok.injEq] at h
    rw [h.1]
  | d :: ds, x, s, y, s', hd, h => by
    simp only [applySig, M.bind_ok] at h
    obtain ⟨z, t, e1, e2⟩ := h
    exact (applySig_shape g1 g2 ds _ _ _ _ (fun d' h' => hd d' (by simp [h'])) e2).trans
      (hd d (by simp) _ _ _ _ _ _ e1)

/-- The geometric ideal CSD yields arrays of the requested shape. -/
theorem C49_ideal (cfg : IdealCfg) (lab : Labelling) (v1 v2 : List ℝ) (res : Resolution) (out : IdealOut)
    (h : idealCsd cfg lab v1 v2 res = .ok out) :
    out.data.1.shape = requestShape res.entries ∧ out.data.2.shape = requestShape res.entries := by
  unfold idealCsd at h
  split at h
  · cases h
  · split at h
    · rename_i hres _
      split at h
      · cases h
      split at h
      · cases h
      · cases h
        simp [IdealOut.data, Scan.shape, requestShape, hres]
    · rename_i hres _
      split at h
      · cases h
      · cases h
        simp [IdealOut.data, Scan.shape, requestShape, hres]
    · cases h

theorem genericPotential_shape (s : SensorGeneric) (occ : Scan (ℝ × ℝ)) (g1 g2 : ℝ × ℝ) (p : Scan ℝ)
    (h : s.potential occ g1 g2 = .ok p) : p.shape = occ.shape := by
  cases occ with
  | d0 x => cases h
  | d1 n f =>
    simp only [SensorGeneric.potential] at h
    split at h
    · cases h
    · cases h; rfl
  | d2 r c f =>
    simp only [SensorGeneric.potential] at h
    split at h
    · cases h
    · cases h; rfl

theorem genericResponse_shape (s : SensorGeneric) (hp : s.peaks ≠ some []) (p : Scan ℝ) :
    (s.response p).shape = p.shape := by
  unfold SensorGeneric.response
  split
  · rfl
  · contradiction
  · cases p <;> rfl

/-- C49: with a geometric ideal CSD, a generic sensor (peak list not empty) and any shape-preserving distortions, every
successful measurement returns occupations, lead transitions and csd of the requested shape. -/
theorem C49_measure_partial {σ : Type} (sim : Simulation σ) (cfg : IdealCfg) (lab : Labelling) (sens : SensorGeneric)
    (hgen : sim.gen = some (idealGen cfg lab)) (hsens : sim.sensor = genericSensor sens) (hp : sens.peaks ≠ some [])
    (hocc : ∀ d ∈ sim.occD.getD [], OccShape d) (hpot : ∀ d ∈ sim.potD.getD [], SigShape d)
    (hresp : ∀ d ∈ sim.respD.getD [], SigShape d) (rq : Request) (s s' : σ) (csd : Scan ℝ) (occ : Scan (ℝ × ℝ))
    (lead : Scan ℕ) (h : measure sim rq s = (.ok (csd, occ, lead), s')) :
    occ.shape = requestShape rq.res.entries ∧ lead.shape = requestShape rq.res.entries ∧
      csd.shape = requestShape rq.res.entries := by
  obtain ⟨g1, g2, gen, hm, hg, h⟩ := measure_ok h
  · rw [hgen] at hg
    cases hg
    unfold measureRun at h
    simp only [M.bind_ok] at h
    obtain ⟨data, t1, e1, out, t2, e2, pot, t3, e3, pot', t4, e4, c, t5, e5, c', t6, e6, e7⟩ := h
    simp only [M.pure_run, Prod.mk.injEq, Except.ok.injEq] at e7
    obtain ⟨⟨rfl, rfl, rfl⟩, rfl⟩ := e7
    have hd : data.1.shape = requestShape rq.res.entries ∧ data.2.shape = requestShape rq.res.entries := by
      unfold idealGen at e1
      cases ho : idealCsd cfg lab [g1.1, g1.2] [g2.1, g2.2] rq.res with
      | ok o =>
        rw [ho] at e1
        simp only [M.pure_run, Prod.mk.injEq, Except.ok.injEq] at e1
        rw [← e1.1]
        exact C49_ideal _ _ _ _ _ _ ho
      | error e => rw [ho] at e1; simp at e1
    have ho := applyOcc_shape g1 g2 _ _ _ _ _ _ _ hocc e2
    have hpt : ∃ p, pot = .single p ∧ p.shape = out.1.1.shape := by
      rw [hsens] at e3
      simp only [genericSensor] at e3
      cases hp' : sens.potential out.1.1 g1 g2 with
      | ok p =>
        rw [hp'] at e3
        simp only [M.pure_run, Prod.mk.injEq, Except.ok.injEq] at e3
        exact ⟨p, e3.1.symm, genericPotential_shape _ _ _ _ _ hp'⟩
      | error e => rw [hp'] at e3; simp at e3
    obtain ⟨p, rfl, hpshape⟩ := hpt
    have hpt' : ∃ q, pot' = .single q ∧ q.shape = p.shape := by
      unfold distortPotential at e4
      cases hds : sim.potD with
      | none =>
        rw [hds] at e4
        simp only [M.pure_run, Prod.mk.injEq, Except.ok.injEq] at e4
        exact ⟨p, e4.1.symm, rfl⟩
      | some ds =>
        rw [hds] at e4
        simp only at e4
        split_ifs at e4
        · simp only [M.bind_ok] at e4
          obtain ⟨q, t, f1, f2⟩ := e4
          simp only [M.pure_run, Prod.mk.injEq, Except.ok.injEq] at f2
          exact ⟨q, f2.1.symm, applySig_shape g1 g2 ds _ _ _ _ (by simpa [hds] using hpot) f1⟩
        · simp only [M.pure_run, Prod.mk.injEq, Except.ok.injEq] at e4
          exact ⟨p, e4.1.symm, rfl⟩
    obtain ⟨q, rfl, hqshape⟩ := hpt'
    have hc : c.shape = q.shape := by
      rw [hsens] at e5
      simp only [genericSensor, M.pure_run, Prod.mk.injEq, Except.ok.injEq] at e5
      rw [← e5.1]
      exact genericResponse_shape _ hp _
    have hc' : c'.shape = c.shape := by
      unfold distortResponse at e6
      cases hds : sim.respD with
      | none =>
        rw [hds] at e6
        simp only [M.pure_run, Prod.mk.injEq, Except.ok.injEq] at e6
        rw [e6.1]
      | some ds =>
        rw [hds] at e6
        exact applySig_shape g1 g2 ds _ _ _ _ (by simpa [hds] using hresp) e6
    refine ⟨ho.1.trans hd.1, ho.2.trans hd.2, ?_⟩
    rw [hc', hc, hqshape, hpshape, ho.1, hd.1]

/-- C49 fails for a sensor with an empty list of peaks (accepted by its setter): the csd is the number 0, not an
array. -/
theorem C49_empty_peaks_refuted (alphaDot alphaGate : ℝ × ℝ) (offset : ℝ) (r c : ℕ) (mu : Fin r → Fin c → ℝ) :
    ((⟨some [], alphaDot, alphaGate, offset⟩ : SensorGeneric).response (.d2 r c mu)).shape = [] := rfl

/-! ### C50: setters -/

/-- C50: `None` and arrays with two entries are stored; arrays of any other length and all other values are rejected with
`ValueError`. -/
theorem C50_partial (v : LimVal) (hv : ∀ xs, v ≠ .list xs) :
    (∀ r, setLimits v = .ok r ↔ (v = .none ∧ r = none) ∨ ∃ a b, v = .ndarray [a, b] ∧ r = some [a, b]) ∧
    (∀ e, setLimits v = .error e → e = .valueError) := by
  cases v with
  | none => simp [setLimits, eq_comm]
  | list xs => exact absurd rfl (hv xs)
  | other => simp [setLimits, eq_comm]
  | ndarray xs =>
    simp only [setLimits]
    split_ifs with h
    · obtain ⟨a, b, rfl⟩ := length_two h
      simp [eq_comm]
    · refine ⟨fun r => ?_, fun e he => by cases he; rfl⟩
      simp only [false_and, false_or, false_iff]
      rintro ⟨a, b, h', -⟩
      cases h'
      simp at h

/-- C50 is refuted for lists: every list, also with two entries, raises `AttributeError` instead of being stored (or
rejected with `ValueError`). -/
theorem C50_list_refuted (xs : List ℝ) : setLimits (.list xs) = .error .attributeError := rfl

/-- C50 for the distortion lists: `None` and lists in which all elements have the right type are stored as they are, all others raise `ValueError`. -/
theorem C50_distortions {α : Type} (isOk : α → Bool) (v : Option (List α)) :
    (∀ r, setDistortions isOk v = .ok r ↔ r = v ∧ ∀ xs, v = some xs → ∀ x ∈ xs, isOk x = true) ∧
    (∀ xs, v = some xs → (∃ x ∈ xs, isOk x = false) → setDistortions isOk v = .error .valueError) := by
  cases v with
  | none => exact ⟨fun r => ⟨fun e => by cases e; exact ⟨rfl, nofun⟩, fun e => by rw [e.1]; rfl⟩, nofun⟩
  | some xs =>
    simp only [setDistortions]
    split_ifs with h
    · rw [List.all_eq_true] at h
      refine ⟨fun r => ⟨fun e => ⟨by cases e; rfl, fun ys hy => by cases hy; exact h⟩, fun e => by rw [e.1]⟩, ?_⟩
      rintro ys hy ⟨x, hx, hf⟩
      cases hy
      rw [h x hx] at hf
      cases hf
    · rw [List.all_eq_true] at h
      exact ⟨fun r => ⟨nofun, fun e => absurd (e.2 xs rfl) h⟩, fun _ _ _ => rfl⟩

example : setDistortions (fun n : ℕ => n < 3) (some [1, 2]) = .ok (some [1, 2]) ∧ setDistortions (fun n : ℕ => n < 3) none = .ok none ∧
    setDistortions (fun n : ℕ => n < 3) (some [1, 5]) = .error .valueError :=
  ⟨((C50_distortions _ _).1 _).2 ⟨rfl, by simp⟩, ((C50_distortions _ _).1 _).2 ⟨rfl, nofun⟩, (C50_distortions _ _).2 _ rfl ⟨5, by simp, rfl⟩⟩

/-! ### Concrete cases -/

/-- A concrete accepted request: descending sweep of gate 1, limits on one plunger gate and both sensor gates. -/
theorem sampleRequest_ok : WellFormed ⟨some (-1, 1), none, some (0, 2), some (0, 2)⟩ true
    ⟨[0.5, -0.5], [3, 4], some 1, some 2, .arr [20, 10]⟩ ∧
    Comparable ⟨some (-1, 1), none, some (0, 2), some (0, 2)⟩ ⟨[0.5, -0.5], [3, 4], some 1, some 2, .arr [20, 10]⟩ := by
  refine ⟨?_, by simp [Comparable]⟩
  constructor <;> simp [RangeWithin, Within, Sweeps2d, Resolution.entries] <;> norm_num

example : ∃ g, measureCheck ⟨some (-1, 1), none, some (0, 2), some (0, 2)⟩ true
    ⟨[0.5, -0.5], [3, 4], some 1, some 2, .arr [20, 10]⟩ = .ok g := (C02_accepts _ _ _).2 sampleRequest_ok

/-- A concrete rejected request: the end of a descending sweep is below the limit. -/
example (sim : Simulation Unit) (h : sim.lim = ⟨some (-1, 1), none, none, none⟩) :
    measure sim ⟨[0, -2], [3, 4], none, none, .int 10⟩ () = (.error .valueError, ()) := by
  refine C01_plunger sim _ () rfl rfl (Or.inl ⟨-2, by simp, ?_⟩)
  rw [h]
  norm_num [Within]

end SimCATS
