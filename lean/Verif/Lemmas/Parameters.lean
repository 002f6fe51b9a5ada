import Verif.Spec.Parameters
import Mathlib.Tactic.Linarith
import Mathlib.Tactic.NormNum

/-!
Helper lemmas about parameters of components.
-/

namespace SimCATS

open Spec

/-- All properties of a class use the attribute with their own name and one class prefix. -/
lemma own_keys (k : Component) : ∃ C : String, ∀ p ∈ k.cls.props,
    (∀ key, p.get = some key → key = .priv C p.name) ∧ (∀ chk key, p.set = some (chk, key) → key = .priv C p.name) := by
  cases k
  case peakGaussian => exact ⟨"SensorPeakGaussian", by simp [Component.cls, clsGaussian, plain, eq_comm]⟩
  case peakLorentzian => exact ⟨"SensorPeakLorentzian", by simp [Component.cls, clsLorentzian, plain, eq_comm]⟩
  case riseGlf => exact ⟨"SensorRiseGLF", by simp [Component.cls, clsRise, plain, eq_comm]⟩
  case barrierGlf => exact ⟨"BarrierFunctionGLF", by simp [Component.cls, clsBarrier, plain, eq_comm]⟩
  case barrierMultiGlf => exact ⟨"BarrierFunctionMultiGLF", by simp [Component.cls, clsMulti, plain, eq_comm]⟩
  case circle => exact ⟨"SensorPeakDeformationCircle", by simp [Component.cls, clsCircle, plain, eq_comm]⟩
  case linear => exact ⟨"SensorPeakDeformationLinear", by simp [Component.cls, clsLinear, plain, eq_comm]⟩
  case whiteNoise => exact ⟨"SensorResponseWhiteNoise", by simp [Component.cls, clsWhite, plain, readonly, eq_comm]⟩
  case pinkNoise => exact ⟨"SensorPotentialPinkNoise", by simp [Component.cls, clsPink, plain, readonly, eq_comm]⟩
  case fermiBlur =>
    exact ⟨"OccupationTransitionBlurringFermiDirac", by simp [Component.cls, clsFermi, plain, readonly, eq_comm]⟩
  case gaussBlur =>
    exact ⟨"OccupationTransitionBlurringGaussian", by simp [Component.cls, clsGaussBlur, plain, readonly, eq_comm]⟩
  case dotJumps => exact ⟨"OccupationDotJumps", by simp [Component.cls, clsDotJumps, plain, readonly, eq_comm]⟩
  case telegraph => exact ⟨"RandomTelegraphNoise", by simp [Component.cls, clsTelegraph, plain, readonly, eq_comm]⟩
  case idealGeometric => exact ⟨"IdealCSDGeometric", by simp [Component.cls, clsGeometric, plain, eq_comm]⟩

lemma find_spec {c : PyClass} {n : String} {p : PyProp} (h : c.find n = some p) : p ∈ c.props ∧ p.name = n := by
  unfold PyClass.find at h
  exact ⟨List.mem_of_find?_eq_some h, by simpa using List.find?_some h⟩

/-- Assigning one name leaves every other name as it is. -/
lemma setAttr_other (k : Component) {m n : String} (hmn : m ≠ n) (v : PVal) (o : Attrs) :
    k.cls.getAttr n (k.cls.setAttr m v o).2 = k.cls.getAttr n o := by
  obtain ⟨C, hC⟩ := own_keys k
  have key : (k.cls.setAttr m v o).2 = o ∨ (k.cls.setAttr m v o).2 = Function.update o (.pub m) (some v)
      ∨ (k.cls.setAttr m v o).2 = Function.update o (.priv C m) (some v) := by
    unfold PyClass.setAttr
    cases hf : k.cls.find m with
    | none => exact Or.inr (Or.inl rfl)
    | some p =>
      dsimp only
      cases hs : p.set with
      | none => exact Or.inl rfl
      | some q =>
        obtain ⟨chk, key⟩ := q
        dsimp only
        cases chk.run v with
        | error e => exact Or.inl rfl
        | ok u =>
          have h1 := find_spec hf
          have h2 := (hC p h1.1).2 chk key hs
          rw [h1.2] at h2
          exact Or.inr (Or.inr (by rw [h2]))
  have hread : k.cls.getAttr n o = (match k.cls.find n with
      | none => some (readKey o (.pub n))
      | some p => p.get.map (readKey o)) := rfl
  have h3 : ∀ o' : Attrs, (∀ q, q = Key.pub n ∨ q = Key.priv C n → o' q = o q) →
      k.cls.getAttr n o' = k.cls.getAttr n o := by
    intro o' h
    unfold PyClass.getAttr
    cases hf : k.cls.find n with
    | none =>
      dsimp only
      unfold readKey
      rw [h _ (Or.inl rfl)]
    | some p =>
      dsimp only
      cases hg : p.get with
      | none => rfl
      | some q =>
        have h1 := find_spec hf
        have h2 := (hC p h1.1).1 q hg
        rw [h1.2] at h2
        simp only [Option.map_some]
        unfold readKey
        rw [h _ (Or.inr h2)]
  rcases key with h | h | h
  · rw [h]
  · rw [h]
    apply h3
    rintro q (rfl | rfl)
    · exact Function.update_of_ne (by simpa using hmn.symm) _ _
    · exact Function.update_of_ne (by simp) _ _
  · rw [h]
    apply h3
    rintro q (rfl | rfl)
    · exact Function.update_of_ne (by simp) _ _
    · exact Function.update_of_ne (by simpa using hmn.symm) _ _

/-- The check of a documented parameter. -/
noncomputable def docCheck (k : Component) (n : String) (v : PVal) : Py Unit :=
  if n ∈ mustBePositive k then SetCheck.positive.run v
  else if n ∈ mustBeGroups k then SetCheck.sevenFold.run v else .ok ()

/-- How a documented parameter is stored. -/
lemma param_slot (k : Component) {n : String} (hn : n ∈ params k) : ∃ key : Key,
    (∀ v o, k.cls.setAttr n v o = match docCheck k n v with
      | .error e => (.error e, o)
      | .ok () => (.ok (), Function.update o key (some v))) ∧
    (∀ o, k.cls.getAttr n o = some (readKey o key)) := by
  cases k <;> simp only [params, List.mem_cons, List.not_mem_nil, or_false] at hn
  all_goals
    (try rcases hn with h | h | h | h | h | h | h | h | h)
    <;> (try rcases hn with h | h | h | h | h | h | h | h)
    <;> (try rcases hn with h | h | h | h | h)
    <;> (try rcases hn with h | h | h | h)
    <;> (try rcases hn with h | h | h)
    <;> (try rcases hn with h | h)
    <;> subst_vars
    <;> exact ⟨_, fun v o => rfl, fun o => rfl⟩

lemma docCheck_ok (k : Component) (n : String) (v : PVal) (hd : n ∈ mustBePositive k → n ∉ mustBeGroups k) :
    docCheck k n v = .ok () ↔ Allowed k n v := by
  unfold docCheck Allowed
  by_cases h1 : n ∈ mustBePositive k
  · rw [if_pos h1]
    have h2 := hd h1
    cases v with
    | num x =>
      by_cases hx : x ≤ 0
      · simp [SetCheck.run, h1, h2, hx]
      · simp [SetCheck.run, h1, h2, hx, not_le.1 hx]
    | none => simp [SetCheck.run, h1]
    | seq l => simp [SetCheck.run, h1]
    | obj i => simp [SetCheck.run, h1]
  · rw [if_neg h1]
    by_cases h2 : n ∈ mustBeGroups k
    · rw [if_pos h2]
      cases v with
      | seq l =>
        by_cases hl : l.length % 7 = 0
        · simp [SetCheck.run, h1, h2, hl, Nat.dvd_iff_mod_eq_zero]
        · simp [SetCheck.run, h1, h2, hl, Nat.dvd_iff_mod_eq_zero]
      | num x => simp [SetCheck.run, h1, h2]
      | none => simp [SetCheck.run, h1, h2]
      | obj i => simp [SetCheck.run, h1, h2]
    · rw [if_neg h2]
      simp [h1, h2]

lemma positive_not_groups (k : Component) (n : String) : n ∈ mustBePositive k → n ∉ mustBeGroups k := by
  cases k <;> simp [mustBePositive, mustBeGroups]

lemma docCheck_iff (k : Component) (n : String) (v : PVal) : docCheck k n v = .ok () ↔ Allowed k n v :=
  docCheck_ok k n v (positive_not_groups k n)

open Classical in
/-- One assignment. -/
lemma getAttr_setAttr (k : Component) {n : String} (hn : n ∈ params k) (m : String) (v w : PVal) (o : Attrs)
    (hw : k.cls.getAttr n o = some (.ok w)) :
    k.cls.getAttr n (k.cls.setAttr m v o).2 = some (.ok (if m = n ∧ Allowed k n v then v else w)) := by
  by_cases hm : m = n
  · subst hm
    obtain ⟨key, hset, hget⟩ := param_slot k hn
    rw [hset]
    cases hd : docCheck k m v with
    | error e =>
      have h : ¬ Allowed k m v := fun h => by
        rw [(docCheck_iff k m v).2 h] at hd
        cases hd
      rw [if_neg (fun h' => h h'.2)]
      exact hw
    | ok u =>
      rw [if_pos ⟨rfl, (docCheck_iff k m v).1 hd⟩]
      dsimp only
      rw [hget]
      unfold readKey
      rw [Function.update_self]
  · rw [if_neg (fun h => hm h.1), setAttr_other k hm, hw]

lemma lastAllowed_nil (k : Component) (n : String) (w : PVal) : lastAllowed k n w [] = w := rfl

open Classical in
lemma lastAllowed_cons (k : Component) (n : String) (w : PVal) (m : String) (v : PVal) (prog : List (String × PVal)) :
    lastAllowed k n w ((m, v) :: prog) = lastAllowed k n (if m = n ∧ Allowed k n v then v else w) prog := by
  unfold lastAllowed
  by_cases hm : m = n
  · by_cases hv : Allowed k n v
    · rw [if_pos ⟨hm, hv⟩]
      simp only [List.filter_cons, hm, hv, decide_true, if_true, List.map_cons, List.getLastD_cons]
    · rw [if_neg (fun h => hv h.2)]
      simp [hm, hv]
  · rw [if_neg (fun h => hm h.1)]
    simp [hm]

lemma lastAllowed_allowed (k : Component) (n : String) (prog : List (String × PVal)) :
    ∀ w, Allowed k n w → Allowed k n (lastAllowed k n w prog) := by
  classical
  induction prog with
  | nil => exact fun w h => h
  | cons a prog ih =>
    obtain ⟨m, v⟩ := a
    intro w h
    rw [lastAllowed_cons]
    apply ih
    by_cases hc : m = n ∧ Allowed k n v
    · rw [if_pos hc]
      exact hc.2
    · rw [if_neg hc]
      exact h

lemma assignAll_read (k : Component) {n : String} (hn : n ∈ params k) (prog : List (String × PVal)) :
    ∀ (o : Attrs) (w : PVal), k.cls.getAttr n o = some (.ok w) →
      k.cls.getAttr n (assignAll k.cls prog o) = some (.ok (lastAllowed k n w prog)) := by
  classical
  induction prog with
  | nil => exact fun o w h => h
  | cons a prog ih =>
    obtain ⟨m, v⟩ := a
    intro o w h
    rw [lastAllowed_cons]
    exact ih _ _ (getAttr_setAttr k hn m v w o h)

/-- Names without setter are rejected and keep their value. -/
lemma report_slot (k : Component) {n : String} (hn : n ∈ reports k ∨ n ∈ computed k) (v : PVal) (o : Attrs) :
    k.cls.setAttr n v o = (.error .attributeError, o) := by
  cases k <;> simp only [reports, computed, List.mem_cons, List.not_mem_nil, or_false, false_or] at hn
  case barrierGlf => rcases hn with h | h <;> subst h <;> rfl
  all_goals subst hn; rfl

lemma assignAll_report (k : Component) {n : String} (hn : n ∈ reports k) (prog : List (String × PVal)) :
    ∀ o : Attrs, k.cls.getAttr n (assignAll k.cls prog o) = k.cls.getAttr n o := by
  induction prog with
  | nil => exact fun o => rfl
  | cons a prog ih =>
    obtain ⟨m, v⟩ := a
    intro o
    show k.cls.getAttr n (assignAll k.cls prog (k.cls.setAttr m v o).2) = _
    rw [ih]
    by_cases hm : m = n
    · subst hm
      rw [report_slot k (Or.inl hn)]
    · exact setAttr_other k hm v o

/-- A name that is neither a parameter nor without setter is no property. -/
lemma unknown_name (k : Component) {n : String} (h1 : n ∉ params k) (h2 : n ∉ reports k) (h3 : n ∉ computed k)
    (v : PVal) (o : Attrs) : k.cls.setAttr n v o = (.ok (), Function.update o (.pub n) (some v)) := by
  have hf : k.cls.find n = none := by
    unfold PyClass.find
    rw [List.find?_eq_none]
    intro p hp hpn
    have hpn' : p.name = n := by simpa using hpn
    subst hpn'
    revert p
    cases k <;>
      simp [Component.cls, clsGaussian, clsLorentzian, clsRise, clsBarrier, clsMulti, clsCircle, clsLinear, clsWhite,
        clsPink, clsFermi, clsGaussBlur, clsDotJumps, clsTelegraph, clsGeometric, plain, readonly, params, reports,
        computed]
  unfold PyClass.setAttr
  rw [hf]

/-- An accepted value is stored. -/
lemma setAttr_allowed (k : Component) {n : String} (hn : n ∈ params k) {v : PVal} (hv : Allowed k n v) (o : Attrs) :
    (k.cls.setAttr n v o).1 = .ok () ∧ k.cls.getAttr n (k.cls.setAttr n v o).2 = some (.ok v) := by
  obtain ⟨key, hset, hget⟩ := param_slot k hn
  rw [hset, (docCheck_iff k n v).2 hv]
  refine ⟨rfl, ?_⟩
  dsimp only
  rw [hget]
  unfold readKey
  rw [Function.update_self]

/-- A value that is not allowed is rejected. -/
lemma setAttr_rejected (k : Component) {n : String} (hn : n ∈ params k) {v : PVal} (hv : ¬ Allowed k n v) (o : Attrs) :
    ∃ e, k.cls.setAttr n v o = (.error e, o) := by
  obtain ⟨key, hset, hget⟩ := param_slot k hn
  rw [hset]
  cases hd : docCheck k n v with
  | error e => exact ⟨e, rfl⟩
  | ok u => exact absurd ((docCheck_iff k n v).1 hd) hv

lemma runInit_names (k : Component) (args : String → PVal) : ∀ names : List String, (∀ n ∈ names, n ∈ params k) →
    (∀ n ∈ names, Allowed k n (args n)) → ∀ o : Attrs,
    ∃ o', k.cls.runInit args (names.map fun n => .viaName n n) o = .ok o' ∧
      (∀ n ∈ names, k.cls.getAttr n o' = some (.ok (args n))) ∧
      (∀ n, n ∉ names → k.cls.getAttr n o' = k.cls.getAttr n o) := by
  intro names
  induction names with
  | nil => exact fun _ _ o => ⟨o, rfl, by simp, fun _ _ => rfl⟩
  | cons m names ih =>
    intro hp ha o
    obtain ⟨h1, h2⟩ := setAttr_allowed k (hp m (by simp)) (ha m (by simp)) o
    obtain ⟨o', h3, h4, h5⟩ := ih (fun n hn => hp n (by simp [hn])) (fun n hn => ha n (by simp [hn]))
      (k.cls.setAttr m (args m) o).2
    refine ⟨o', ?_, ?_, ?_⟩
    · rw [← h3]
      show (match k.cls.setAttr m (args m) o with
        | (.error e, _) => Except.error e
        | (.ok (), o') => k.cls.runInit args _ o') = _
      rw [show k.cls.setAttr m (args m) o = (.ok (), (k.cls.setAttr m (args m) o).2) from Prod.ext h1 rfl]
    · intro n hn
      by_cases hin : n ∈ names
      · exact h4 n hin
      · have hnm : n = m := by simpa [hin] using hn
        rw [h5 n hin, hnm, h2]
    · intro n hn
      rw [h5 n (fun h => hn (by simp [h])), setAttr_other k (fun h => hn (by simp [h]))]

lemma runInit_rejected (k : Component) (args : String → PVal) : ∀ names : List String, (∀ n ∈ names, n ∈ params k) →
    (∃ n ∈ names, ¬ Allowed k n (args n)) → ∀ o : Attrs,
    ∃ e, k.cls.runInit args (names.map fun n => .viaName n n) o = .error e := by
  intro names
  induction names with
  | nil => exact fun _ ⟨n, hn, _⟩ => absurd hn (by simp)
  | cons m names ih =>
    intro hp hex o
    by_cases hm : Allowed k m (args m)
    · obtain ⟨h1, h2⟩ := setAttr_allowed k (hp m (by simp)) hm o
      obtain ⟨e, he⟩ := ih (fun n hn => hp n (by simp [hn])) (by
        obtain ⟨n, hn, hna⟩ := hex
        rcases List.mem_cons.1 hn with rfl | hn
        · exact absurd hm hna
        · exact ⟨n, hn, hna⟩) (k.cls.setAttr m (args m) o).2
      refine ⟨e, ?_⟩
      rw [← he]
      show (match k.cls.setAttr m (args m) o with
        | (.error e, _) => Except.error e
        | (.ok (), o') => k.cls.runInit args _ o') = _
      rw [show k.cls.setAttr m (args m) o = (.ok (), (k.cls.setAttr m (args m) o).2) from Prod.ext h1 rfl]
    · obtain ⟨e, he⟩ := setAttr_rejected k (hp m (by simp)) hm o
      refine ⟨e, ?_⟩
      show (match k.cls.setAttr m (args m) o with
        | (.error e, _) => Except.error e
        | (.ok (), o') => k.cls.runInit args _ o') = _
      rw [he]

/-- Constructors that assign all parameters. -/
lemma new_assigns {k : Component} (hk : k.cls.init = (params k).map fun n => InitStmt.viaName n n) (hr : reports k = []) (args : String → PVal) :
    ((∀ n ∈ params k, Allowed k n (args n)) → ∃ o, k.cls.new args = .ok o ∧
      (∀ n ∈ params k, k.cls.getAttr n o = some (.ok (args n))) ∧
      (∀ n ∈ reports k, k.cls.getAttr n o = some (.ok .none))) ∧
    ((∃ n ∈ params k, ¬ Allowed k n (args n)) → ∃ e, k.cls.new args = .error e) := by
  constructor
  · intro h
    obtain ⟨o, h1, h2, _⟩ := runInit_names k args (params k) (fun n hn => hn) h fun _ => none
    refine ⟨o, ?_, h2, by simp [hr]⟩
    unfold PyClass.new
    rw [hk, h1]
  · intro h
    obtain ⟨e, he⟩ := runInit_rejected k args (params k) (fun n hn => hn) h fun _ => none
    refine ⟨e, ?_⟩
    unfold PyClass.new
    rw [hk, he]

lemma new_free {k : Component} (hp : mustBePositive k = []) (hg : mustBeGroups k = []) (args : String → PVal) (o : Attrs)
    (h1 : k.cls.new args = .ok o) (h2 : ∀ n ∈ params k, k.cls.getAttr n o = some (.ok (args n)))
    (h3 : ∀ n ∈ reports k, k.cls.getAttr n o = some (.ok .none)) :
    ((∀ n ∈ params k, Allowed k n (args n)) → ∃ o, k.cls.new args = .ok o ∧
      (∀ n ∈ params k, k.cls.getAttr n o = some (.ok (args n))) ∧
      (∀ n ∈ reports k, k.cls.getAttr n o = some (.ok .none))) ∧
    ((∃ n ∈ params k, ¬ Allowed k n (args n)) → ∃ e, k.cls.new args = .error e) := by
  refine ⟨fun _ => ⟨o, h1, h2, h3⟩, ?_⟩
  rintro ⟨n, _, h⟩
  exact absurd ⟨by simp [hp], by simp [hg]⟩ h

lemma new_spec (k : Component) (args : String → PVal) :
    ((∀ n ∈ params k, Allowed k n (args n)) → ∃ o, k.cls.new args = .ok o ∧
      (∀ n ∈ params k, k.cls.getAttr n o = some (.ok (args n))) ∧
      (∀ n ∈ reports k, k.cls.getAttr n o = some (.ok .none))) ∧
    ((∃ n ∈ params k, ¬ Allowed k n (args n)) → ∃ e, k.cls.new args = .error e) := by
  cases k
  case peakGaussian => exact new_assigns (k := .peakGaussian) rfl rfl args
  case peakLorentzian => exact new_assigns (k := .peakLorentzian) rfl rfl args
  case riseGlf => exact new_assigns (k := .riseGlf) rfl rfl args
  case barrierGlf => exact new_assigns (k := .barrierGlf) rfl rfl args
  case barrierMultiGlf => exact new_assigns (k := .barrierMultiGlf) rfl rfl args
  case linear => exact new_assigns (k := .linear) rfl rfl args
  case idealGeometric => exact new_assigns (k := .idealGeometric) rfl rfl args
  all_goals
    refine new_free rfl rfl args _ rfl ?_ ?_ <;> intro n hn
    <;> simp only [params, reports, List.mem_cons, List.not_mem_nil, or_false] at hn
    <;> (try rcases hn with h | h | h | h | h)
    <;> (try rcases hn with h | h | h)
    <;> (try rcases hn with h | h)
    <;> subst_vars
    <;> rfl

lemma getNum_of {c : PyClass} {n : String} {o : Attrs} {x : ℝ} (h : c.getAttr n o = some (.ok (.num x))) :
    c.getNum n o = .ok x := by
  unfold PyClass.getNum
  rw [h]

/-- Demo arguments of a Gaussian peak. -/
noncomputable def demoPeakArgs : String → PVal := fun n => if n = "mu0" then .num 0 else .num 1

/-- Demo program: a rejected and an accepted width, a misspelt name, and a new position. -/
def demoAssign : List (String × PVal) := [("sigma", .num (-1)), ("sigma", .num 2), ("sigam", .num 3), ("mu0", .num 5)]

lemma demo_allowed (n : String) : Allowed .peakGaussian n (demoPeakArgs n) := by
  refine ⟨fun h => ?_, by simp [mustBeGroups]⟩
  have h' : n = "sigma" := by simpa [mustBePositive] using h
  subst h'
  exact ⟨1, by simp [demoPeakArgs], one_pos⟩

lemma demo_negative : ¬ Allowed .peakGaussian "sigma" (.num (-1)) := by
  intro h
  obtain ⟨x, hx, h0⟩ := h.1 (by simp [mustBePositive])
  have := PVal.num.inj hx
  linarith

lemma demo_two : Allowed .peakGaussian "sigma" (.num 2) := ⟨fun _ => ⟨2, rfl, by norm_num⟩, by simp [mustBeGroups]⟩

lemma demo_last : lastAllowed .peakGaussian "mu0" (demoPeakArgs "mu0") demoAssign = .num 5 ∧
    lastAllowed .peakGaussian "sigma" (demoPeakArgs "sigma") demoAssign = .num 2 ∧
    lastAllowed .peakGaussian "height" (demoPeakArgs "height") demoAssign = .num 1 ∧
    lastAllowed .peakGaussian "offset" (demoPeakArgs "offset") demoAssign = .num 1 := by
  classical
  have hmu : Allowed .peakGaussian "mu0" (.num 5) := ⟨by simp [mustBePositive], by simp [mustBeGroups]⟩
  simp [demoAssign, lastAllowed_cons, lastAllowed_nil, demo_negative, demo_two, demoPeakArgs, hmu]

end SimCATS
