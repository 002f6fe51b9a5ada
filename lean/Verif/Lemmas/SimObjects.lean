import Verif.Spec.SimObjects
import Mathlib.Tactic.Linarith

/-! Helper lemmas for the objects of simulations: no reference leads from one part of the heap to another. -/

namespace SimCATS

/-- `P` is a part of the heap that no reference enters or leaves, and all references lead to objects. -/
structure Part (h : OHeap) (P : ℕ → Prop) : Prop where
  bound : ∀ r, P r → r < h.length
  closed : ∀ r o q, h[r]? = some o → .ref q ∈ o.fields → q < h.length ∧ (P r ↔ P q)

/-- A value that refers to an object on the given side of the part. -/
def OVal.on (h : OHeap) (P : ℕ → Prop) (b : Prop) (v : OVal) : Prop := ∀ r, v = .ref r → r < h.length ∧ (P r ↔ b)

/-- The heap has grown, and the objects on the other side than `b` are the same as before. -/
def Grown (h : OHeap) (P : ℕ → Prop) (h' : OHeap) (P' : ℕ → Prop) (b : Prop) : Prop :=
  h.length ≤ h'.length ∧ ∀ r, r < h.length → (P' r ↔ P r) ∧ ((P r ↔ ¬ b) → h'[r]? = h[r]?)

theorem Grown.refl (h : OHeap) (P : ℕ → Prop) (b : Prop) : Grown h P h P b :=
  ⟨le_refl _, fun _ _ => ⟨Iff.rfl, fun _ => rfl⟩⟩

theorem Grown.trans {h h' h'' : OHeap} {P P' P'' : ℕ → Prop} {b : Prop} (h1 : Grown h P h' P' b) (h2 : Grown h' P' h'' P'' b) :
    Grown h P h'' P'' b := by
  refine ⟨le_trans h1.1 h2.1, fun r hr => ?_⟩
  have a1 := h1.2 r hr
  have a2 := h2.2 r (lt_of_lt_of_le hr h1.1)
  exact ⟨a2.1.trans a1.1, fun hb => (a2.2 (a1.1.trans hb)).trans (a1.2 hb)⟩

theorem OVal.on.grown {h h' : OHeap} {P P' : ℕ → Prop} {b c : Prop} {v : OVal} (hv : v.on h P c) (g : Grown h P h' P' b) :
    v.on h' P' c := by
  intro r hr
  have := hv r hr
  exact ⟨lt_of_lt_of_le this.1 g.1, (g.2 r this.1).1.trans this.2⟩

/-- The part after objects were appended on side `c`. -/
def extend (h : OHeap) (P : ℕ → Prop) (m : ℕ) (c : Prop) : ℕ → Prop := fun r => P r ∨ (c ∧ h.length ≤ r ∧ r < h.length + m)

theorem extend_old {h : OHeap} {P : ℕ → Prop} {m : ℕ} {c : Prop} {r : ℕ} (hr : r < h.length) : extend h P m c r ↔ P r := by
  constructor
  · rintro (hp | ⟨_, hle, _⟩)
    · exact hp
    · omega
  · exact Or.inl

theorem extend_new {h : OHeap} {P : ℕ → Prop} (hp : Part h P) {m : ℕ} {c : Prop} {r : ℕ} (hr : h.length ≤ r)
    (hr' : r < h.length + m) : extend h P m c r ↔ c := by
  constructor
  · rintro (h1 | ⟨hc, _⟩)
    · have := hp.bound r h1; omega
    · exact hc
  · exact fun hc => Or.inr ⟨hc, hr, hr'⟩

/-- Appended objects refer to each other or to old objects of the same side. -/
theorem Part.append {h : OHeap} {P : ℕ → Prop} (hp : Part h P) (blk : OHeap) (c : Prop)
    (hb : ∀ o ∈ blk, ∀ q, .ref q ∈ o.fields → q < h.length + blk.length ∧ (q < h.length → (P q ↔ c))) :
    Part (h ++ blk) (extend h P blk.length c) ∧
      ∀ b, Grown h P (h ++ blk) (extend h P blk.length c) b := by
  refine ⟨⟨?_, ?_⟩, fun b => ⟨by simp, fun r hr => ⟨extend_old hr, fun _ => List.getElem?_append_left hr⟩⟩⟩
  · rintro r (h1 | ⟨_, _, h2⟩)
    · have := hp.bound r h1
      rw [List.length_append]; omega
    · rw [List.length_append]; exact h2
  · intro r o q hr hq
    rw [List.length_append]
    by_cases hlt : r < h.length
    · rw [List.getElem?_append_left hlt] at hr
      have := hp.closed r o q hr hq
      refine ⟨by omega, ?_⟩
      rw [extend_old hlt, extend_old this.1]
      exact this.2
    · have hle : h.length ≤ r := by omega
      have hr' : r < h.length + blk.length := by
        have := (List.getElem?_eq_some_iff.1 hr).1
        rwa [List.length_append] at this
      rw [List.getElem?_append_right hle] at hr
      have := hb o (List.mem_of_getElem? hr) q hq
      refine ⟨this.1, ?_⟩
      rw [extend_new hp hle hr']
      by_cases hq' : q < h.length
      · rw [extend_old hq']; exact (this.2 hq').symm
      · rw [extend_new hp (by omega) this.1]

/-- An object is replaced by one whose references stay on its side. -/
theorem Part.set {h : OHeap} {P : ℕ → Prop} (hp : Part h P) {r : ℕ} (hr : r < h.length) (o : OObj)
    (ho : ∀ q, .ref q ∈ o.fields → q < h.length ∧ (P r ↔ P q)) {b : Prop} (hb : P r ↔ b) :
    Part (h.set r o) P ∧ Grown h P (h.set r o) P b := by
  refine ⟨⟨?_, ?_⟩, ⟨by simp, fun s hs => ⟨Iff.rfl, fun hne => ?_⟩⟩⟩
  · intro s hs
    rw [List.length_set]; exact hp.bound s hs
  · intro s o' q hs hq
    rw [List.length_set]
    by_cases hsr : r = s
    · subst hsr
      rw [List.getElem?_set_self hr] at hs
      cases hs
      exact ho q hq
    · rw [List.getElem?_set_ne hsr] at hs
      exact hp.closed s o' q hs hq
  · have : r ≠ s := by
      rintro rfl
      tauto
    rw [List.getElem?_set_ne this]

/-! ### Copies -/

theorem mem_shift_ref {n q : ℕ} {l : List OVal} (h : OVal.ref q ∈ l.map (OVal.shift n)) : ∃ p, q = p + n ∧ OVal.ref p ∈ l := by
  obtain ⟨v, hv, hq⟩ := List.mem_map.1 h
  cases v with
  | none => simp [OVal.shift] at hq
  | num x => simp [OVal.shift] at hq
  | ref p =>
    simp only [OVal.shift, OVal.ref.injEq] at hq
    exact ⟨p, hq.symm, hv⟩

theorem Part.deepcopy {h : OHeap} {P : ℕ → Prop} (hp : Part h P) (v : OVal) (hv : ∀ r, v = .ref r → r < h.length) (c : Prop) :
    ∃ P', Part (deepcopy h v).1 P' ∧ (∀ b, Grown h P (deepcopy h v).1 P' b) ∧ (deepcopy h v).2.on (deepcopy h v).1 P' c := by
  have hb : ∀ o ∈ h.map (OObj.shift h.length), ∀ q, OVal.ref q ∈ o.fields →
      q < h.length + (h.map (OObj.shift h.length)).length ∧ (q < h.length → (P q ↔ c)) := by
    intro o ho q hq
    obtain ⟨o', ho', rfl⟩ := List.mem_map.1 ho
    obtain ⟨p, rfl, hp'⟩ := mem_shift_ref hq
    obtain ⟨r, hr⟩ := List.mem_iff_getElem?.1 ho'
    have := (hp.closed r o' p hr hp').1
    rw [List.length_map]
    exact ⟨by omega, fun h => by omega⟩
  have := hp.append (h.map (OObj.shift h.length)) c hb
  refine ⟨_, this.1, this.2, ?_⟩
  intro r hr
  cases v with
  | none => simp [SimCATS.deepcopy, OVal.shift] at hr
  | num x => simp [SimCATS.deepcopy, OVal.shift] at hr
  | ref p =>
    simp only [SimCATS.deepcopy, OVal.shift, OVal.ref.injEq] at hr
    have hlt := hv p rfl
    have h1 : h.length ≤ r := by omega
    have h2 : r < h.length + (h.map (OObj.shift h.length)).length := by rw [List.length_map]; omega
    refine ⟨by simpa [SimCATS.deepcopy] using h2, extend_new hp h1 h2⟩

theorem Part.newSensorGeneric {h : OHeap} {P : ℕ → Prop} (hp : Part h P) (c : Prop) :
    ∃ P', Part (newSensorGeneric h).1 P' ∧ (∀ b, Grown h P (newSensorGeneric h).1 P' b) ∧
      (newSensorGeneric h).2.on (newSensorGeneric h).1 P' c := by
  have := hp.append [⟨.array, [.num (-1), .num (-1)]⟩, ⟨.array, [.num 0, .num 0]⟩,
    ⟨.sensor, [.none, .ref h.length, .ref (h.length + 1), .num 0]⟩] c (by
      intro o ho q hq
      simp only [List.mem_cons, List.not_mem_nil, or_false] at ho
      rcases ho with rfl | rfl | rfl
      · simp at hq
      · simp at hq
      · simp only [List.mem_cons, List.not_mem_nil, or_false, OVal.ref.injEq, reduceCtorEq, false_or] at hq
        simp only [List.length_cons, List.length_nil]
        omega)
  refine ⟨_, this.1, this.2, ?_⟩
  intro r hr
  simp only [SimCATS.newSensorGeneric, OVal.ref.injEq] at hr
  subst hr
  refine ⟨by simp [SimCATS.newSensorGeneric], extend_new hp (by omega) (by simp)⟩

theorem Part.store {h : OHeap} {P : ℕ → Prop} (hp : Part h P) (a : SimAttr) (v : OVal) (hv : ∀ r, v = .ref r → r < h.length)
    (c : Prop) :
    ∃ P', Part (a.store h v).1 P' ∧ (∀ b, Grown h P (a.store h v).1 P' b) ∧ (a.store h v).2.on (a.store h v).1 P' c := by
  unfold SimAttr.store
  split
  · exact hp.newSensorGeneric c
  · exact hp.deepcopy v hv c

theorem Part.deepcopies {h : OHeap} {P : ℕ → Prop} (hp : Part h P) (vs : List OVal)
    (hv : ∀ v ∈ vs, ∀ r, v = .ref r → r < h.length) (c : Prop) :
    ∃ P', Part (deepcopies h vs).1 P' ∧ (∀ b, Grown h P (deepcopies h vs).1 P' b) ∧
      ∀ v ∈ (deepcopies h vs).2, v.on (deepcopies h vs).1 P' c := by
  induction vs generalizing h P with
  | nil => exact ⟨P, hp, Grown.refl h P, fun v hv => absurd hv (List.not_mem_nil)⟩
  | cons v vs ih =>
    obtain ⟨P1, p1, g1, o1⟩ := hp.deepcopy v (hv v (List.mem_cons_self ..)) c
    obtain ⟨P2, p2, g2, o2⟩ := ih p1 (fun x hx r hr =>
      lt_of_lt_of_le (hv x (List.mem_cons_of_mem _ hx) r hr) (g1 True).1)
    refine ⟨P2, p2, fun b => (g1 b).trans (g2 b), ?_⟩
    intro x hx
    rcases List.mem_cons.1 hx with rfl | hx
    · exact o1.grown (g2 True)
    · exact o2 x hx

theorem Part.construct {h : OHeap} {P : ℕ → Prop} (hp : Part h P) (vals : SimAttr → OVal)
    (hv : ∀ a r, vals a = .ref r → r < h.length) (c : SimAttr → Prop) (l : List SimAttr) {h' : OHeap} {o : SimObj}
    (hc : construct h vals l = .ok (h', o)) :
    ∃ P', Part h' P' ∧ (∀ b, Grown h P h' P' b) ∧ ∀ a, (o a).on h' P' (c a) := by
  induction l generalizing h P h' o with
  | nil =>
    simp only [SimCATS.construct, Except.ok.injEq, Prod.mk.injEq] at hc
    obtain ⟨rfl, rfl⟩ := hc
    exact ⟨P, hp, Grown.refl h P, fun a r hr => nomatch hr⟩
  | cons a l ih =>
    simp only [SimCATS.construct] at hc
    cases hck : a.check h (vals a) with
    | error e => rw [hck] at hc; exact nomatch hc
    | ok u =>
      rw [hck] at hc
      obtain ⟨P1, p1, g1, o1⟩ := hp.store a (vals a) (hv a) (c a)
      cases hr : SimCATS.construct (a.store h (vals a)).1 vals l with
      | error e => simp only [hr] at hc; exact nomatch hc
      | ok x =>
        obtain ⟨h2, o2⟩ := x
        simp only [hr, Except.ok.injEq, Prod.mk.injEq] at hc
        obtain ⟨rfl, rfl⟩ := hc
        obtain ⟨P2, p2, g2, on2⟩ := ih p1 (fun b r hb => lt_of_lt_of_le (hv b r hb) (g1 True).1) hr
        refine ⟨P2, p2, fun b => (g1 b).trans (g2 b), ?_⟩
        intro b
        by_cases hba : b = a
        · simp only [if_pos hba]; rw [hba]; exact o1.grown (g2 True)
        · simp only [if_neg hba]; exact on2 b

/-! ### Code -/

/-- The names of running code refer to objects on their sides. -/
def NamesOn (h : OHeap) (P : ℕ → Prop) (PV : ℕ → Prop) (vars : List OVal) : Prop :=
  ∀ (i : ℕ) (v : OVal), vars[i]? = some v → v.on h P (PV i)

theorem NamesOn.grown {h h' : OHeap} {P P' PV : ℕ → Prop} {vars : List OVal} {b : Prop} (hn : NamesOn h P PV vars)
    (g : Grown h P h' P' b) : NamesOn h' P' PV vars := fun i v hi => (hn i v hi).grown g

theorem NamesOn.push {h : OHeap} {P PV : ℕ → Prop} {vars : List OVal} (hn : NamesOn h P PV vars) {v : OVal}
    (hv : v.on h P (PV vars.length)) : NamesOn h P PV (vars ++ [v]) := by
  intro i x hi
  by_cases hlt : i < vars.length
  · rw [List.getElem?_append_left hlt] at hi
    exact hn i x hi
  · have hl := (List.getElem?_eq_some_iff.1 hi).1
    rw [List.length_append, List.length_singleton] at hl
    have : i = vars.length := by omega
    subst this
    simp only [List.getElem?_concat_length, Option.some.injEq] at hi
    exact hi ▸ hv

theorem eval_on {h : OHeap} {P PV : ℕ → Prop} {vars : List OVal} (hn : NamesOn h P PV vars) {e : OExpr} {v : OVal} {b : Prop}
    (he : e.eval vars = some v) (hb : ∀ i ∈ Spec.exprNames e, PV i ↔ b) : v.on h P b := by
  cases e with
  | none => cases he; intro r hr; exact nomatch hr
  | num x => cases he; intro r hr; exact nomatch hr
  | var i =>
    intro r hr
    have := hn i v he r hr
    exact ⟨this.1, this.2.trans (hb i (by simp [Spec.exprNames]))⟩

theorem evals_on {h : OHeap} {P PV : ℕ → Prop} {vars : List OVal} (hn : NamesOn h P PV vars) {es : List OExpr} {vs : List OVal}
    {b : Prop} (he : OExpr.evals vars es = some vs) (hb : ∀ i ∈ es.flatMap Spec.exprNames, PV i ↔ b) :
    ∀ v ∈ vs, v.on h P b := by
  induction es generalizing vs with
  | nil => cases he; intro v hv; exact absurd hv List.not_mem_nil
  | cons e es ih =>
    simp only [OExpr.evals] at he
    cases h1 : e.eval vars with
    | none => rw [h1] at he; exact nomatch he
    | some x =>
      cases h2 : OExpr.evals vars es with
      | none => rw [h1, h2] at he; exact nomatch he
      | some xs =>
        rw [h1, h2] at he
        simp only [Option.some.injEq] at he
        subst he
        intro v hv
        rcases List.mem_cons.1 hv with rfl | hv
        · exact eval_on hn h1 fun i hi => hb i (by simp [List.flatMap_cons, hi])
        · exact ih h2 (fun i hi => hb i (by
            rw [List.flatMap_cons]; exact List.mem_append_right _ hi)) v hv

theorem Frame.obj_some {f : Frame} {i r : ℕ} {o : OObj} (h : f.obj i = some (r, o)) :
    f.vars[i]? = some (.ref r) ∧ f.heap[r]? = some o := by
  unfold Frame.obj at h
  split at h
  · next r' hv =>
    cases ho : f.heap[r']? with
    | none => rw [ho] at h; exact nomatch h
    | some o' =>
      rw [ho] at h
      simp only [Option.map_some, Option.some.injEq, Prod.mk.injEq] at h
      obtain ⟨rfl, rfl⟩ := h
      exact ⟨hv, ho⟩
  · exact nomatch h

theorem Prim.step_part {f : Frame} {P PV : ℕ → Prop} (hp : Part f.heap P) (hn : NamesOn f.heap P PV f.vars) (p : Prim) {b : Prop}
    (hb : ∀ i ∈ Spec.names p, PV i ↔ b) (hnew : PV f.vars.length ↔ b) :
    ∃ P', Part (p.step f).1.heap P' ∧ NamesOn (p.step f).1.heap P' PV (p.step f).1.vars ∧
      Grown f.heap P (p.step f).1.heap P' b ∧ f.vars <+: (p.step f).1.vars := by
  have triv : ∃ P', Part f.heap P' ∧ NamesOn f.heap P' PV f.vars ∧ Grown f.heap P f.heap P' b ∧ f.vars <+: f.vars :=
    ⟨P, hp, hn, Grown.refl _ _ _, List.prefix_refl _⟩
  have push : ∀ (o : OObj), (∀ v ∈ o.fields, v.on f.heap P b) →
      ∃ P', Part (f.heap ++ [o]) P' ∧ NamesOn (f.heap ++ [o]) P' PV (f.vars ++ [.ref f.heap.length]) ∧
        Grown f.heap P (f.heap ++ [o]) P' b ∧ f.vars <+: f.vars ++ [.ref f.heap.length] := by
    intro o ho
    have := hp.append [o] b (by
      intro o' ho' q hq
      rw [List.mem_singleton.1 ho'] at hq
      have := ho _ hq q rfl
      simp only [List.length_singleton]
      exact ⟨by omega, fun _ => this.2⟩)
    refine ⟨_, this.1, (hn.grown (this.2 b)).push ?_, this.2 b, List.prefix_append _ _⟩
    intro r hr
    cases hr
    exact ⟨by simp, (extend_new hp (le_refl _) (by simp)).trans hnew.symm⟩
  cases p with
  | new c es =>
    simp only [Prim.step]
    cases he : OExpr.evals f.vars es with
    | none => exact triv
    | some vs =>
      by_cases hc : c = .generator
      · simp only [if_pos hc]; exact triv
      · simp only [if_neg hc]
        exact push ⟨c, vs⟩ (evals_on hn he hb)
  | newGen s =>
    simp only [Prim.step]
    exact push ⟨.generator, [.num s, .num 0]⟩ (by
      intro v hv r hr
      subst hr
      simp at hv)
  | load i k =>
    simp only [Prim.step]
    cases ho : f.obj i with
    | none => exact triv
    | some x =>
      obtain ⟨r, o⟩ := x
      obtain ⟨hv, hr⟩ := Frame.obj_some ho
      by_cases hg : o.cls = .generator
      · simp only [if_pos hg]; exact triv
      · simp only [if_neg hg]
        cases hk : o.fields[k]? with
        | none => exact triv
        | some v =>
          refine ⟨P, hp, hn.push ?_, Grown.refl _ _ _, List.prefix_append _ _⟩
          intro q hq
          subst hq
          have h1 := hp.closed r o q hr (List.mem_of_getElem? hk)
          have h2 := hn i _ hv r rfl
          exact ⟨h1.1, h1.2.symm.trans (h2.2.trans ((hb i (by simp [Spec.names])).trans hnew.symm))⟩
  | store i k e =>
    simp only [Prim.step]
    cases ho : f.obj i with
    | none => exact triv
    | some x =>
      obtain ⟨r, o⟩ := x
      cases he : e.eval f.vars with
      | none => exact triv
      | some v =>
        obtain ⟨hv, hr⟩ := Frame.obj_some ho
        have hir : P r ↔ b := (hn i _ hv r rfl).2.trans (hb i (by simp [Spec.names]))
        have hev := eval_on hn he (b := b) fun j hj => hb j (by simp [Spec.names, hj])
        by_cases hg : o.cls = .generator
        · simp only [if_pos hg]; exact triv
        · by_cases hk : k < o.fields.length
          · simp only [if_neg hg, if_pos hk]
            have := hp.set (List.getElem?_eq_some_iff.1 hr).1 ⟨o.cls, o.fields.set k v⟩ (by
              intro q hq
              rcases List.mem_or_eq_of_mem_set hq with hq | hq
              · exact hp.closed r o q hr hq
              · have := hev q hq.symm
                exact ⟨this.1, hir.trans this.2.symm⟩) hir
            exact ⟨P, this.1, hn.grown this.2, this.2, List.prefix_refl _⟩
          · simp only [if_neg hg, if_neg hk]; exact triv
  | draw i =>
    simp only [Prim.step]
    split
    · next r s k ho =>
      obtain ⟨hv, hr⟩ := Frame.obj_some ho
      have hir : P r ↔ b := (hn i _ hv r rfl).2.trans (hb i (by simp [Spec.names]))
      have := hp.set (List.getElem?_eq_some_iff.1 hr).1 ⟨.generator, [.num s, .num (k + 1)]⟩ (by
        intro q hq
        simp at hq) hir
      exact ⟨P, this.1, hn.grown this.2, this.2, List.prefix_refl _⟩
    · exact triv
  | same i j =>
    simp only [Prim.step]
    split
    · exact triv
    · exact triv

theorem Code.run_part (c : Code) (n : ℕ) (seen : List Obs) {f : Frame} {P : ℕ → Prop} {b : Prop} (hp : Part f.heap P)
    (hn : NamesOn f.heap P (fun _ => b) f.vars) :
    ∃ P', Part (c.run n seen f).heap P' ∧ Grown f.heap P (c.run n seen f).heap P' b := by
  induction n generalizing seen f P with
  | zero => exact ⟨P, hp, Grown.refl _ _ _⟩
  | succ n ih =>
    simp only [Code.run]
    cases hc : c seen with
    | none => exact ⟨P, hp, Grown.refl _ _ _⟩
    | some p =>
      obtain ⟨P1, p1, n1, g1, _⟩ := Prim.step_part hp hn p (fun _ _ => Iff.rfl) Iff.rfl
      obtain ⟨P2, p2, g2⟩ := ih (seen ++ [(p.step f).2]) p1 n1
      exact ⟨P2, p2, g1.trans g2⟩

/-! ### Programs -/

/-- The part `P` of the objects holds exactly what the protected names and attributes lead to. -/
structure Guarded (w : SimWorld) (P PV : ℕ → Prop) (PS : ℕ → SimAttr → Prop) : Prop where
  part : Part w.heap P
  names : NamesOn w.heap P PV w.vars
  sims : ∀ (s : ℕ) (o : SimObj) (a : SimAttr), w.sims[s]? = some o → (o a).on w.heap P (PS s a)
  dflt : (OVal.ref 2).on w.heap P False

/-- The statement leaves the protected part to itself: no step of the program uses a protected name, no protected attribute is
read, and the components of each simulation are on one side. -/
def Safe (w : SimWorld) (PV : ℕ → Prop) (PS : ℕ → SimAttr → Prop) : SStmt → Prop
  | .prim p => (∀ i ∈ Spec.names p, ¬ PV i) ∧ ¬ PV w.vars.length
  | .get s a => ¬ PS s a ∧ ¬ PV w.vars.length
  | .measure s _ _ _ _ _ => (PS s .occD ↔ PS s .sensor) ∧ (PS s .potD ↔ PS s .sensor) ∧ (PS s .respD ↔ PS s .sensor)
  | _ => True

/-- The statement runs protected components. -/
def RunsIn (PS : ℕ → SimAttr → Prop) : SStmt → Prop
  | .measure s _ _ _ _ _ => PS s .sensor
  | _ => False

theorem evals_bound {h : OHeap} {P PV : ℕ → Prop} {vars : List OVal} (hn : NamesOn h P PV vars) {es : List OExpr} {vs : List OVal}
    (he : OExpr.evals vars es = some vs) : ∀ v ∈ vs, ∀ r, v = .ref r → r < h.length := by
  have hn' : NamesOn h (fun _ => True) (fun _ => True) vars := fun i v hi r hr => ⟨(hn i v hi r hr).1, Iff.rfl⟩
  intro v hv r hr
  exact (evals_on hn' he (b := True) (fun _ _ => Iff.rfl) v hv r hr).1

theorem eval_bound {h : OHeap} {P PV : ℕ → Prop} {vars : List OVal} (hn : NamesOn h P PV vars) {e : OExpr} {v : OVal}
    (he : e.eval vars = some v) : ∀ r, v = .ref r → r < h.length := by
  have hn' : NamesOn h (fun _ => True) (fun _ => True) vars := fun i v hi r hr => ⟨(hn i v hi r hr).1, Iff.rfl⟩
  intro r hr
  exact (eval_on hn' he (b := True) (fun _ _ => Iff.rfl) r hr).1

theorem ctorVals_bound {w : SimWorld} {P PV : ℕ → Prop} {PS : ℕ → SimAttr → Prop} (g : Guarded w P PV PS)
    (args : SimAttr → Option OExpr) {a : SimAttr} {v : OVal} (hv : w.ctorVals args a = some v) : ∀ r, v = .ref r → r < w.heap.length := by
  unfold SimWorld.ctorVals at hv
  cases hx : args a with
  | some e => rw [hx] at hv; exact eval_bound g.names hv
  | none =>
    rw [hx] at hv
    cases a <;> simp only [SimAttr.default, Option.some.injEq] at hv <;> subst hv <;> intro r hr
    all_goals cases hr
    exact (g.dflt 2 rfl).1

/-- The start of a measurement. -/
theorem Guarded.start {w : SimWorld} {P PV : ℕ → Prop} {PS : ℕ → SimAttr → Prop} (g : Guarded w P PV PS) {s : ℕ} {o : SimObj}
    (ho : w.sims[s]? = some o)
    (hs : (PS s .occD ↔ PS s .sensor) ∧ (PS s .potD ↔ PS s .sensor) ∧ (PS s .respD ↔ PS s .sensor)) :
    ∃ P', Part (w.start o).heap P' ∧ (∀ b, Grown w.heap P (w.start o).heap P' b) ∧
      NamesOn (w.start o).heap P' (fun _ => PS s .sensor) (w.start o).vars := by
  obtain ⟨P1, p1, g1, o1⟩ := g.part.deepcopy (o .ideal) (fun r hr => (g.sims s o .ideal ho r hr).1) (PS s .sensor)
  refine ⟨P1, p1, g1, ?_⟩
  have conv : ∀ a, (PS s a ↔ PS s .sensor) → (o a).on (w.start o).heap P1 (PS s .sensor) := by
    intro a ha r hr
    have := ((g.sims s o a ho).grown (g1 True)) r hr
    exact ⟨this.1, this.2.trans ha⟩
  intro i v hi
  simp only [SimWorld.start] at hi
  match i, hi with
  | 0, hi => cases hi; exact o1
  | 1, hi => cases hi; exact conv .sensor Iff.rfl
  | 2, hi => cases hi; exact conv .occD hs.1
  | 3, hi => cases hi; exact conv .potD hs.2.1
  | 4, hi => cases hi; exact conv .respD hs.2.2
  | n + 5, hi => simp at hi

theorem Part.makeMetadata {h : OHeap} {P : ℕ → Prop} (hp : Part h P) (args : List OVal) (o : SimObj)
    (hv : ∀ v ∈ args ++ SimAttr.all.map o, ∀ r, v = .ref r → r < h.length) (c : Prop) :
    ∃ P', Part (makeMetadata h args o).1 P' ∧ (∀ b, Grown h P (makeMetadata h args o).1 P' b) ∧
      (makeMetadata h args o).2.on (makeMetadata h args o).1 P' c := by
  obtain ⟨P1, p1, g1, o1⟩ := hp.deepcopies (args ++ SimAttr.all.map o) hv c
  have := p1.append [⟨.metadata, (SimCATS.deepcopies h (args ++ SimAttr.all.map o)).2⟩] c (by
    intro o' ho' q hq
    rw [List.mem_singleton.1 ho'] at hq
    have := o1 _ hq q rfl
    simp only [List.length_singleton]
    exact ⟨by omega, fun _ => this.2⟩)
  refine ⟨_, this.1, fun b => (g1 b).trans (this.2 b), ?_⟩
  intro r hr
  simp only [SimCATS.makeMetadata, OVal.ref.injEq] at hr
  subst hr
  exact ⟨by simp [SimCATS.makeMetadata], extend_new p1 (le_refl _) (by simp)⟩

theorem Guarded.step {w : SimWorld} {P PV : ℕ → Prop} {PS : ℕ → SimAttr → Prop} (g : Guarded w P PV PS) (c : SStmt)
    (hs : Safe w PV PS c) :
    ∃ P', Guarded (c.run w).2 P' PV PS ∧ Grown w.heap P (c.run w).2.heap P' (RunsIn PS c) := by
  have triv : ∃ P', Guarded w P' PV PS ∧ Grown w.heap P w.heap P' (RunsIn PS c) := ⟨P, g, Grown.refl _ _ _⟩
  cases c with
  | prim p =>
    obtain ⟨P1, p1, n1, g1, hpre⟩ := Prim.step_part (f := ⟨w.heap, w.vars, []⟩) g.part g.names p (b := False)
      (fun i hi => iff_of_false (hs.1 i hi) id) (iff_of_false hs.2 id)
    exact ⟨P1, ⟨p1, n1, fun s o a ho => (g.sims s o a ho).grown g1, g.dflt.grown g1⟩, g1⟩
  | newSim args =>
    simp only [SStmt.run]
    by_cases hall : ∀ a, (w.ctorVals args a).isSome
    · rw [if_pos hall]
      cases hc : SimCATS.construct w.heap (fun a => (w.ctorVals args a).getD .none) SimAttr.all with
      | error e => exact triv
      | ok x =>
        obtain ⟨h', o⟩ := x
        obtain ⟨P1, p1, g1, o1⟩ := g.part.construct _ (by
          intro a r hr
          obtain ⟨v, hv⟩ := Option.isSome_iff_exists.1 (hall a)
          rw [hv, Option.getD_some] at hr
          exact ctorVals_bound g args hv r hr) (PS w.sims.length) _ hc
        refine ⟨P1, ⟨p1, g.names.grown (g1 True), ?_, g.dflt.grown (g1 True)⟩, g1 _⟩
        intro s o' a ho
        by_cases hlt : s < w.sims.length
        · rw [List.getElem?_append_left hlt] at ho
          exact (g.sims s o' a ho).grown (g1 True)
        · have hl := (List.getElem?_eq_some_iff.1 ho).1
          rw [List.length_append, List.length_singleton] at hl
          have : s = w.sims.length := by omega
          subst this
          simp only [List.getElem?_concat_length, Option.some.injEq] at ho
          exact ho ▸ o1 a
    · rw [if_neg hall]; exact triv
  | set s a e =>
    simp only [SStmt.run]
    cases ho : w.sims[s]? with
    | none => exact triv
    | some o =>
      cases he : e.eval w.vars with
      | none => exact triv
      | some v =>
        cases hc : a.check w.heap v with
        | error x => simp only [hc]; exact triv
        | ok u =>
          simp only [hc]
          obtain ⟨P1, p1, g1, o1⟩ := g.part.store a v (eval_bound g.names he) (PS s a)
          refine ⟨P1, ⟨p1, g.names.grown (g1 True), ?_, g.dflt.grown (g1 True)⟩, g1 _⟩
          intro s' o' b hs'
          by_cases hss : s = s'
          · subst hss
            rw [List.getElem?_set_self (List.getElem?_eq_some_iff.1 ho).1, Option.some.injEq] at hs'
            subst hs'
            by_cases hba : b = a
            · simp only [if_pos hba]; rw [hba]; exact o1
            · simp only [if_neg hba]; exact (g.sims s o b ho).grown (g1 True)
          · rw [List.getElem?_set_ne hss] at hs'
            exact (g.sims s' o' b hs').grown (g1 True)
  | get s a =>
    simp only [SStmt.run]
    cases ho : w.sims[s]? with
    | none => exact triv
    | some o =>
      refine ⟨P, ⟨g.part, g.names.push ?_, g.sims, g.dflt⟩, Grown.refl _ _ _⟩
      intro r hr
      have := g.sims s o a ho r hr
      exact ⟨this.1, this.2.trans (iff_of_false hs.1 hs.2)⟩
  | measure s scan args code fuel ok =>
    simp only [SStmt.run]
    cases ho : w.sims[s]? with
    | none => exact triv
    | some o =>
      cases he : OExpr.evals w.vars args with
      | none => exact triv
      | some vs =>
        dsimp only
        split
        · obtain ⟨P1, p1, g1, n1⟩ := g.start ho hs
          obtain ⟨P2, p2, g2⟩ := Code.run_part code fuel [] p1 n1
          have g12 : Grown w.heap P (code.run fuel [] (w.start o)).heap P2 (PS s .sensor) := (g1 _).trans g2
          cases ok with
          | false =>
            rw [if_neg (by simp)]
            exact ⟨P2, ⟨p2, g.names.grown g12, fun s' o' a h' => (g.sims s' o' a h').grown g12, g.dflt.grown g12⟩, g12⟩
          | true =>
            rw [if_pos rfl]
            obtain ⟨P3, p3, g3, o3⟩ := p2.makeMetadata vs o (by
              intro v hv r hr
              refine lt_of_lt_of_le ?_ g12.1
              rcases List.mem_append.1 hv with hv | hv
              · exact evals_bound g.names he v hv r hr
              · obtain ⟨a, _, ha⟩ := List.mem_map.1 hv
                exact (g.sims s o a ho r (ha.trans hr)).1) (PV w.vars.length)
            have g123 := g12.trans (g3 (PS s .sensor))
            exact ⟨P3, ⟨p3, (g.names.grown g123).push o3, fun s' o' a h' => (g.sims s' o' a h').grown g123, g.dflt.grown g123⟩, g123⟩
        · exact triv

end SimCATS
