import Verif.Lemmas.SimObjects
import Mathlib.Data.List.Forall2

/-! Helper lemmas for programs with simulations: what stays the same, and copies have the same content. -/

namespace SimCATS

/-! ### Contents -/

theorem forall₂_imp_mem {α β : Type} {R S : α → β → Prop} {l : List α} {l' : List β} (h : List.Forall₂ R l l')
    (hRS : ∀ x ∈ l, ∀ y ∈ l', R x y → S x y) : List.Forall₂ S l l' := by
  induction h with
  | nil => exact .nil
  | cons hxy _ ih =>
    exact .cons (hRS _ (List.mem_cons_self ..) _ (List.mem_cons_self ..) hxy)
      (ih fun x hx y hy => hRS x (List.mem_cons_of_mem _ hx) y (List.mem_cons_of_mem _ hy))


theorem same_of_part {ι : Type} {h h' : OHeap} {P : ℕ → Prop} (hp : Part h P) (hsame : ∀ r, P r → h'[r]? = h[r]?) (v : ι → OVal)
    (hv : ∀ i, (v i).on h P True) : Spec.SameAll h v h' v := by
  refine ⟨fun r s => r = s ∧ P r, ⟨?_, ?_, ?_⟩, ?_⟩
  · rintro r s t ⟨rfl, _⟩ ⟨rfl, _⟩; rfl
  · rintro r s t ⟨rfl, _⟩ ⟨rfl, _⟩; rfl
  · rintro r s ⟨rfl, hP⟩
    have hlt := hp.bound r hP
    refine ⟨h[r], h[r], List.getElem?_eq_getElem hlt, (hsame r hP).trans (List.getElem?_eq_getElem hlt), rfl, ?_⟩
    rw [List.forall₂_same]
    intro x hx
    cases x with
    | none => exact .none
    | num x => exact .num x
    | ref q => exact .ref ⟨rfl, ((hp.closed r _ q (List.getElem?_eq_getElem hlt) hx).2).1 hP⟩
  · intro i
    cases hx : v i with
    | none => exact .none
    | num x => exact .num x
    | ref q => exact .ref ⟨rfl, ((hv i q hx).2).2 trivial⟩

theorem Spec.Corr.extend {h h' H H' : OHeap} {B : ℕ → ℕ → Prop} (hc : Spec.Corr h h' B) (h1 : h <+: H) (h2 : h' <+: H') :
    Spec.Corr H H' B := by
  refine ⟨hc.left, hc.right, ?_⟩
  intro r s hB
  obtain ⟨o, o', a, b, c⟩ := hc.obj r s hB
  obtain ⟨e, rfl⟩ := h1
  obtain ⟨e', rfl⟩ := h2
  exact ⟨o, o', by rw [List.getElem?_append_left (List.getElem?_eq_some_iff.1 a).1]; exact a,
    by rw [List.getElem?_append_left (List.getElem?_eq_some_iff.1 b).1]; exact b, c⟩

theorem Spec.Same.extend {h h' H H' : OHeap} {v v' : OVal} (hs : Spec.Same h v h' v') (h1 : h <+: H) (h2 : h' <+: H') :
    Spec.Same H v H' v' := by
  obtain ⟨B, hc, hv⟩ := hs
  exact ⟨B, hc.extend h1 h2, hv⟩

/-- Appended copies of the first `m` objects. -/
theorem corr_shift {h h0 : OHeap} {n m : ℕ} {P : ℕ → Prop} (hp : Part h0 P) (hm : m = h0.length) {e : OHeap} (hn : n = e.length)
    (hpre : h0 <+: h) : Spec.Corr h0 (e ++ h.map (OObj.shift n)) (fun r s => r < m ∧ s = r + n) := by
  refine ⟨?_, ?_, ?_⟩
  · rintro r s t ⟨_, rfl⟩ ⟨_, rfl⟩; rfl
  · rintro r s t ⟨_, rfl⟩ ⟨_, h'⟩; omega
  · rintro r s ⟨hr, rfl⟩
    have hr0 : r < h0.length := hm ▸ hr
    obtain ⟨t, rfl⟩ := hpre
    refine ⟨h0[r], h0[r].shift n, List.getElem?_eq_getElem hr0, ?_, rfl, ?_⟩
    · rw [List.getElem?_append_right (by omega), List.getElem?_map, show r + n - e.length = r by omega,
        List.getElem?_append_left hr0, List.getElem?_eq_getElem hr0]
      rfl
    · show List.Forall₂ _ _ (List.map _ _)
      rw [List.forall₂_map_right_iff, List.forall₂_same]
      intro x hx
      cases x with
      | none => exact .none
      | num x => exact .num x
      | ref q => exact .ref ⟨hm ▸ (hp.closed r _ q (List.getElem?_eq_getElem hr0) hx).1, rfl⟩

theorem shift_match {v : OVal} {m n : ℕ} (hv : ∀ r, v = .ref r → r < m) :
    Spec.ValMatch (fun r s => r < m ∧ s = r + n) v (v.shift n) := by
  cases v with
  | none => exact .none
  | num x => exact .num x
  | ref r => exact .ref ⟨hv r rfl, rfl⟩

theorem deepcopy_same {h : OHeap} {P : ℕ → Prop} (hp : Part h P) {v : OVal} (hv : ∀ r, v = .ref r → r < h.length) :
    Spec.Same h v (deepcopy h v).1 (deepcopy h v).2 :=
  ⟨_, corr_shift hp rfl rfl (List.prefix_refl h), shift_match hv⟩

/-- The content of a value does not depend on objects that are created later. -/
theorem Spec.Same.restrict {h h1 H : OHeap} {v v' : OVal} (hs : Spec.Same h1 v H v') {P : ℕ → Prop} (hp : Part h P)
    (hpre : h <+: h1) (hv : ∀ r, v = .ref r → r < h.length) : Spec.Same h v H v' := by
  obtain ⟨B, hc, hm⟩ := hs
  obtain ⟨e, rfl⟩ := hpre
  refine ⟨fun r s => r < h.length ∧ B r s, ⟨?_, ?_, ?_⟩, ?_⟩
  · rintro r s t ⟨_, h1⟩ ⟨_, h2⟩; exact hc.left r s t h1 h2
  · rintro r s t ⟨_, h1⟩ ⟨_, h2⟩; exact hc.right r s t h1 h2
  · rintro r s ⟨hr, hB⟩
    obtain ⟨o, o', a, b, c, d⟩ := hc.obj r s hB
    rw [List.getElem?_append_left hr] at a
    refine ⟨o, o', a, b, c, ?_⟩
    refine forall₂_imp_mem d ?_
    rintro y hy y' - hyy
    cases hyy with
    | none => exact .none
    | num x => exact .num x
    | ref hq => exact .ref ⟨(hp.closed r o _ a hy).1, hq⟩
  · cases hm with
    | none => exact .none
    | num x => exact .num x
    | ref hq => exact .ref ⟨hv _ rfl, hq⟩

theorem deepcopies_prefix (h : OHeap) (vs : List OVal) : h <+: (deepcopies h vs).1 := by
  induction vs generalizing h with
  | nil => exact List.prefix_refl _
  | cons v vs ih => exact (List.prefix_append _ _).trans (ih _)

theorem deepcopies_same {h : OHeap} {P : ℕ → Prop} (hp : Part h P) {vs : List OVal}
    (hv : ∀ v ∈ vs, ∀ r, v = .ref r → r < h.length) {H : OHeap} (hH : (deepcopies h vs).1 <+: H) :
    List.Forall₂ (fun v v' => Spec.Same h v H v') vs (deepcopies h vs).2 := by
  induction vs generalizing h P with
  | nil => exact .nil
  | cons v vs ih =>
    have hpre : (deepcopy h v).1 <+: (deepcopies h (v :: vs)).1 := deepcopies_prefix _ vs
    obtain ⟨P1, p1, g1, _⟩ := hp.deepcopy v (hv v (List.mem_cons_self ..)) True
    refine .cons ((deepcopy_same hp (hv v (List.mem_cons_self ..))).extend (List.prefix_refl _) (hpre.trans hH)) ?_
    have := ih p1 (fun x hx r hr => lt_of_lt_of_le (hv x (List.mem_cons_of_mem _ hx) r hr) (g1 True).1) hH
    exact forall₂_imp_mem this fun x hx x' _ hs =>
      hs.restrict hp (List.prefix_append _ _) (hv x (List.mem_cons_of_mem _ hx))

theorem store_same {h : OHeap} {P : ℕ → Prop} (hp : Part h P) {a : SimAttr} {v : OVal} (hv : ∀ r, v = .ref r → r < h.length)
    (hne : ¬ (a = .sensor ∧ v = .none)) : Spec.Same h v (a.store h v).1 (a.store h v).2 := by
  unfold SimAttr.store
  split
  · exact absurd ⟨rfl, rfl⟩ hne
  · exact deepcopy_same hp hv

theorem store_default {h : OHeap} : Spec.IsDefaultSensor (SimAttr.store h .sensor .none).1 (SimAttr.store h .sensor .none).2 := by
  refine ⟨h.length + 2, h.length, h.length + 1, rfl, ?_, ?_, ?_⟩
  all_goals
    simp only [SimAttr.store, newSensorGeneric]
    rw [List.getElem?_append_right (by omega)]
    simp

theorem store_prefix (h : OHeap) (a : SimAttr) (v : OVal) : h <+: (a.store h v).1 := by
  unfold SimAttr.store
  split <;> exact List.prefix_append _ _

theorem construct_prefix {h : OHeap} {vals : SimAttr → OVal} {l : List SimAttr} {h' : OHeap} {o : SimObj}
    (hc : construct h vals l = .ok (h', o)) : h <+: h' := by
  induction l generalizing h h' o with
  | nil =>
    simp only [SimCATS.construct, Except.ok.injEq, Prod.mk.injEq] at hc
    exact hc.1 ▸ List.prefix_refl _
  | cons a l ih =>
    simp only [SimCATS.construct] at hc
    cases hck : a.check h (vals a) with
    | error e => rw [hck] at hc; exact nomatch hc
    | ok u =>
      rw [hck] at hc
      cases hr : SimCATS.construct (a.store h (vals a)).1 vals l with
      | error e => simp only [hr] at hc; exact nomatch hc
      | ok x =>
        obtain ⟨h2, o2⟩ := x
        simp only [hr, Except.ok.injEq, Prod.mk.injEq] at hc
        obtain ⟨rfl, rfl⟩ := hc
        exact (store_prefix h a (vals a)).trans (ih hr)

/-! ### What statements keep -/

theorem Prim.step_vars (p : Prim) (f : Frame) : f.vars <+: (p.step f).1.vars := by
  cases p with
  | new c es =>
    simp only [Prim.step]
    cases OExpr.evals f.vars es with
    | none => exact List.prefix_refl _
    | some vs =>
      by_cases hc : c = .generator
      · simp only [if_pos hc]; exact List.prefix_refl _
      · simp only [if_neg hc]; exact List.prefix_append _ _
  | newGen s => exact List.prefix_append _ _
  | load i k =>
    simp only [Prim.step]
    cases f.obj i with
    | none => exact List.prefix_refl _
    | some x =>
      by_cases hg : x.2.cls = .generator
      · simp only [if_pos hg]; exact List.prefix_refl _
      · simp only [if_neg hg]
        cases x.2.fields[k]? with
        | none => exact List.prefix_refl _
        | some v => exact List.prefix_append _ _
  | store i k e =>
    simp only [Prim.step]
    cases f.obj i with
    | none => exact List.prefix_refl _
    | some x =>
      cases e.eval f.vars with
      | none => exact List.prefix_refl _
      | some v =>
        by_cases hg : x.2.cls = .generator
        · simp only [if_pos hg]; exact List.prefix_refl _
        · by_cases hk : k < x.2.fields.length
          · simp only [if_neg hg, if_pos hk]; exact List.prefix_refl _
          · simp only [if_neg hg, if_neg hk]; exact List.prefix_refl _
  | draw i =>
    simp only [Prim.step]
    split <;> exact List.prefix_refl _
  | same i j =>
    simp only [Prim.step]
    split <;> exact List.prefix_refl _

theorem SStmt.run_vars (c : SStmt) (w : SimWorld) : w.vars <+: (c.run w).2.vars := by
  cases c with
  | prim p => exact Prim.step_vars p ⟨w.heap, w.vars, []⟩
  | newSim args =>
    simp only [SStmt.run]
    by_cases hall : ∀ a, (w.ctorVals args a).isSome
    · rw [if_pos hall]
      cases construct w.heap (fun a => (w.ctorVals args a).getD .none) SimAttr.all with
      | error e => exact List.prefix_refl _
      | ok x => exact List.prefix_refl _
    · rw [if_neg hall]; exact List.prefix_refl _
  | set s a e =>
    simp only [SStmt.run]
    cases w.sims[s]? with
    | none => exact List.prefix_refl _
    | some o =>
      cases e.eval w.vars with
      | none => exact List.prefix_refl _
      | some v => cases hc : a.check w.heap v <;> simp only [hc] <;> exact List.prefix_refl _
  | get s a =>
    simp only [SStmt.run]
    cases w.sims[s]? with
    | none => exact List.prefix_refl _
    | some o => exact List.prefix_append _ _
  | measure s scan args code fuel ok =>
    simp only [SStmt.run]
    cases w.sims[s]? with
    | none => exact List.prefix_refl _
    | some o =>
      cases OExpr.evals w.vars args with
      | none => exact List.prefix_refl _
      | some vs =>
        dsimp only
        split
        · cases ok with
          | false => exact List.prefix_refl _
          | true => exact List.prefix_append _ _
        · exact List.prefix_refl _

/-- A statement keeps the attributes that it does not set. -/
theorem SStmt.run_sims (c : SStmt) (w : SimWorld) {s : ℕ} {o : SimObj} (ho : w.sims[s]? = some o) :
    ∃ o', (c.run w).2.sims[s]? = some o' ∧ ∀ a, (∀ e, c ≠ .set s a e) → o' a = o a := by
  have triv : ∃ o', w.sims[s]? = some o' ∧ ∀ a, (∀ e, c ≠ .set s a e) → o' a = o a := ⟨o, ho, fun _ _ => rfl⟩
  cases c with
  | prim p => exact triv
  | newSim args =>
    simp only [SStmt.run]
    by_cases hall : ∀ a, (w.ctorVals args a).isSome
    · rw [if_pos hall]
      cases construct w.heap (fun a => (w.ctorVals args a).getD .none) SimAttr.all with
      | error e => exact triv
      | ok x =>
        refine ⟨o, ?_, fun _ _ => rfl⟩
        show (w.sims ++ [x.2])[s]? = some o
        rw [List.getElem?_append_left (List.getElem?_eq_some_iff.1 ho).1]; exact ho
    · rw [if_neg hall]; exact triv
  | set s' a e =>
    simp only [SStmt.run]
    cases ho' : w.sims[s']? with
    | none => exact triv
    | some o1 =>
      cases he : e.eval w.vars with
      | none => exact triv
      | some v =>
        cases hc : a.check w.heap v with
        | error x => simp only [hc]; exact triv
        | ok u =>
          simp only [hc]
          by_cases hss : s' = s
          · subst hss
            rw [ho] at ho'
            cases ho'
            refine ⟨_, List.getElem?_set_self (List.getElem?_eq_some_iff.1 ho).1, ?_⟩
            intro b hb
            have : b ≠ a := by
              rintro rfl
              exact hb e rfl
            simp only [if_neg this]
          · refine ⟨o, ?_, fun _ _ => rfl⟩
            rw [List.getElem?_set_ne hss]; exact ho
  | get s' a =>
    simp only [SStmt.run]
    cases w.sims[s']? with
    | none => exact triv
    | some o1 => exact triv
  | measure s' scan args code fuel ok =>
    simp only [SStmt.run]
    cases w.sims[s']? with
    | none => exact triv
    | some o1 =>
      cases OExpr.evals w.vars args with
      | none => exact triv
      | some vs =>
        dsimp only
        split
        · cases ok with
          | false => exact triv
          | true => exact triv
        · exact triv

theorem SStmt.run_sims_length (c : SStmt) (w : SimWorld) : w.sims.length ≤ (c.run w).2.sims.length := by
  by_contra hlt
  have : (c.run w).2.sims.length < w.sims.length := by omega
  obtain ⟨o', ho', _⟩ := c.run_sims w (List.getElem?_eq_getElem this)
  have := (List.getElem?_eq_some_iff.1 ho').1
  omega

theorem exec_cons (w : SimWorld) (c : SStmt) (l : List SStmt) : w.exec (c :: l) = (c.run w).2.exec l := rfl

theorem exec_append (w : SimWorld) (p q : List SStmt) : w.exec (p ++ q) = (w.exec p).exec q := List.foldl_append

theorem exec_vars (l : List SStmt) (w : SimWorld) : w.vars <+: (w.exec l).vars := by
  induction l generalizing w with
  | nil => exact List.prefix_refl _
  | cons c l ih => exact (c.run_vars w).trans (ih _)

theorem exec_sims (l : List SStmt) (w : SimWorld) {s : ℕ} {o : SimObj} (ho : w.sims[s]? = some o) :
    ∃ o', (w.exec l).sims[s]? = some o' ∧ ∀ a, (∀ c ∈ l, ∀ e, c ≠ .set s a e) → o' a = o a := by
  induction l generalizing w o with
  | nil => exact ⟨o, ho, fun _ _ => rfl⟩
  | cons c l ih =>
    obtain ⟨o1, h1, k1⟩ := c.run_sims w ho
    obtain ⟨o2, h2, k2⟩ := ih (c.run w).2 h1
    exact ⟨o2, h2, fun a ha => (k2 a fun c' hc' => ha c' (List.mem_cons_of_mem _ hc')).trans (k1 a (ha c (List.mem_cons_self ..)))⟩

/-! ### Protected parts -/

theorem guarded_init : Guarded SimWorld.init (fun _ => False) (fun _ => False) (fun _ _ => False) := by
  refine ⟨⟨fun _ h => h.elim, ?_⟩, ?_, ?_, ?_⟩
  · intro r o q hr hq
    refine ⟨?_, Iff.rfl⟩
    simp only [SimWorld.init, newSensorGeneric, List.nil_append, List.length_nil] at hr ⊢
    have ho := List.mem_of_getElem? hr
    simp only [List.mem_cons, List.not_mem_nil, or_false] at ho
    rcases ho with rfl | rfl | rfl
    · simp at hq
    · simp at hq
    · simp only [List.mem_cons, List.not_mem_nil, or_false, OVal.ref.injEq, reduceCtorEq, false_or] at hq
      simp only [List.length_cons, List.length_nil]
      omega
  · intro i v hi
    simp [SimWorld.init] at hi
  · intro s o a hs
    simp [SimWorld.init] at hs
  · intro r hr
    cases hr
    exact ⟨by simp [SimWorld.init, newSensorGeneric], Iff.rfl⟩

theorem guarded_none {w : SimWorld} {P : ℕ → Prop} (g : Guarded w P (fun _ => False) (fun _ _ => False)) (l : List SStmt) :
    ∃ P', Guarded (w.exec l) P' (fun _ => False) (fun _ _ => False) := by
  induction l generalizing w P with
  | nil => exact ⟨P, g⟩
  | cons c l ih =>
    obtain ⟨P1, g1, _⟩ := g.step c (by cases c <;> simp [Safe])
    exact ih g1

/-- Nothing is protected in a reachable state. -/
theorem guarded_reachable (p : List SStmt) :
    Guarded (SimWorld.init.exec p) (fun _ => False) (fun _ => False) (fun _ _ => False) := by
  obtain ⟨P, g⟩ := guarded_none guarded_init p
  refine ⟨⟨fun _ h => h.elim, fun r o q hr hq => ⟨(g.part.closed r o q hr hq).1, Iff.rfl⟩⟩, ?_, ?_, ?_⟩
  · intro i v hi r hr; exact ⟨(g.names i v hi r hr).1, Iff.rfl⟩
  · intro s o a hs r hr; exact ⟨(g.sims s o a hs r hr).1, Iff.rfl⟩
  · intro r hr; exact ⟨(g.dflt r hr).1, Iff.rfl⟩

/-- Names and simulations that do not exist yet can be declared protected. -/
theorem Guarded.future {w : SimWorld} (g : Guarded w (fun _ => False) (fun _ => False) (fun _ _ => False)) {PV : ℕ → Prop}
    {PS : ℕ → SimAttr → Prop} (hv : ∀ i, i < w.vars.length → ¬ PV i) (hs : ∀ s a, s < w.sims.length → ¬ PS s a) :
    Guarded w (fun _ => False) PV PS := by
  refine ⟨g.part, ?_, ?_, g.dflt⟩
  · intro i v hi r hr
    exact ⟨(g.names i v hi r hr).1, iff_of_false id (hv i (List.getElem?_eq_some_iff.1 hi).1)⟩
  · intro s o a ho r hr
    exact ⟨(g.sims s o a ho r hr).1, iff_of_false id (hs s a (List.getElem?_eq_some_iff.1 ho).1)⟩

/-- A program that leaves the protected part to itself and does not run protected components does not change the objects in it. -/
theorem Guarded.exec {w : SimWorld} {P PV : ℕ → Prop} {PS : ℕ → SimAttr → Prop} (g : Guarded w P PV PS) (l : List SStmt)
    (hs : ∀ c ∈ l, ∀ w', w.vars.length ≤ w'.vars.length → Safe w' PV PS c) :
    ∃ P', Guarded (w.exec l) P' PV PS ∧ w.heap.length ≤ (w.exec l).heap.length ∧
      ((∀ c ∈ l, ¬ RunsIn PS c) → ∀ r, P r → (w.exec l).heap[r]? = w.heap[r]? ∧ P' r) := by
  induction l generalizing w P with
  | nil => exact ⟨P, g, le_refl _, fun _ r hr => ⟨rfl, hr⟩⟩
  | cons c l ih =>
    obtain ⟨P1, g1, k1⟩ := g.step c (hs c (List.mem_cons_self ..) w (le_refl _))
    obtain ⟨P2, g2, l2, k2⟩ := ih g1 (fun c' hc' w' hw' =>
      hs c' (List.mem_cons_of_mem _ hc') w' (le_trans (c.run_vars w).length_le hw'))
    refine ⟨P2, g2, le_trans k1.1 l2, fun hr r hP => ?_⟩
    have hlt := g.part.bound r hP
    have hnr := hr c (List.mem_cons_self ..)
    have a1 := k1.2 r hlt
    have a2 := k2 (fun c' hc' => hr c' (List.mem_cons_of_mem _ hc')) r (a1.1.2 hP)
    exact ⟨a2.1.trans (a1.2 (iff_of_true hP hnr)), a2.2⟩

/-- The configuration of a simulation that is created later and whose objects are not handed out. -/
theorem isolated_of {w : SimWorld} (g : Guarded w (fun _ => False) (fun _ => False) (fun _ _ => False)) {s : ℕ}
    (hs : w.sims.length ≤ s) (p q : List SStmt) (hg : ∀ c ∈ p ++ q, ¬ Spec.Gets s c)
    (hq : ∀ c ∈ q, ¬ Spec.Sets s c ∧ ¬ Spec.Measures s c) {o : SimObj} (ho : (w.exec p).sims[s]? = some o) :
    ((w.exec p).exec q).sims[s]? = some o ∧ Spec.SameAll (w.exec p).heap o ((w.exec p).exec q).heap o := by
  let PS : ℕ → SimAttr → Prop := fun s' _ => s' = s
  have safe : ∀ c ∈ p ++ q, ∀ v, Safe v (fun _ => False) PS c := by
    intro c hc v
    cases c with
    | prim p => exact ⟨fun _ _ => id, id⟩
    | newSim args => trivial
    | set s' a e => trivial
    | get s' a =>
      refine ⟨?_, id⟩
      intro hss
      have hss' : s' = s := hss
      exact hg _ hc ⟨a, by rw [hss']⟩
    | measure s' _ _ _ _ _ => exact ⟨Iff.rfl, Iff.rfl, Iff.rfl⟩
  have g0 := g.future (PV := fun _ => False) (PS := PS) (fun _ _ => id) (fun s' a h he => by
    have he' : s' = s := he
    omega)
  obtain ⟨P1, g1, _, _⟩ := g0.exec p (fun c hc v _ => safe c (List.mem_append_left _ hc) v)
  obtain ⟨P2, g2, _, k2⟩ := g1.exec q (fun c hc v _ => safe c (List.mem_append_right _ hc) v)
  have hnr : ∀ c ∈ q, ¬ RunsIn PS c := by
    intro c hc hr
    cases c with
    | measure s' scan args code fuel ok =>
      have : s' = s := hr
      subst this
      exact (hq _ hc).2 ⟨_, _, _, _, _, rfl⟩
    | _ => exact hr
  obtain ⟨o', ho', hk⟩ := exec_sims q (w.exec p) ho
  have hoo : o' = o := by
    funext a
    refine hk a ?_
    rintro c hc e rfl
    exact (hq _ hc).1 ⟨a, e, rfl⟩
  subst hoo
  refine ⟨ho', ?_⟩
  refine same_of_part g1.part (fun r hr => (k2 hnr r hr).1) o' ?_
  intro a r hr
  have := g1.sims s o' a ho r hr
  exact ⟨this.1, this.2.trans (iff_of_true rfl trivial)⟩

end SimCATS
