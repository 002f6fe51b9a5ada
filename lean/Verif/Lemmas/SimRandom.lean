import Verif.Lemmas.SimRuns

/-! Helper lemmas for the random numbers of simulations. -/

namespace SimCATS

/-! ### Contents that agree -/

theorem Spec.ValMatch.symm {B : ℕ → ℕ → Prop} {v v' : OVal} (h : Spec.ValMatch B v v') : Spec.ValMatch (fun r s => B s r) v' v := by
  cases h with
  | none => exact .none
  | num x => exact .num x
  | ref h => exact .ref h

theorem Spec.ValMatch.trans {B B' : ℕ → ℕ → Prop} {v v' v'' : OVal} (h : Spec.ValMatch B v v') (h' : Spec.ValMatch B' v' v'') :
    Spec.ValMatch (fun r t => ∃ s, B r s ∧ B' s t) v v'' := by
  cases h with
  | none => cases h'; exact .none
  | num x => cases h'; exact .num x
  | ref h => cases h' with | ref h' => exact .ref ⟨_, h, h'⟩

theorem forall₂_trans' {α β γ : Type} {R : α → β → Prop} {S : β → γ → Prop} {T : α → γ → Prop}
    (hT : ∀ x y z, R x y → S y z → T x z) {l : List α} {l' : List β} {l'' : List γ} (h : List.Forall₂ R l l')
    (h' : List.Forall₂ S l' l'') : List.Forall₂ T l l'' := by
  induction h generalizing l'' with
  | nil => cases h'; exact .nil
  | cons h1 _ ih => cases h' with | cons h2 h3 => exact .cons (hT _ _ _ h1 h2) (ih h3)

theorem Spec.Corr.symm {h h' : OHeap} {B : ℕ → ℕ → Prop} (hc : Spec.Corr h h' B) : Spec.Corr h' h (fun r s => B s r) := by
  refine ⟨fun r s t h1 h2 => hc.right _ _ _ h1 h2, fun r s t h1 h2 => hc.left _ _ _ h1 h2, ?_⟩
  intro r s hB
  obtain ⟨o, o', a, b, c, d⟩ := hc.obj s r hB
  exact ⟨o', o, b, a, c.symm, List.Forall₂.flip (d.imp fun _ _ => Spec.ValMatch.symm)⟩

theorem Spec.Corr.trans {h h' h'' : OHeap} {B B' : ℕ → ℕ → Prop} (hc : Spec.Corr h h' B) (hc' : Spec.Corr h' h'' B') :
    Spec.Corr h h'' (fun r t => ∃ s, B r s ∧ B' s t) := by
  refine ⟨?_, ?_, ?_⟩
  · rintro r s t ⟨x, h1, h2⟩ ⟨y, h3, h4⟩
    have := hc.left _ _ _ h1 h3
    subst this
    exact hc'.left _ _ _ h2 h4
  · rintro r s t ⟨x, h1, h2⟩ ⟨y, h3, h4⟩
    have := hc'.right _ _ _ h2 h4
    subst this
    exact hc.right _ _ _ h1 h3
  · rintro r t ⟨s, h1, h2⟩
    obtain ⟨o, o', a, b, c, d⟩ := hc.obj _ _ h1
    obtain ⟨u, u', a', b', c', d'⟩ := hc'.obj _ _ h2
    rw [b] at a'
    cases a'
    exact ⟨o, u', a, b', c.trans c', forall₂_trans' (fun _ _ _ => Spec.ValMatch.trans) d d'⟩

theorem sameAll_symm {ι : Type} {h h' : OHeap} {v v' : ι → OVal} (hs : Spec.SameAll h v h' v') : Spec.SameAll h' v' h v := by
  obtain ⟨B, hc, hm⟩ := hs
  exact ⟨_, hc.symm, fun i => (hm i).symm⟩

theorem sameAll_trans {ι : Type} {h h' h'' : OHeap} {v v' v'' : ι → OVal} (hs : Spec.SameAll h v h' v')
    (hs' : Spec.SameAll h' v' h'' v'') : Spec.SameAll h v h'' v'' := by
  obtain ⟨B, hc, hm⟩ := hs
  obtain ⟨B', hc', hm'⟩ := hs'
  exact ⟨_, hc.trans hc', fun i => (hm i).trans (hm' i)⟩

theorem same_trans {h h' h'' : OHeap} {v v' v'' : OVal} (hs : Spec.Same h v h' v') (hs' : Spec.Same h' v' h'' v'') :
    Spec.Same h v h'' v'' := by
  obtain ⟨B, hc, hm⟩ := hs
  obtain ⟨B', hc', hm'⟩ := hs'
  exact ⟨_, hc.trans hc', hm.trans hm'⟩

/-- Two correspondences of different objects together. -/
theorem Spec.Corr.union {h h' : OHeap} {B B' : ℕ → ℕ → Prop} (hc : Spec.Corr h h' B) (hc' : Spec.Corr h h' B')
    (h1 : ∀ r s t, B r s → ¬ B' r t) (h2 : ∀ r s t, B r t → ¬ B' s t) : Spec.Corr h h' (fun r s => B r s ∨ B' r s) := by
  refine ⟨?_, ?_, ?_⟩
  · rintro r s t (a | a) (b | b)
    · exact hc.left _ _ _ a b
    · exact absurd b (h1 _ _ _ a)
    · exact absurd a (h1 _ _ _ b)
    · exact hc'.left _ _ _ a b
  · rintro r s t (a | a) (b | b)
    · exact hc.right _ _ _ a b
    · exact absurd b (h2 _ _ _ a)
    · exact absurd a (h2 _ _ _ b)
    · exact hc'.right _ _ _ a b
  · rintro r s (hB | hB)
    · obtain ⟨o, o', a, b, c, d⟩ := hc.obj _ _ hB
      exact ⟨o, o', a, b, c, d.imp fun _ _ => ValMatch.mono fun _ _ => Or.inl⟩
    · obtain ⟨o, o', a, b, c, d⟩ := hc'.obj _ _ hB
      exact ⟨o, o', a, b, c, d.imp fun _ _ => ValMatch.mono fun _ _ => Or.inr⟩

/-- The copies of corresponding objects correspond. -/
theorem Spec.Corr.copies {h h' : OHeap} {B : ℕ → ℕ → Prop} (hc : Spec.Corr h h' B) :
    Spec.Corr (h ++ h.map (OObj.shift h.length)) (h' ++ h'.map (OObj.shift h'.length))
      (fun r s => ∃ x y, B x y ∧ r = x + h.length ∧ s = y + h'.length) := by
  refine ⟨?_, ?_, ?_⟩
  · rintro r s t ⟨x, y, h1, rfl, rfl⟩ ⟨x', y', h2, h3, rfl⟩
    have : x' = x := by omega
    subst this
    rw [hc.left _ _ _ h1 h2]
  · rintro r s t ⟨x, y, h1, rfl, rfl⟩ ⟨x', y', h2, rfl, h3⟩
    have : y' = y := by omega
    subst this
    rw [hc.right _ _ _ h1 h2]
  · rintro r s ⟨x, y, hB, rfl, rfl⟩
    obtain ⟨o, o', a, b, c, d⟩ := hc.obj _ _ hB
    refine ⟨o.shift h.length, o'.shift h'.length, ?_, ?_, c, ?_⟩
    · rw [List.getElem?_append_right (by omega), Nat.add_sub_cancel, List.getElem?_map, a]; rfl
    · rw [List.getElem?_append_right (by omega), Nat.add_sub_cancel, List.getElem?_map, b]; rfl
    · show List.Forall₂ _ (List.map _ _) (List.map _ _)
      rw [List.forall₂_map_left_iff, List.forall₂_map_right_iff]
      refine d.imp fun v v' hv => ?_
      cases hv with
      | none => exact .none
      | num x => exact .num x
      | ref hB => exact .ref ⟨_, _, hB, rfl, rfl⟩

/-- Measurements of simulations with the same configuration start with corresponding objects. -/
theorem start_corr {w w' : SimWorld} {o o' : SimObj} (hs : Spec.SameAll w.heap o w'.heap o') :
    ∃ B, Spec.Corr (w.start o).heap (w'.start o').heap B ∧ List.Forall₂ (Spec.ValMatch B) (w.start o).vars (w'.start o').vars := by
  obtain ⟨B, hc, hm⟩ := hs
  have h1 : Spec.Corr (w.start o).heap (w'.start o').heap B := hc.extend (List.prefix_append _ _) (List.prefix_append _ _)
  have h2 : Spec.Corr (w.start o).heap (w'.start o').heap _ := hc.copies
  refine ⟨fun r s => B r s ∨ ∃ x y, B x y ∧ r = x + w.heap.length ∧ s = y + w'.heap.length, h1.union h2 ?_ ?_, ?_⟩
  · rintro r s t hB ⟨x, y, _, rfl, _⟩
    have := (hc.lt hB).1
    omega
  · rintro r s t hB ⟨x, y, _, _, rfl⟩
    have := (hc.lt hB).2
    omega
  · have m : ∀ a, Spec.ValMatch (fun r s => B r s ∨ ∃ x y, B x y ∧ r = x + w.heap.length ∧ s = y + w'.heap.length) (o a) (o' a) :=
      fun a => (hm a).mono fun _ _ => Or.inl
    refine .cons ?_ (.cons (m _) (.cons (m _) (.cons (m _) (.cons (m _) .nil))))
    show Spec.ValMatch _ ((o .ideal).shift _) ((o' .ideal).shift _)
    have hi := hm .ideal
    generalize o .ideal = x at hi ⊢
    generalize o' .ideal = y at hi ⊢
    cases hi with
    | none => exact .none
    | num x => exact .num x
    | ref hB => exact .ref (Or.inr ⟨_, _, hB, rfl, rfl⟩)

/-! ### Simulations from the same arguments -/

theorem store_joint {h0 h h' : OHeap} {P : ℕ → Prop} (hp : Part h0 P) (h1 : h0 <+: h) (h2 : h0 <+: h') (a : SimAttr) {v : OVal}
    (hv : ∀ r, v = .ref r → r < h0.length) :
    ∃ B, Spec.Corr (a.store h v).1 (a.store h' v).1 B ∧ Spec.ValMatch B (a.store h v).2 (a.store h' v).2 ∧
      ∀ r s, B r s → h.length ≤ r ∧ h'.length ≤ s := by
  by_cases hn : a = .sensor ∧ v = .none
  · obtain ⟨rfl, rfl⟩ := hn
    refine ⟨fun r s => ∃ i < 3, r = h.length + i ∧ s = h'.length + i, ⟨?_, ?_, ?_⟩, ?_, ?_⟩
    · rintro r s t ⟨i, _, h1, h2⟩ ⟨j, _, h3, h4⟩; omega
    · rintro r s t ⟨i, _, h1, h2⟩ ⟨j, _, h3, h4⟩; omega
    · rintro r s ⟨i, hi, rfl, rfl⟩
      simp only [SimAttr.store, newSensorGeneric]
      rw [List.getElem?_append_right (by omega), List.getElem?_append_right (by omega)]
      simp only [Nat.add_sub_cancel_left]
      match i, hi with
      | 0, _ => exact ⟨_, _, rfl, rfl, rfl, .cons (.num _) (.cons (.num _) .nil)⟩
      | 1, _ => exact ⟨_, _, rfl, rfl, rfl, .cons (.num _) (.cons (.num _) .nil)⟩
      | 2, _ =>
        exact ⟨_, _, rfl, rfl, rfl, .cons .none (.cons (.ref ⟨0, by omega, rfl, rfl⟩) (.cons (.ref ⟨1, by omega, rfl, rfl⟩)
          (.cons (.num _) .nil)))⟩
    · exact .ref ⟨2, by omega, rfl, rfl⟩
    · rintro r s ⟨i, _, rfl, rfl⟩; omega
  · have e : ∀ g, a.store g v = deepcopy g v := by
      intro g
      unfold SimAttr.store
      split
      · exact absurd ⟨rfl, rfl⟩ hn
      · rfl
    rw [e, e]
    have c1 := corr_shift hp rfl (rfl : h.length = h.length) h1
    have c2 := corr_shift hp rfl (rfl : h'.length = h'.length) h2
    refine ⟨_, c1.symm.trans c2, ?_, ?_⟩
    · exact (shift_match hv).symm.trans (shift_match hv)
    · rintro r s ⟨x, ⟨_, h3⟩, ⟨_, h4⟩⟩
      omega

theorem construct_joint {h0 : OHeap} {P : ℕ → Prop} (hp : Part h0 P) {vals : SimAttr → OVal}
    (hv : ∀ a r, vals a = .ref r → r < h0.length) (l : List SimAttr) {h h' H H' : OHeap} {o o' : SimObj} (h1 : h0 <+: h)
    (h2 : h0 <+: h') (hc : construct h vals l = .ok (H, o)) (hc' : construct h' vals l = .ok (H', o')) :
    ∃ B, Spec.Corr H H' B ∧ (∀ a, Spec.ValMatch B (o a) (o' a)) ∧ ∀ r s, B r s → h.length ≤ r ∧ h'.length ≤ s := by
  induction l generalizing h h' H H' o o' with
  | nil =>
    simp only [construct, Except.ok.injEq, Prod.mk.injEq] at hc hc'
    obtain ⟨rfl, rfl⟩ := hc
    obtain ⟨rfl, rfl⟩ := hc'
    refine ⟨fun _ _ => False, ⟨fun _ _ _ h => h.elim, fun _ _ _ h => h.elim, fun _ _ h => h.elim⟩, fun _ => .none, fun _ _ h => h.elim⟩
  | cons a l ih =>
    simp only [construct] at hc hc'
    cases hck : a.check h (vals a) with
    | error e => rw [hck] at hc; exact nomatch hc
    | ok u =>
      cases hck' : a.check h' (vals a) with
      | error e => rw [hck'] at hc'; exact nomatch hc'
      | ok u' =>
        rw [hck] at hc
        rw [hck'] at hc'
        cases hr : construct (a.store h (vals a)).1 vals l with
        | error e => simp only [hr] at hc; exact nomatch hc
        | ok x =>
          cases hr' : construct (a.store h' (vals a)).1 vals l with
          | error e => simp only [hr'] at hc'; exact nomatch hc'
          | ok x' =>
            obtain ⟨K, u⟩ := x
            obtain ⟨K', u'⟩ := x'
            simp only [hr, Except.ok.injEq, Prod.mk.injEq] at hc
            simp only [hr', Except.ok.injEq, Prod.mk.injEq] at hc'
            obtain ⟨rfl, rfl⟩ := hc
            obtain ⟨rfl, rfl⟩ := hc'
            obtain ⟨B1, c1, m1, b1⟩ := store_joint hp h1 h2 a (hv a)
            obtain ⟨B2, c2, m2, b2⟩ := ih (h1.trans (store_prefix _ _ _)) (h2.trans (store_prefix _ _ _)) hr hr'
            have c1' := c1.extend (construct_prefix hr) (construct_prefix hr')
            have l1 := (store_prefix h a (vals a)).length_le
            have l2 := (store_prefix h' a (vals a)).length_le
            refine ⟨_, c1'.union c2 ?_ ?_, ?_, ?_⟩
            · intro r s t hB hB'
              have := (c1.lt hB).1
              have := (b2 _ _ hB').1
              omega
            · intro r s t hB hB'
              have := (c1.lt hB).2
              have := (b2 _ _ hB').2
              omega
            · intro b
              by_cases hb : b = a
              · simp only [if_pos hb]; exact m1.mono fun _ _ => Or.inl
              · simp only [if_neg hb]; exact (m2 b).mono fun _ _ => Or.inr
            · rintro r s (hB | hB)
              · exact b1 _ _ hB
              · have := b2 _ _ hB
                omega

/-! ### The log of a measurement -/

/-- A measurement that is started. -/
def Starts (w : SimWorld) (o : SimObj) (scan : Bool) : Prop :=
  (scan = true ∧ (o .sensor).cls w.heap = some .scanSensor) ∨ (scan = false ∧ (o .ideal).isNone = false)

theorem measure_log {w : SimWorld} {s : ℕ} {scan : Bool} {args : List OExpr} {code : Code} {fuel : ℕ} {ok : Bool} {o : SimObj}
    {vs : List OVal} (ho : w.sims[s]? = some o) (hvs : OExpr.evals w.vars args = some vs) :
    (Starts w o scan → ((SStmt.measure s scan args code fuel ok).run w).2.log =
      w.log ++ (code.run fuel [] (w.start o)).log.map fun d => (some s, d)) ∧
    (¬ Starts w o scan → ((SStmt.measure s scan args code fuel ok).run w).2 = w) := by
  simp only [SStmt.run, ho, hvs]
  refine ⟨fun h => ?_, fun h => ?_⟩
  · unfold Starts at h
    rw [if_pos h]
    cases ok with
    | false => rfl
    | true => rfl
  · unfold Starts at h
    rw [if_neg h]

theorem starts_same {w w' : SimWorld} {o o' : SimObj} (hs : Spec.SameAll w.heap o w'.heap o') (scan : Bool) :
    Starts w o scan ↔ Starts w' o' scan := by
  obtain ⟨B, hc, hm⟩ := hs
  have h1 : (o .sensor).cls w.heap = (o' .sensor).cls w'.heap := by
    have hi := hm .sensor
    generalize o .sensor = x at hi ⊢
    generalize o' .sensor = y at hi ⊢
    cases hi with
    | none => rfl
    | num x => rfl
    | ref hB =>
      obtain ⟨x, x', a, b, c, _⟩ := hc.obj _ _ hB
      simp only [OVal.cls, a, b, Option.map_some, c]
  have h2 : (o .ideal).isNone = (o' .ideal).isNone := by
    have hi := hm .ideal
    generalize o .ideal = x at hi ⊢
    generalize o' .ideal = y at hi ⊢
    cases hi <;> rfl
  unfold Starts
  rw [h1, h2]

theorem evals_prefix {vars vars' : List OVal} (hp : vars <+: vars') {es : List OExpr} {vs : List OVal}
    (he : OExpr.evals vars es = some vs) : OExpr.evals vars' es = some vs := by
  induction es generalizing vs with
  | nil => exact he
  | cons e es ih =>
    simp only [OExpr.evals] at he ⊢
    cases h1 : e.eval vars with
    | none => rw [h1] at he; exact nomatch he
    | some v =>
      cases h2 : OExpr.evals vars es with
      | none => rw [h1, h2] at he; exact nomatch he
      | some xs =>
        rw [h1, h2] at he
        have h3 : e.eval vars' = some v := by
          cases e with
          | none => exact h1
          | num x => exact h1
          | var i =>
            obtain ⟨t, rfl⟩ := hp
            have h1' : vars[i]? = some v := h1
            show (vars ++ t)[i]? = some v
            rw [List.getElem?_append_left (List.getElem?_eq_some_iff.1 h1').1]; exact h1'
        rw [h3, ih h2]
        exact he

end SimCATS
