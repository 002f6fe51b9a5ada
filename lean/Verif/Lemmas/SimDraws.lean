import Verif.Lemmas.SimDemo

/-! Helper lemmas: generators with different seeds give different random numbers. -/

namespace SimCATS

/-- A set of objects with which code can work: closed under references. -/
structure ClosedSet (h : OHeap) (G : ℕ → Prop) : Prop where
  bound : ∀ r, G r → r < h.length
  refs : ∀ r o q, G r → h[r]? = some o → .ref q ∈ o.fields → G q

/-- The generators of a set have different seeds, and the numbers used before come earlier in their sequences. -/
structure Fresh (h : OHeap) (G : ℕ → Prop) (N : List (ℝ × ℝ)) : Prop where
  seeds : ∀ r r' s k k', G r → G r' → h[r]? = some ⟨.generator, [.num s, k]⟩ → h[r']? = some ⟨.generator, [.num s, k']⟩ → r = r'
  past : ∀ r s k, G r → h[r]? = some ⟨.generator, [.num s, .num k]⟩ → ∀ k', (s, k') ∈ N → k' < k
  nodup : N.Nodup

def VarsIn (G : ℕ → Prop) (vars : List OVal) : Prop := ∀ v ∈ vars, ∀ r, v = .ref r → G r

theorem VarsIn.eval {G : ℕ → Prop} {vars : List OVal} (hv : VarsIn G vars) {e : OExpr} {v : OVal} (he : e.eval vars = some v) :
    ∀ r, v = .ref r → G r := by
  cases e with
  | none => cases he; intro r hr; exact nomatch hr
  | num x => cases he; intro r hr; exact nomatch hr
  | var i => exact hv v (List.mem_of_getElem? he)

theorem VarsIn.evals {G : ℕ → Prop} {vars : List OVal} (hv : VarsIn G vars) {es : List OExpr} {vs : List OVal}
    (he : OExpr.evals vars es = some vs) : ∀ v ∈ vs, ∀ r, v = .ref r → G r := by
  induction es generalizing vs with
  | nil => cases he; intro v hv; exact absurd hv List.not_mem_nil
  | cons e es ih =>
    simp only [OExpr.evals] at he
    cases h1 : e.eval vars with
    | none => rw [h1] at he; exact nomatch he
    | some v =>
      cases h2 : OExpr.evals vars es with
      | none => rw [h1, h2] at he; exact nomatch he
      | some xs =>
        rw [h1, h2] at he
        cases he
        intro x hx
        rcases List.mem_cons.1 hx with rfl | hx
        · exact hv.eval h1
        · exact ih h2 x hx

theorem Prim.step_fresh {f : Frame} {G : ℕ → Prop} {N : List (ℝ × ℝ)} (hG : ClosedSet f.heap G) (hv : VarsIn G f.vars)
    (hF : Fresh f.heap G (N ++ f.log)) (p : Prim) (hp : ∀ seed, p ≠ .newGen seed) :
    ∃ G', (∀ r, G r → G' r) ∧ ClosedSet (p.step f).1.heap G' ∧ VarsIn G' (p.step f).1.vars ∧
      Fresh (p.step f).1.heap G' (N ++ (p.step f).1.log) := by
  have triv : ∃ G', (∀ r, G r → G' r) ∧ ClosedSet f.heap G' ∧ VarsIn G' f.vars ∧ Fresh f.heap G' (N ++ f.log) :=
    ⟨G, fun _ h => h, hG, hv, hF⟩
  cases p with
  | newGen s => exact absurd rfl (hp s)
  | new c es =>
    simp only [Prim.step]
    cases he : OExpr.evals f.vars es with
    | none => exact triv
    | some vs =>
      by_cases hc : c = .generator
      · simp only [if_pos hc]; exact triv
      · simp only [if_neg hc]
        have look : ∀ r o, G r ∨ r = f.heap.length → (f.heap ++ [⟨c, vs⟩])[r]? = some o →
            (G r ∧ f.heap[r]? = some o) ∨ (r = f.heap.length ∧ o = ⟨c, vs⟩) := by
          rintro r o (hr | rfl) ho
          · left
            rw [List.getElem?_append_left (hG.bound r hr)] at ho
            exact ⟨hr, ho⟩
          · right
            simp at ho
            exact ⟨rfl, ho.symm⟩
        have gen : ∀ r s k, G r ∨ r = f.heap.length → (f.heap ++ [⟨c, vs⟩])[r]? = some ⟨.generator, [.num s, k]⟩ →
            G r ∧ f.heap[r]? = some ⟨.generator, [.num s, k]⟩ := by
          intro r s k hr ho
          rcases look r _ hr ho with h | ⟨_, h⟩
          · exact h
          · simp only [OObj.mk.injEq] at h
            exact absurd h.1.symm hc
        refine ⟨fun r => G r ∨ r = f.heap.length, fun _ => Or.inl, ⟨?_, ?_⟩, ?_, ⟨?_, ?_, hF.nodup⟩⟩
        · rintro r (hr | rfl)
          · have := hG.bound r hr
            rw [List.length_append]; omega
          · simp
        · intro r o q hr ho hq
          rcases look r o hr ho with ⟨h1, h2⟩ | ⟨_, rfl⟩
          · exact Or.inl (hG.refs r o q h1 h2 hq)
          · exact Or.inl (hv.evals he _ hq q rfl)
        · intro v hvm r hr
          rcases List.mem_append.1 hvm with h | h
          · exact Or.inl (hv v h r hr)
          · rw [List.mem_singleton.1 h] at hr
            cases hr
            exact Or.inr rfl
        · intro r r' s k k' hr hr' h1 h2
          obtain ⟨a1, a2⟩ := gen r s k hr h1
          obtain ⟨b1, b2⟩ := gen r' s k' hr' h2
          exact hF.seeds r r' s k k' a1 b1 a2 b2
        · intro r s k hr h1
          obtain ⟨a1, a2⟩ := gen r s _ hr h1
          exact hF.past r s k a1 a2
  | load i k =>
    simp only [Prim.step]
    cases ho : f.obj i with
    | none => exact triv
    | some x =>
      obtain ⟨r, o⟩ := x
      obtain ⟨h1, h2⟩ := Frame.obj_some ho
      dsimp only
      by_cases hg : o.cls = .generator
      · rw [if_pos hg]; exact triv
      · rw [if_neg hg]
        cases hk : o.fields[k]? with
        | none => exact triv
        | some v =>
          refine ⟨G, fun _ h => h, hG, ?_, hF⟩
          intro x hx q hq
          rcases List.mem_append.1 hx with h | h
          · exact hv x h q hq
          · rw [List.mem_singleton.1 h] at hq
            exact hG.refs r o q (hv _ (List.mem_of_getElem? h1) r rfl) h2 (hq ▸ List.mem_of_getElem? hk)
  | store i k e =>
    simp only [Prim.step]
    cases ho : f.obj i with
    | none => exact triv
    | some x =>
      obtain ⟨r, o⟩ := x
      cases he : e.eval f.vars with
      | none => exact triv
      | some v =>
        obtain ⟨h1, h2⟩ := Frame.obj_some ho
        dsimp only
        by_cases hg : o.cls = .generator
        · rw [if_pos hg]; exact triv
        · rw [if_neg hg]
          by_cases hk : k < o.fields.length
          · rw [if_pos hk]
            have hr : G r := hv _ (List.mem_of_getElem? h1) r rfl
            have gen : ∀ (q : ℕ) (s : ℝ) (k' : OVal), (f.heap.set r ⟨o.cls, o.fields.set k v⟩)[q]? = some ⟨.generator, [.num s, k']⟩ →
                f.heap[q]? = some ⟨.generator, [.num s, k']⟩ := by
              intro q s k' hq
              by_cases hrq : r = q
              · subst hrq
                rw [List.getElem?_set_self (hG.bound r hr)] at hq
                simp only [Option.some.injEq, OObj.mk.injEq] at hq
                exact absurd hq.1 hg
              · rwa [List.getElem?_set_ne hrq] at hq
            refine ⟨G, fun _ h => h, ⟨?_, ?_⟩, hv, ⟨?_, ?_, hF.nodup⟩⟩
            · intro q hq; rw [List.length_set]; exact hG.bound q hq
            · intro q u t hq hu ht
              by_cases hrq : r = q
              · subst hrq
                rw [List.getElem?_set_self (hG.bound r hr)] at hu
                cases hu
                rcases List.mem_or_eq_of_mem_set ht with h | h
                · exact hG.refs r o t hr h2 h
                · exact hv.eval he t h.symm
              · rw [List.getElem?_set_ne hrq] at hu
                exact hG.refs q u t hq hu ht
            · intro q q' s k1 k2 a b c d
              exact hF.seeds q q' s k1 k2 a b (gen q s k1 c) (gen q' s k2 d)
            · intro q s k1 a b
              exact hF.past q s k1 a (gen q s _ b)
          · rw [if_neg hk]; exact triv
  | draw i =>
    by_cases hgen : ∃ r s k, f.obj i = some (r, ⟨.generator, [.num s, .num k]⟩)
    · obtain ⟨r, s, k, ho⟩ := hgen
      rw [draw_some ho]
      obtain ⟨h1, h2⟩ := Frame.obj_some ho
      have hr : G r := hv _ (List.mem_of_getElem? h1) r rfl
      have look : ∀ q t k', G q → (f.heap.set r ⟨.generator, [.num s, .num (k + 1)]⟩)[q]? = some ⟨.generator, [.num t, k']⟩ →
          (q = r ∧ t = s ∧ k' = .num (k + 1)) ∨ (q ≠ r ∧ t ≠ s ∧ f.heap[q]? = some ⟨.generator, [.num t, k']⟩) := by
        intro q t k' hq hl
        by_cases hrq : r = q
        · subst hrq
          rw [List.getElem?_set_self (hG.bound r hr)] at hl
          simp only [Option.some.injEq, OObj.mk.injEq, true_and, List.cons.injEq, OVal.num.injEq, and_true] at hl
          exact Or.inl ⟨rfl, hl.1.symm, hl.2.symm⟩
        · rw [List.getElem?_set_ne hrq] at hl
          refine Or.inr ⟨Ne.symm hrq, ?_, hl⟩
          rintro rfl
          exact hrq (hF.seeds r q t _ _ hr hq h2 hl)
      refine ⟨G, fun _ h => h, ⟨?_, ?_⟩, hv, ⟨?_, ?_, ?_⟩⟩
      · intro q hq; simp only [List.length_set]; exact hG.bound q hq
      · intro q u t hq hu ht
        by_cases hrq : r = q
        · subst hrq
          simp only [List.getElem?_set_self (hG.bound r hr), Option.some.injEq] at hu
          subst hu
          simp at ht
        · simp only [List.getElem?_set_ne hrq] at hu
          exact hG.refs q u t hq hu ht
      · intro q q' t k1 k2 a b c d
        rcases look q t k1 a c with ⟨e1, e2, _⟩ | ⟨e1, e2, e3⟩
        · rcases look q' t k2 b d with ⟨g1, _⟩ | ⟨_, g2, _⟩
          · rw [e1, g1]
          · exact absurd e2 g2
        · rcases look q' t k2 b d with ⟨_, g2, _⟩ | ⟨_, _, g3⟩
          · exact absurd g2 e2
          · exact hF.seeds q q' t k1 k2 a b e3 g3
      · intro q t k1 a b k' hk'
        rw [← List.append_assoc, List.mem_append] at hk'
        rcases look q t _ a b with ⟨_, rfl, e3⟩ | ⟨_, e2, e3⟩
        · simp only [OVal.num.injEq] at e3
          subst e3
          rcases hk' with hk' | hk'
          · have := hF.past r t k hr h2 k' hk'
            linarith
          · simp only [List.mem_singleton, Prod.mk.injEq, true_and] at hk'
            linarith
        · rcases hk' with hk' | hk'
          · exact hF.past q t k1 a e3 k' hk'
          · simp only [List.mem_singleton, Prod.mk.injEq] at hk'
            exact absurd hk'.1 e2
      · rw [← List.append_assoc, List.nodup_append]
        refine ⟨hF.nodup, by simp, ?_⟩
        rintro ⟨t, k'⟩ ha y hy rfl
        simp only [List.mem_singleton, Prod.mk.injEq] at hy
        obtain ⟨rfl, rfl⟩ := hy
        exact lt_irrefl _ (hF.past r t k' hr h2 k' ha)
    · rw [draw_none (fun r s k h => hgen ⟨r, s, k, h⟩)]
      exact triv
  | same i j =>
    simp only [Prim.step]
    cases f.obj i with
    | none => exact triv
    | some x =>
      cases f.obj j with
      | none => exact triv
      | some y => exact triv

theorem Code.run_fresh (c : Code) (hc : Spec.KeepsGenerators c) (n : ℕ) (seen : List Obs) {f : Frame} {G : ℕ → Prop}
    {N : List (ℝ × ℝ)} (hG : ClosedSet f.heap G) (hv : VarsIn G f.vars) (hF : Fresh f.heap G (N ++ f.log)) :
    ∃ G', (∀ r, G r → G' r) ∧ ClosedSet (c.run n seen f).heap G' ∧ Fresh (c.run n seen f).heap G' (N ++ (c.run n seen f).log) := by
  induction n generalizing seen f G with
  | zero => exact ⟨G, fun _ h => h, hG, hF⟩
  | succ n ih =>
    simp only [Code.run]
    cases hs : c seen with
    | none => exact ⟨G, fun _ h => h, hG, hF⟩
    | some p =>
      obtain ⟨G1, m1, c1, v1, f1⟩ := Prim.step_fresh hG hv hF p (by rintro s rfl; exact hc seen s hs)
      obtain ⟨G2, m2, c2, f2⟩ := ih (seen ++ [(p.step f).2]) c1 v1 f1
      exact ⟨G2, fun r h => m2 r (m1 r h), c2, f2⟩

/-! ### What can be reached -/

theorem LeadsTo.closed {h : OHeap} {G : ℕ → Prop} (hG : ClosedSet h G) {v : OVal} (hv : ∀ r, v = .ref r → G r) {r : ℕ}
    (hl : Spec.LeadsTo h v r) : G r := by
  induction hl with
  | here r => exact hv r rfl
  | step _ ho hq ih => exact hG.refs _ _ _ (ih hv) ho hq

theorem LeadsTo.part {h : OHeap} {P : ℕ → Prop} (hp : Part h P) {v : OVal} (hv : v.on h P True) {r : ℕ}
    (hl : Spec.LeadsTo h v r) : P r := by
  induction hl with
  | here r => exact (hv r rfl).2.2 trivial
  | step _ ho hq ih => exact (hp.closed _ _ _ ho hq).2.1 (ih hv)

/-- Objects of a part that is left alone lead to the same objects. -/
theorem LeadsTo.kept {h h' : OHeap} {P : ℕ → Prop} (hp : Part h P) (hk : ∀ r, P r → h'[r]? = h[r]?) {v : OVal} (hv : v.on h P True)
    {r : ℕ} (hl : Spec.LeadsTo h' v r) : Spec.LeadsTo h v r := by
  induction hl with
  | here r => exact .here r
  | step _ ho hq ih =>
    have h1 := ih hv
    rw [hk _ (LeadsTo.part hp hv h1)] at ho
    exact .step h1 ho hq

end SimCATS
