import Verif.Lemmas.SimChecks

/-! Helper lemmas for measurements: the same code does the same with corresponding objects. -/

namespace SimCATS

theorem Spec.ValMatch.mono {B B' : ℕ → ℕ → Prop} (hB : ∀ r s, B r s → B' r s) {v v' : OVal} (h : Spec.ValMatch B v v') :
    Spec.ValMatch B' v v' := by
  cases h with
  | none => exact .none
  | num x => exact .num x
  | ref h => exact .ref (hB _ _ h)

theorem Spec.Corr.lt {h h' : OHeap} {B : ℕ → ℕ → Prop} (hc : Spec.Corr h h' B) {r s : ℕ} (hB : B r s) :
    r < h.length ∧ s < h'.length := by
  obtain ⟨o, o', a, b, _⟩ := hc.obj r s hB
  exact ⟨(List.getElem?_eq_some_iff.1 a).1, (List.getElem?_eq_some_iff.1 b).1⟩

/-- A pair of new objects is added to the correspondence. -/
def addPair (B : ℕ → ℕ → Prop) (n m : ℕ) : ℕ → ℕ → Prop := fun r s => B r s ∨ (r = n ∧ s = m)

theorem Spec.Corr.push {h h' : OHeap} {B : ℕ → ℕ → Prop} (hc : Spec.Corr h h' B) {o o' : OObj} (hcls : o.cls = o'.cls)
    (hf : List.Forall₂ (Spec.ValMatch B) o.fields o'.fields) :
    Spec.Corr (h ++ [o]) (h' ++ [o']) (addPair B h.length h'.length) := by
  have mono : ∀ r s, B r s → addPair B h.length h'.length r s := fun _ _ h => Or.inl h
  refine ⟨?_, ?_, ?_⟩
  · rintro r s t (h1 | ⟨h1, h2⟩) (h3 | ⟨h3, h4⟩)
    · exact hc.left r s t h1 h3
    · have := (hc.lt h1).1; omega
    · have := (hc.lt h3).1; omega
    · omega
  · rintro r s t (h1 | ⟨h1, h2⟩) (h3 | ⟨h3, h4⟩)
    · exact hc.right r s t h1 h3
    · have := (hc.lt h1).2; omega
    · have := (hc.lt h3).2; omega
    · omega
  · rintro r s (hB | ⟨rfl, rfl⟩)
    · obtain ⟨x, x', a, b, c, d⟩ := hc.obj r s hB
      refine ⟨x, x', ?_, ?_, c, d.imp fun _ _ => ValMatch.mono mono⟩
      · rw [List.getElem?_append_left (hc.lt hB).1]; exact a
      · rw [List.getElem?_append_left (hc.lt hB).2]; exact b
    · exact ⟨o, o', by simp, by simp, hcls, hf.imp fun _ _ => ValMatch.mono mono⟩

theorem Spec.Corr.set {h h' : OHeap} {B : ℕ → ℕ → Prop} (hc : Spec.Corr h h' B) {r r' : ℕ} (hB : B r r') {o o' : OObj}
    (hcls : o.cls = o'.cls) (hf : List.Forall₂ (Spec.ValMatch B) o.fields o'.fields) :
    Spec.Corr (h.set r o) (h'.set r' o') B := by
  refine ⟨hc.left, hc.right, ?_⟩
  intro s s' hs
  by_cases hrs : r = s
  · subst hrs
    have := hc.left _ _ _ hB hs
    subst this
    exact ⟨o, o', List.getElem?_set_self (hc.lt hB).1, List.getElem?_set_self (hc.lt hB).2, hcls, hf⟩
  · have hrs' : r' ≠ s' := by
      rintro rfl
      exact hrs (hc.right _ _ _ hB hs)
    obtain ⟨x, x', a, b, c⟩ := hc.obj s s' hs
    exact ⟨x, x', by rw [List.getElem?_set_ne hrs]; exact a, by rw [List.getElem?_set_ne hrs']; exact b, c⟩

theorem forall₂_getElem? {α β : Type} {R : α → β → Prop} {l : List α} {l' : List β} (h : List.Forall₂ R l l') (i : ℕ) :
    (l[i]? = none ∧ l'[i]? = none) ∨ ∃ x y, l[i]? = some x ∧ l'[i]? = some y ∧ R x y := by
  induction h generalizing i with
  | nil => left; simp
  | cons hxy _ ih =>
    cases i with
    | zero => right; exact ⟨_, _, rfl, rfl, hxy⟩
    | succ i => simpa using ih i

theorem forall₂_concat {α β : Type} {R : α → β → Prop} {l : List α} {l' : List β} (h : List.Forall₂ R l l') {x : α} {y : β}
    (hxy : R x y) : List.Forall₂ R (l ++ [x]) (l' ++ [y]) := by
  induction h with
  | nil => exact .cons hxy .nil
  | cons h1 _ ih => exact .cons h1 ih

theorem forall₂_set' {α β : Type} {R : α → β → Prop} {l : List α} {l' : List β} (h : List.Forall₂ R l l') {x : α} {y : β}
    (hxy : R x y) (k : ℕ) : List.Forall₂ R (l.set k x) (l'.set k y) := by
  induction h generalizing k with
  | nil => exact .nil
  | cons h1 h2 ih =>
    cases k with
    | zero => exact .cons hxy h2
    | succ k => exact .cons h1 (ih k)

theorem eval_match {B : ℕ → ℕ → Prop} {vars vars' : List OVal} (hv : List.Forall₂ (Spec.ValMatch B) vars vars') (e : OExpr) :
    (e.eval vars = none ∧ e.eval vars' = none) ∨ ∃ v v', e.eval vars = some v ∧ e.eval vars' = some v' ∧ Spec.ValMatch B v v' := by
  cases e with
  | none => right; exact ⟨_, _, rfl, rfl, .none⟩
  | num x => right; exact ⟨_, _, rfl, rfl, .num x⟩
  | var i => exact forall₂_getElem? hv i

theorem evals_match {B : ℕ → ℕ → Prop} {vars vars' : List OVal} (hv : List.Forall₂ (Spec.ValMatch B) vars vars') (es : List OExpr) :
    (OExpr.evals vars es = none ∧ OExpr.evals vars' es = none) ∨
      ∃ vs vs', OExpr.evals vars es = some vs ∧ OExpr.evals vars' es = some vs' ∧ List.Forall₂ (Spec.ValMatch B) vs vs' := by
  induction es with
  | nil => right; exact ⟨_, _, rfl, rfl, .nil⟩
  | cons e es ih =>
    simp only [OExpr.evals]
    rcases eval_match hv e with ⟨h1, h2⟩ | ⟨v, v', h1, h2, h3⟩
    · left; rw [h1, h2]; exact ⟨rfl, rfl⟩
    · rcases ih with ⟨h4, h5⟩ | ⟨vs, vs', h4, h5, h6⟩
      · left; rw [h1, h2, h4, h5]; exact ⟨rfl, rfl⟩
      · right; rw [h1, h2, h4, h5]; exact ⟨_, _, rfl, rfl, .cons h3 h6⟩

theorem obj_match {f f' : Frame} {B : ℕ → ℕ → Prop} (hc : Spec.Corr f.heap f'.heap B)
    (hv : List.Forall₂ (Spec.ValMatch B) f.vars f'.vars) (i : ℕ) :
    (f.obj i = none ∧ f'.obj i = none) ∨ ∃ r r' o o', f.obj i = some (r, o) ∧ f'.obj i = some (r', o') ∧ B r r' ∧ o.cls = o'.cls ∧
      List.Forall₂ (Spec.ValMatch B) o.fields o'.fields := by
  unfold Frame.obj
  rcases forall₂_getElem? hv i with ⟨h1, h2⟩ | ⟨v, v', h1, h2, h3⟩
  · left; rw [h1, h2]; exact ⟨rfl, rfl⟩
  · cases h3 with
    | none => left; rw [h1, h2]; exact ⟨rfl, rfl⟩
    | num x => left; rw [h1, h2]; exact ⟨rfl, rfl⟩
    | ref hB =>
      right
      obtain ⟨o, o', a, b, c, d⟩ := hc.obj _ _ hB
      rw [h1, h2]
      simp only [a, b, Option.map_some]
      exact ⟨_, _, o, o', rfl, rfl, hB, c, d⟩

theorem obs_match {h h' : OHeap} {B : ℕ → ℕ → Prop} (hc : Spec.Corr h h' B) {v v' : OVal} (hv : Spec.ValMatch B v v') :
    v.obs h = v'.obs h' := by
  cases hv with
  | none => rfl
  | num x => rfl
  | ref hB =>
    obtain ⟨o, o', a, b, c, d⟩ := hc.obj _ _ hB
    simp only [OVal.obs, a, b, c, d.length_eq]

theorem draw_some {f : Frame} {i r : ℕ} {s k : ℝ} (h : f.obj i = some (r, ⟨.generator, [.num s, .num k]⟩)) :
    (Prim.draw i).step f =
      (⟨f.heap.set r ⟨.generator, [.num s, .num (k + 1)]⟩, f.vars, f.log ++ [(s, k)]⟩, .drawn s k) := by
  simp only [Prim.step, h]

theorem draw_none {f : Frame} {i : ℕ} (h : ∀ r s k, f.obj i ≠ some (r, ⟨.generator, [.num s, .num k]⟩)) :
    (Prim.draw i).step f = (f, .failed) := by
  simp only [Prim.step]

theorem match_gen {B : ℕ → ℕ → Prop} {o o' : OObj} (hc : o.cls = o'.cls) (hf : List.Forall₂ (Spec.ValMatch B) o.fields o'.fields)
    (s k : ℝ) : o = ⟨.generator, [.num s, .num k]⟩ ↔ o' = ⟨.generator, [.num s, .num k]⟩ := by
  obtain ⟨c, fs⟩ := o
  obtain ⟨c', fs'⟩ := o'
  simp only at hc hf
  subst hc
  simp only [OObj.mk.injEq, and_congr_right_iff]
  rintro -
  constructor
  · rintro rfl
    obtain ⟨_, _, h1, h2, rfl⟩ := List.forall₂_cons_left_iff.1 hf
    obtain ⟨_, _, h3, h4, rfl⟩ := List.forall₂_cons_left_iff.1 h2
    cases h1; cases h3; cases h4; rfl
  · rintro rfl
    obtain ⟨_, _, h1, h2, rfl⟩ := List.forall₂_cons_right_iff.1 hf
    obtain ⟨_, _, h3, h4, rfl⟩ := List.forall₂_cons_right_iff.1 h2
    cases h1; cases h3; cases h4; rfl

theorem Prim.step_corr {f f' : Frame} {B : ℕ → ℕ → Prop} (hc : Spec.Corr f.heap f'.heap B)
    (hv : List.Forall₂ (Spec.ValMatch B) f.vars f'.vars) (p : Prim) :
    ∃ B', (∀ r s, B r s → B' r s) ∧ Spec.Corr (p.step f).1.heap (p.step f').1.heap B' ∧
      List.Forall₂ (Spec.ValMatch B') (p.step f).1.vars (p.step f').1.vars ∧ (p.step f).2 = (p.step f').2 ∧
      ∃ L, (p.step f).1.log = f.log ++ L ∧ (p.step f').1.log = f'.log ++ L := by
  have triv : ∃ B', (∀ r s, B r s → B' r s) ∧ Spec.Corr f.heap f'.heap B' ∧ List.Forall₂ (Spec.ValMatch B') f.vars f'.vars ∧
      True ∧ ∃ L, f.log = f.log ++ L ∧ f'.log = f'.log ++ L :=
    ⟨B, fun _ _ h => h, hc, hv, trivial, [], by simp, by simp⟩
  have push : ∀ o o' : OObj, o.cls = o'.cls → List.Forall₂ (Spec.ValMatch B) o.fields o'.fields →
      ∃ B', (∀ r s, B r s → B' r s) ∧ Spec.Corr (f.heap ++ [o]) (f'.heap ++ [o']) B' ∧
        List.Forall₂ (Spec.ValMatch B') (f.vars ++ [.ref f.heap.length]) (f'.vars ++ [.ref f'.heap.length]) ∧
        True ∧ ∃ L, f.log = f.log ++ L ∧ f'.log = f'.log ++ L := by
    intro o o' h1 h2
    refine ⟨_, fun _ _ h => Or.inl h, hc.push h1 h2, ?_, trivial, [], by simp, by simp⟩
    exact forall₂_concat (hv.imp fun _ _ => Spec.ValMatch.mono fun _ _ h => Or.inl h) (.ref (Or.inr ⟨rfl, rfl⟩))
  cases p with
  | new c es =>
    simp only [Prim.step]
    rcases evals_match hv es with ⟨h1, h2⟩ | ⟨vs, vs', h1, h2, h3⟩
    · simp only [h1, h2]; exact triv
    · simp only [h1, h2]
      by_cases hg : c = .generator
      · simp only [if_pos hg]; exact triv
      · simp only [if_neg hg]; exact push ⟨c, vs⟩ ⟨c, vs'⟩ rfl h3
  | newGen s =>
    simp only [Prim.step]
    exact push ⟨.generator, [.num s, .num 0]⟩ ⟨.generator, [.num s, .num 0]⟩ rfl (.cons (.num _) (.cons (.num _) .nil))
  | load i k =>
    simp only [Prim.step]
    rcases obj_match hc hv i with ⟨h1, h2⟩ | ⟨r, r', o, o', h1, h2, hB, hcl, hf⟩
    · simp only [h1, h2]; exact triv
    · simp only [h1, h2]
      by_cases hg : o.cls = .generator
      · simp only [if_pos hg, if_pos (hcl ▸ hg)]; exact triv
      · simp only [if_neg hg, if_neg (hcl ▸ hg)]
        rcases forall₂_getElem? hf k with ⟨h3, h4⟩ | ⟨v, v', h3, h4, h5⟩
        · simp only [h3, h4]; exact triv
        · simp only [h3, h4]
          exact ⟨B, fun _ _ h => h, hc, forall₂_concat hv h5, obs_match hc h5, [], by simp, by simp⟩
  | store i k e =>
    simp only [Prim.step]
    rcases obj_match hc hv i with ⟨h1, h2⟩ | ⟨r, r', o, o', h1, h2, hB, hcl, hf⟩
    · simp only [h1, h2]; exact triv
    · rcases eval_match hv e with ⟨h3, h4⟩ | ⟨v, v', h3, h4, h5⟩
      · simp only [h1, h2, h3, h4]; exact triv
      · simp only [h1, h2, h3, h4]
        by_cases hg : o.cls = .generator
        · simp only [if_pos hg, if_pos (hcl ▸ hg)]; exact triv
        · simp only [if_neg hg, if_neg (hcl ▸ hg)]
          by_cases hk : k < o.fields.length
          · simp only [if_pos hk, if_pos (hf.length_eq ▸ hk)]
            exact ⟨B, fun _ _ h => h, hc.set hB hcl (forall₂_set' hf h5 k), hv, trivial, [], by simp, by simp⟩
          · simp only [if_neg hk, if_neg (hf.length_eq ▸ hk)]; exact triv
  | draw i =>
    rcases obj_match hc hv i with ⟨h1, h2⟩ | ⟨r, r', o, o', h1, h2, hB, hcl, hf⟩
    · rw [draw_none (by intro r s k; rw [h1]; exact nofun), draw_none (by intro r s k; rw [h2]; exact nofun)]
      simpa using triv
    · by_cases hgen : ∃ s k, o = ⟨.generator, [.num s, .num k]⟩
      · obtain ⟨s, k, ho⟩ := hgen
        have ho' := (match_gen hcl hf s k).1 ho
        subst ho ho'
        rw [draw_some h1, draw_some h2]
        exact ⟨B, fun _ _ h => h, hc.set hB rfl (.cons (.num _) (.cons (.num _) .nil)), hv, rfl, [(s, k)], rfl, rfl⟩
      · rw [draw_none, draw_none]
        · simpa using triv
        · intro q s k hq
          rw [h2] at hq
          simp only [Option.some.injEq, Prod.mk.injEq] at hq
          exact hgen ⟨s, k, (match_gen hcl hf s k).2 hq.2⟩
        · intro q s k hq
          rw [h1] at hq
          simp only [Option.some.injEq, Prod.mk.injEq] at hq
          exact hgen ⟨s, k, hq.2⟩
  | same i j =>
    simp only [Prim.step]
    rcases obj_match hc hv i with ⟨h1, h2⟩ | ⟨r, r', o, o', h1, h2, hB, _⟩
    · simp only [h1, h2]; exact triv
    · rcases obj_match hc hv j with ⟨h3, h4⟩ | ⟨q, q', u, u', h3, h4, hB', _⟩
      · simp only [h1, h2, h3, h4]; exact triv
      · simp only [h1, h2, h3, h4]
        refine ⟨B, fun _ _ h => h, hc, hv, ?_, [], by simp, by simp⟩
        have : r = q ↔ r' = q' := by
          constructor
          · rintro rfl; exact hc.left _ _ _ hB hB'
          · rintro rfl; exact hc.right _ _ _ hB hB'
        simp only [this]

/-- Deterministic code does the same with corresponding objects; in particular it draws the same random numbers. -/
theorem Code.run_corr (c : Code) (n : ℕ) (seen : List Obs) {f f' : Frame} {B : ℕ → ℕ → Prop} (hc : Spec.Corr f.heap f'.heap B)
    (hv : List.Forall₂ (Spec.ValMatch B) f.vars f'.vars) :
    ∃ B', (∀ r s, B r s → B' r s) ∧ Spec.Corr (c.run n seen f).heap (c.run n seen f').heap B' ∧
      ∃ L, (c.run n seen f).log = f.log ++ L ∧ (c.run n seen f').log = f'.log ++ L := by
  induction n generalizing seen f f' B with
  | zero => exact ⟨B, fun _ _ h => h, hc, [], by simp [Code.run], by simp [Code.run]⟩
  | succ n ih =>
    simp only [Code.run]
    cases hs : c seen with
    | none => exact ⟨B, fun _ _ h => h, hc, [], by simp, by simp⟩
    | some p =>
      obtain ⟨B1, m1, c1, v1, o1, L1, l1, l1'⟩ := Prim.step_corr hc hv p
      obtain ⟨B2, m2, c2, L2, l2, l2'⟩ := ih (seen ++ [(p.step f).2]) c1 v1
      dsimp only
      rw [← o1]
      refine ⟨B2, fun r s h => m2 r s (m1 r s h), c2, L1 ++ L2, ?_, ?_⟩
      · rw [l2, l1, List.append_assoc]
      · rw [l2', l1', List.append_assoc]

end SimCATS
