import Verif.Lemmas.SimWorlds

/-! Helper lemmas for the checks of the setters and the constructor of simulations. -/

namespace SimCATS

theorem cls_eq_some {h : OHeap} {v : OVal} {c : OCls} : v.cls h = some c ↔ ∃ q d, v = .ref q ∧ h[q]? = some d ∧ d.cls = c := by
  cases v with
  | none => simp [OVal.cls]
  | num x => simp [OVal.cls]
  | ref r =>
    simp only [OVal.cls, Option.map_eq_some_iff, OVal.ref.injEq]
    constructor
    · rintro ⟨d, h1, h2⟩; exact ⟨r, d, rfl, h1, h2⟩
    · rintro ⟨q, d, rfl, h1, h2⟩; exact ⟨d, h1, h2⟩

theorem checkLimits_iff {h : OHeap} {v : OVal} :
    checkLimits h v = .ok () ↔ v = .none ∨ ∃ r x y, v = .ref r ∧ h[r]? = some ⟨.array, [x, y]⟩ := by
  cases v with
  | none => simp [checkLimits]
  | num x => simp [checkLimits]
  | ref r =>
    simp only [checkLimits, reduceCtorEq, false_or, OVal.ref.injEq]
    constructor
    · intro hc
      split at hc
      · next fs hr =>
        by_cases hl : fs.length = 2
        · obtain ⟨x, y, rfl⟩ := List.length_eq_two.1 hl
          exact ⟨r, x, y, rfl, hr⟩
        · rw [if_neg hl] at hc; exact nomatch hc
      · exact nomatch hc
      · exact nomatch hc
    · rintro ⟨q, x, y, rfl, hr⟩
      rw [hr]
      rfl

theorem checkClass_iff {h : OHeap} {v : OVal} {cs : List OCls} :
    checkClass h cs v = .ok () ↔ v = .none ∨ Spec.HasClass h cs v := by
  unfold checkClass Spec.HasClass
  cases v with
  | none => simp
  | num x => simp [OVal.cls]
  | ref r =>
    simp only [OVal.cls, reduceCtorEq, false_or, OVal.ref.injEq]
    cases hr : h[r]? with
    | none =>
      simp only [Option.map_none, reduceCtorEq, false_iff]
      rintro ⟨q, o, rfl, h1, _⟩
      rw [hr] at h1
      exact nomatch h1
    | some o =>
      simp only [Option.map_some]
      by_cases hm : o.cls ∈ cs
      · simp only [if_pos hm, true_iff]
        exact ⟨r, o, rfl, hr, hm⟩
      · simp only [if_neg hm, reduceCtorEq, false_iff]
        rintro ⟨q, o', rfl, h1, h2⟩
        rw [hr] at h1
        cases h1
        exact hm h2

theorem checkDistortions_iff {h : OHeap} {v : OVal} {c : OCls} :
    checkDistortions h c v = .ok () ↔ v = .none ∨ Spec.IsDistortions h c v := by
  unfold checkDistortions Spec.IsDistortions
  have key : ∀ fs : List OVal, (∀ v ∈ fs, v.cls h = some c) ↔ ∀ x ∈ fs, ∃ q d, x = .ref q ∧ h[q]? = some d ∧ d.cls = c :=
    fun fs => forall₂_congr fun _ _ => cls_eq_some
  cases v with
  | none => simp
  | num x => simp
  | ref r =>
    simp only [reduceCtorEq, false_or, OVal.ref.injEq]
    constructor
    · intro hc
      split at hc
      · next fs hr =>
        by_cases hm : ∀ v ∈ fs, v.cls h = some c
        · exact ⟨r, _, rfl, hr, Or.inl rfl, (key fs).1 hm⟩
        · rw [if_neg hm] at hc; exact nomatch hc
      · next fs hr =>
        by_cases hm : ∀ v ∈ fs, v.cls h = some c
        · exact ⟨r, _, rfl, hr, Or.inr rfl, (key fs).1 hm⟩
        · rw [if_neg hm] at hc; exact nomatch hc
      · exact nomatch hc
      · exact nomatch hc
    · rintro ⟨q, ⟨cl, fs⟩, rfl, hr, hcl, hx⟩
      have hm := (key fs).2 hx
      rcases hcl with hcl | hcl <;> simp only at hcl <;> subst hcl <;> rw [hr] <;> simp only [if_pos hm]

theorem check_iff {h : OHeap} {a : SimAttr} {v : OVal} : a.check h v = .ok () ↔ Spec.Accepted h a v := by
  unfold SimAttr.check Spec.Accepted
  cases a
  · exact checkLimits_iff
  · exact checkLimits_iff
  · exact checkLimits_iff
  · exact checkLimits_iff
  · exact checkClass_iff
  · exact checkClass_iff
  · exact checkDistortions_iff
  · exact checkDistortions_iff
  · exact checkDistortions_iff

/-- What the setters accept does not depend on objects that are created later. -/
theorem accepted_extend {h H : OHeap} {P : ℕ → Prop} (hp : Part h P) (hpre : h <+: H) {a : SimAttr} {v : OVal}
    (hv : ∀ r, v = .ref r → r < h.length) : Spec.Accepted H a v ↔ Spec.Accepted h a v := by
  obtain ⟨e, rfl⟩ := hpre
  have lk : ∀ r, r < h.length → (h ++ e)[r]? = h[r]? := fun r hr => List.getElem?_append_left hr
  have dist : ∀ c, Spec.IsDistortions (h ++ e) c v ↔ Spec.IsDistortions h c v := by
    intro c
    constructor
    · rintro ⟨r, o, rfl, hr, hc, hx⟩
      rw [lk r (hv r rfl)] at hr
      refine ⟨r, o, rfl, hr, hc, fun x hxm => ?_⟩
      obtain ⟨q, d, rfl, hq, hd⟩ := hx x hxm
      rw [lk q (hp.closed r o q hr hxm).1] at hq
      exact ⟨q, d, rfl, hq, hd⟩
    · rintro ⟨r, o, rfl, hr, hc, hx⟩
      refine ⟨r, o, rfl, by rw [lk r (hv r rfl)]; exact hr, hc, fun x hxm => ?_⟩
      obtain ⟨q, d, rfl, hq, hd⟩ := hx x hxm
      exact ⟨q, d, rfl, by rw [lk q (hp.closed r o q hr hxm).1]; exact hq, hd⟩
  have cl : ∀ cs, Spec.HasClass (h ++ e) cs v ↔ Spec.HasClass h cs v := by
    intro cs
    constructor
    · rintro ⟨r, o, rfl, hr, hc⟩
      rw [lk r (hv r rfl)] at hr
      exact ⟨r, o, rfl, hr, hc⟩
    · rintro ⟨r, o, rfl, hr, hc⟩
      exact ⟨r, o, rfl, by rw [lk r (hv r rfl)]; exact hr, hc⟩
  have lim : (∃ r x y, v = .ref r ∧ (h ++ e)[r]? = some ⟨.array, [x, y]⟩) ↔ ∃ r x y, v = .ref r ∧ h[r]? = some ⟨.array, [x, y]⟩ := by
    constructor
    · rintro ⟨r, x, y, rfl, hr⟩
      rw [lk r (hv r rfl)] at hr
      exact ⟨r, x, y, rfl, hr⟩
    · rintro ⟨r, x, y, rfl, hr⟩
      exact ⟨r, x, y, rfl, by rw [lk r (hv r rfl)]; exact hr⟩
  unfold Spec.Accepted
  cases a <;> simp only [dist, cl, lim]

/-- The constructor succeeds exactly if all arguments are accepted. -/
theorem construct_iff {h : OHeap} {P : ℕ → Prop} (hp : Part h P) {vals : SimAttr → OVal}
    (hv : ∀ a r, vals a = .ref r → r < h.length) (l : List SimAttr) :
    (∃ x, construct h vals l = .ok x) ↔ ∀ a ∈ l, Spec.Accepted h a (vals a) := by
  induction l generalizing h P with
  | nil => simp [construct]
  | cons a l ih =>
    obtain ⟨P1, p1, g1, _⟩ := hp.store a (vals a) (hv a) True
    have ih' := ih p1 (fun b r hb => lt_of_lt_of_le (hv b r hb) (g1 True).1)
    have conv : (∀ b ∈ l, Spec.Accepted (a.store h (vals a)).1 b (vals b)) ↔ ∀ b ∈ l, Spec.Accepted h b (vals b) :=
      forall₂_congr fun b _ => accepted_extend hp (store_prefix h a (vals a)) (hv b)
    rw [List.forall_mem_cons, ← conv, ← ih', ← check_iff]
    simp only [construct]
    cases hck : a.check h (vals a) with
    | error e => simp
    | ok u =>
      cases hr : construct (a.store h (vals a)).1 vals l with
      | error e => simp [hr]
      | ok x => simp [hr]

/-- Each attribute of a new simulation has the content of its argument. -/
theorem construct_same {h : OHeap} {P : ℕ → Prop} (hp : Part h P) {vals : SimAttr → OVal}
    (hv : ∀ a r, vals a = .ref r → r < h.length) {l : List SimAttr} {h' : OHeap} {o : SimObj}
    (hc : construct h vals l = .ok (h', o)) {a : SimAttr} (ha : a ∈ l) (hne : ¬ (a = .sensor ∧ vals a = .none)) :
    Spec.Same h (vals a) h' (o a) := by
  induction l generalizing h P h' o with
  | nil => exact absurd ha List.not_mem_nil
  | cons b l ih =>
    simp only [construct] at hc
    cases hck : b.check h (vals b) with
    | error e => rw [hck] at hc; exact nomatch hc
    | ok u =>
      rw [hck] at hc
      cases hr : construct (b.store h (vals b)).1 vals l with
      | error e => simp only [hr] at hc; exact nomatch hc
      | ok x =>
        obtain ⟨h2, o2⟩ := x
        simp only [hr, Except.ok.injEq, Prod.mk.injEq] at hc
        obtain ⟨rfl, rfl⟩ := hc
        by_cases hab : a = b
        · subst hab
          simp only [if_true]
          exact (store_same hp (hv a) hne).extend (List.prefix_refl _) (construct_prefix hr)
        · simp only [if_neg hab]
          obtain ⟨P1, p1, g1, _⟩ := hp.store b (vals b) (hv b) True
          have := ih p1 (fun b r hb => lt_of_lt_of_le (hv b r hb) (g1 True).1) hr ((List.mem_cons.1 ha).resolve_left hab)
          exact this.restrict hp (store_prefix h b (vals b)) (hv a)

theorem construct_default {h : OHeap} {vals : SimAttr → OVal} {l : List SimAttr} {h' : OHeap} {o : SimObj}
    (hc : construct h vals l = .ok (h', o)) (ha : .sensor ∈ l) (hn : vals .sensor = .none) :
    Spec.IsDefaultSensor h' (o .sensor) := by
  induction l generalizing h h' o with
  | nil => exact absurd ha List.not_mem_nil
  | cons b l ih =>
    simp only [construct] at hc
    cases hck : b.check h (vals b) with
    | error e => rw [hck] at hc; exact nomatch hc
    | ok u =>
      rw [hck] at hc
      cases hr : construct (b.store h (vals b)).1 vals l with
      | error e => simp only [hr] at hc; exact nomatch hc
      | ok x =>
        obtain ⟨h2, o2⟩ := x
        simp only [hr, Except.ok.injEq, Prod.mk.injEq] at hc
        obtain ⟨rfl, rfl⟩ := hc
        by_cases hab : SimAttr.sensor = b
        · subst hab
          simp only [if_true]
          rw [hn] at hr ⊢
          obtain ⟨e, rfl⟩ := construct_prefix hr
          obtain ⟨r, d, g, h1, h2, h3, h4⟩ := store_default (h := h)
          refine ⟨r, d, g, h1, ?_, ?_, ?_⟩
          · rw [List.getElem?_append_left (List.getElem?_eq_some_iff.1 h2).1]; exact h2
          · rw [List.getElem?_append_left (List.getElem?_eq_some_iff.1 h3).1]; exact h3
          · rw [List.getElem?_append_left (List.getElem?_eq_some_iff.1 h4).1]; exact h4
        · simp only [if_neg hab]
          exact ih hr ((List.mem_cons.1 ha).resolve_left hab)

theorem mem_all (a : SimAttr) : a ∈ SimAttr.all := by cases a <;> simp [SimAttr.all]

/-- The constructor of a simulation as a statement. -/
theorem newSim_run {w : SimWorld} {P : ℕ → Prop} (g : Guarded w P (fun _ => False) (fun _ _ => False))
    {args : SimAttr → Option OExpr} {vals : SimAttr → OVal} (hv : ∀ a, w.ctorVals args a = some (vals a)) :
    (SStmt.newSim args).run w =
      match construct w.heap vals SimAttr.all with
      | .error e => (.error e, w)
      | .ok (h, o) => (.ok (), ⟨h, w.vars, w.sims ++ [o], w.log⟩) := by
  have hall : ∀ a, (w.ctorVals args a).isSome := fun a => by rw [hv a]; rfl
  have hf : (fun a => (w.ctorVals args a).getD .none) = vals := by
    funext a
    rw [hv a]; rfl
  simp only [SStmt.run]
  rw [if_pos hall, hf]
  rfl

theorem newSim_accepts {w : SimWorld} {P : ℕ → Prop} (g : Guarded w P (fun _ => False) (fun _ _ => False))
    {args : SimAttr → Option OExpr} {vals : SimAttr → OVal} (hv : ∀ a, w.ctorVals args a = some (vals a)) :
    ((SStmt.newSim args).run w).1 = .ok () ↔ ∀ a, Spec.Accepted w.heap a (vals a) := by
  have := construct_iff g.part (vals := vals) (fun a r hr => ctorVals_bound g args (hv a) r hr) SimAttr.all
  have h2 : (∀ a ∈ SimAttr.all, Spec.Accepted w.heap a (vals a)) ↔ ∀ a, Spec.Accepted w.heap a (vals a) :=
    ⟨fun h a => h a (mem_all a), fun h a _ => h a⟩
  rw [← h2, ← this, newSim_run g hv]
  cases construct w.heap vals SimAttr.all with
  | error e => simp
  | ok x => simp

end SimCATS
