import Verif.Spec.SensorFunctions
import Verif.Lemmas.SimRandom

/-! Helper lemmas for the functions that sensors hold. -/

namespace SimCATS

/-! ### Classes -/

theorem cls_iff {h : OHeap} {c : OCls} {v : OVal} : v.cls h = some c ↔ Spec.HasClass h [c] v := by
  cases v with
  | none => simp [OVal.cls, Spec.HasClass]
  | num x => simp [OVal.cls, Spec.HasClass]
  | ref r =>
    simp only [OVal.cls, Spec.HasClass, List.mem_singleton, OVal.ref.injEq, Option.map_eq_some_iff]
    constructor
    · rintro ⟨o, ho, hc⟩; exact ⟨r, o, rfl, ho, hc⟩
    · rintro ⟨r', o, rfl, ho, hc⟩; exact ⟨o, ho, hc⟩

theorem allOf_iff {h : OHeap} {c : OCls} {fs : List OVal} : allOf h c fs = true ↔ ∀ x ∈ fs, Spec.HasClass h [c] x := by
  simp [allOf, List.all_eq_true, cls_iff]

theorem get_prefix {h H : OHeap} (hpre : h <+: H) {r : ℕ} (hr : r < h.length) : H[r]? = h[r]? := by
  obtain ⟨t, rfl⟩ := hpre
  exact List.getElem?_append_left hr

theorem get_prefix_some {h H : OHeap} (hpre : h <+: H) {r : ℕ} {o : OObj} (hr : h[r]? = some o) : H[r]? = some o := by
  rw [get_prefix hpre (List.getElem?_eq_some_iff.1 hr).1, hr]

theorem hasClass_prefix {h H : OHeap} (hpre : h <+: H) {cs : List OCls} {v : OVal} (hv : ∀ r, v = .ref r → r < h.length) :
    Spec.HasClass H cs v ↔ Spec.HasClass h cs v := by
  constructor
  · rintro ⟨r, o, rfl, ho, hc⟩
    exact ⟨r, o, rfl, by rw [← get_prefix hpre (hv r rfl)]; exact ho, hc⟩
  · rintro ⟨r, o, rfl, ho, hc⟩
    exact ⟨r, o, rfl, get_prefix_some hpre ho, hc⟩

theorem entries_bound {h : OHeap} {P : ℕ → Prop} (hp : Part h P) {r : ℕ} {o : OObj} (hr : h[r]? = some o) {x : OVal}
    (hx : x ∈ o.fields) : ∀ q, x = .ref q → q < h.length := by
  rintro q rfl
  exact (hp.closed r o q hr hx).1

theorem funAccepted_prefix {h H : OHeap} {P : ℕ → Prop} (hp : Part h P) (hpre : h <+: H) {a : FunAttr} {v : OVal}
    (hv : ∀ r, v = .ref r → r < h.length) : Spec.FunAccepted H a v ↔ Spec.FunAccepted h a v := by
  cases a with
  | peaks =>
    simp only [Spec.FunAccepted, hasClass_prefix hpre hv]
    refine or_congr Iff.rfl (or_congr Iff.rfl ?_)
    constructor
    · rintro ⟨r, fs, rfl, hr, hf⟩
      rw [get_prefix hpre (hv r rfl)] at hr
      exact ⟨r, fs, rfl, hr, fun x hx => (hasClass_prefix hpre (entries_bound hp hr hx)).1 (hf x hx)⟩
    · rintro ⟨r, fs, rfl, hr, hf⟩
      exact ⟨r, fs, rfl, get_prefix_some hpre hr, fun x hx => (hasClass_prefix hpre (entries_bound hp hr hx)).2 (hf x hx)⟩
  | rise => simp only [Spec.FunAccepted, hasClass_prefix hpre hv]
  | barriers =>
    simp only [Spec.FunAccepted, hasClass_prefix hpre hv]
    refine or_congr Iff.rfl ?_
    constructor
    · rintro ⟨r, x, y, rfl, hr, hx, hy⟩
      rw [get_prefix hpre (hv r rfl)] at hr
      exact ⟨r, x, y, rfl, hr, (hasClass_prefix hpre (entries_bound hp hr (by simp))).1 hx,
        (hasClass_prefix hpre (entries_bound hp hr (by simp))).1 hy⟩
    · rintro ⟨r, x, y, rfl, hr, hx, hy⟩
      exact ⟨r, x, y, rfl, get_prefix_some hpre hr, (hasClass_prefix hpre (entries_bound hp hr (by simp))).2 hx,
        (hasClass_prefix hpre (entries_bound hp hr (by simp))).2 hy⟩

/-! ### Setters -/

/-- What a setter can do. -/
inductive StoreCase (h : OHeap) : FunAttr → OVal → OHeap → OVal → Prop
  | noPeaks : StoreCase h .peaks .none h .none
  | onePeak {r : ℕ} {fs : List OVal} (hr : h[r]? = some ⟨.peak, fs⟩) :
      StoreCase h .peaks (.ref r) ((deepcopy h (.ref r)).1 ++ [⟨.list, [(deepcopy h (.ref r)).2]⟩]) (.ref (deepcopy h (.ref r)).1.length)
  | peakList {r : ℕ} {fs : List OVal} (hr : h[r]? = some ⟨.list, fs⟩) (hf : ∀ x ∈ fs, Spec.HasClass h [.peak] x) :
      StoreCase h .peaks (.ref r) (deepcopy h (.ref r)).1 (deepcopy h (.ref r)).2
  | noRise : StoreCase h .rise .none h .none
  | aRise {r : ℕ} {fs : List OVal} (hr : h[r]? = some ⟨.rise, fs⟩) : StoreCase h .rise (.ref r) h (.ref r)
  | oneBarrier {r : ℕ} {fs : List OVal} (hr : h[r]? = some ⟨.barrier, fs⟩) :
      StoreCase h .barriers (.ref r) ((deepcopies h [.ref r, .ref r]).1 ++ [⟨.list, (deepcopies h [.ref r, .ref r]).2⟩])
        (.ref (deepcopies h [.ref r, .ref r]).1.length)
  | pair {r : ℕ} {x y : OVal} (hr : h[r]? = some ⟨.list, [x, y]⟩) (hx : Spec.HasClass h [.barrier] x)
      (hy : Spec.HasClass h [.barrier] y) : StoreCase h .barriers (.ref r) h (.ref r)

theorem store_case {h h' : OHeap} {a : FunAttr} {v v' : OVal} (hs : a.store h v = .ok (h', v')) : StoreCase h a v h' v' := by
  cases a with
  | peaks =>
    cases v with
    | none => cases hs; exact .noPeaks
    | num x => exact nomatch hs
    | ref r =>
      simp only [FunAttr.store, setPeakFunction] at hs
      split at hs
      · next hr => cases hs; exact .onePeak hr
      · next fs hr =>
        split at hs
        · next hf => cases hs; exact .peakList hr (allOf_iff.1 hf)
        · exact nomatch hs
      · exact nomatch hs
  | rise =>
    cases v with
    | none => cases hs; exact .noRise
    | num x => exact nomatch hs
    | ref r =>
      simp only [FunAttr.store, setFinalRise] at hs
      split at hs
      · next hr => cases hs; exact .aRise hr
      · exact nomatch hs
  | barriers =>
    cases v with
    | none => exact nomatch hs
    | num x => exact nomatch hs
    | ref r =>
      simp only [FunAttr.store, setBarrierFunctions] at hs
      split at hs
      · next hr => cases hs; exact .oneBarrier hr
      · next fs hr =>
        split at hs
        · next hf =>
          cases hs
          obtain ⟨hf, hl⟩ := hf
          obtain ⟨x, y, rfl⟩ := List.length_eq_two.1 hl
          have := allOf_iff.1 hf
          exact .pair hr (this x (by simp)) (this y (by simp))
        · exact nomatch hs
      · exact nomatch hs

theorem store_ok_iff (h : OHeap) (a : FunAttr) (v : OVal) :
    (∃ x, a.store h v = .ok x) ↔ Spec.FunAccepted h a v := by
  constructor
  · rintro ⟨⟨h', v'⟩, hs⟩
    cases store_case hs with
    | noPeaks => exact Or.inl rfl
    | onePeak hr => exact Or.inr (Or.inl ⟨_, _, rfl, hr, by simp⟩)
    | peakList hr hf => exact Or.inr (Or.inr ⟨_, _, rfl, hr, hf⟩)
    | noRise => exact Or.inl rfl
    | aRise hr => exact Or.inr ⟨_, _, rfl, hr, by simp⟩
    | oneBarrier hr => exact Or.inl ⟨_, _, rfl, hr, by simp⟩
    | pair hr hx hy => exact Or.inr ⟨_, _, _, rfl, hr, hx, hy⟩
  · intro ha
    cases a with
    | peaks =>
      rcases ha with rfl | ⟨r, ⟨c, fs⟩, rfl, hr, hc⟩ | ⟨r, fs, rfl, hr, hf⟩
      · exact ⟨_, rfl⟩
      · obtain rfl := List.mem_singleton.1 hc
        simp only [FunAttr.store, setPeakFunction, hr]
        exact ⟨_, rfl⟩
      · simp only [FunAttr.store, setPeakFunction, hr, if_pos (allOf_iff.2 hf)]
        exact ⟨_, rfl⟩
    | rise =>
      rcases ha with rfl | ⟨r, ⟨c, fs⟩, rfl, hr, hc⟩
      · exact ⟨_, rfl⟩
      · obtain rfl := List.mem_singleton.1 hc
        simp only [FunAttr.store, setFinalRise, hr]
        exact ⟨_, rfl⟩
    | barriers =>
      rcases ha with ⟨r, ⟨c, fs⟩, rfl, hr, hc⟩ | ⟨r, x, y, rfl, hr, hx, hy⟩
      · obtain rfl := List.mem_singleton.1 hc
        simp only [FunAttr.store, setBarrierFunctions, hr]
        exact ⟨_, rfl⟩
      · have : allOf h .barrier [x, y] = true ∧ [x, y].length = 2 := ⟨allOf_iff.2 (by
          intro z hz
          simp only [List.mem_cons, List.not_mem_nil, or_false] at hz
          rcases hz with rfl | rfl
          · exact hx
          · exact hy), rfl⟩
        simp only [FunAttr.store, setBarrierFunctions, hr, if_pos this]
        exact ⟨_, rfl⟩

theorem store_err {h : OHeap} {a : FunAttr} {v : OVal} {e : PyErr} (hs : a.store h v = .error e) : e = .valueError := by
  cases a <;> cases v
  all_goals
    simp only [FunAttr.store, setPeakFunction, setFinalRise, setBarrierFunctions] at hs
    repeat' split at hs
    all_goals first | (cases hs; rfl) | cases hs

theorem funStore_prefix {h h' : OHeap} {a : FunAttr} {v v' : OVal} (hs : a.store h v = .ok (h', v')) : h <+: h' := by
  cases store_case hs with
  | onePeak hr => exact (List.prefix_append _ _).trans (List.prefix_append _ _)
  | peakList hr hf => exact List.prefix_append _ _
  | oneBarrier hr => exact (deepcopies_prefix _ _).trans (List.prefix_append _ _)
  | _ => exact List.prefix_refl _

theorem same_refl_of {h H : OHeap} {P : ℕ → Prop} (hp : Part h P) (hpre : h <+: H) {v : OVal} (hv : ∀ r, v = .ref r → r < h.length) :
    Spec.Same h v H v := by
  have hp' : Part h (fun r => r < h.length) :=
    ⟨fun r hr => hr, fun r o q hr hq => by
      have h1 := (hp.closed r o q hr hq).1
      have h2 := (List.getElem?_eq_some_iff.1 hr).1
      exact ⟨h1, iff_of_true h2 h1⟩⟩
  obtain ⟨B, hB, hm⟩ := same_of_part hp' (fun r hr => get_prefix hpre hr) (fun _ : Unit => v)
    (fun _ r hr => ⟨hv r hr, iff_of_true (hv r hr) trivial⟩)
  exact ⟨B, hB, hm ()⟩

theorem funStore_stored {h h' : OHeap} {P : ℕ → Prop} (hp : Part h P) {a : FunAttr} {v v' : OVal}
    (hv : ∀ r, v = .ref r → r < h.length) (hs : a.store h v = .ok (h', v')) : Spec.FunStored h a v h' v' := by
  have nocls : ∀ {r : ℕ} {o : OObj} {c : OCls}, h[r]? = some o → o.cls ≠ c → ¬ Spec.HasClass h [c] (.ref r) := by
    rintro r o c hr hc ⟨r', o', e, hr', hc'⟩
    cases e
    rw [hr] at hr'
    cases hr'
    exact hc (List.mem_singleton.1 hc')
  cases store_case hs with
  | noPeaks => exact ⟨fun _ => same_refl_of hp (List.prefix_refl _) hv, fun ⟨_, _, e, _⟩ => nomatch e⟩
  | @onePeak r fs hr =>
    refine ⟨fun hn => absurd ⟨_, _, rfl, hr, by simp⟩ hn, fun _ => ⟨_, (deepcopy h (.ref r)).2, rfl, by simp, ?_⟩⟩
    exact (deepcopy_same hp hv).extend (List.prefix_refl _) (List.prefix_append _ _)
  | peakList hr hf => exact ⟨fun _ => deepcopy_same hp hv, fun hc => absurd hc (nocls hr (by simp))⟩
  | noRise => exact same_refl_of hp (List.prefix_refl _) hv
  | aRise hr => exact same_refl_of hp (List.prefix_refl _) hv
  | @oneBarrier r fs hr =>
    refine ⟨fun hn => absurd ⟨_, _, rfl, hr, by simp⟩ hn, fun _ => ?_⟩
    have := deepcopies_same hp (vs := [.ref r, .ref r]) (by simpa using hv)
      (List.prefix_append _ [⟨.list, (deepcopies h [.ref r, .ref r]).2⟩])
    refine ⟨_, (deepcopy h (.ref r)).2, (deepcopy (deepcopy h (.ref r)).1 (.ref r)).2, rfl, ?_, ?_, ?_⟩
    · rw [List.getElem?_concat_length]
      rfl
    · cases this with
      | cons h1 h2 => exact h1
    · cases this with
      | cons h1 h2 =>
        cases h2 with
        | cons h3 h4 => exact h3
  | pair hr hx hy =>
    exact ⟨fun _ => same_refl_of hp (List.prefix_refl _) hv, fun hc => absurd hc (nocls hr (by simp))⟩

theorem Part.none {h : OHeap} {P : ℕ → Prop} (hp : Part h P) : Part h (fun _ => False) :=
  ⟨fun _ h => h.elim, fun r o q hr hq => ⟨(hp.closed r o q hr hq).1, Iff.rfl⟩⟩

theorem Part.list {h : OHeap} {P : ℕ → Prop} (hp : Part h P) (fs : List OVal) (c : Prop) (hf : ∀ v ∈ fs, v.on h P c) :
    ∃ P', Part (h ++ [⟨.list, fs⟩]) P' ∧ (∀ b, Grown h P (h ++ [⟨.list, fs⟩]) P' b) ∧
      (OVal.ref h.length).on (h ++ [⟨.list, fs⟩]) P' c := by
  have := hp.append [⟨.list, fs⟩] c (by
    intro o' ho' q hq
    rw [List.mem_singleton.1 ho'] at hq
    have := hf _ hq q rfl
    simp only [List.length_singleton]
    exact ⟨by omega, fun _ => this.2⟩)
  refine ⟨_, this.1, this.2, ?_⟩
  intro r hr
  cases hr
  exact ⟨by simp, extend_new hp (le_refl _) (by simp)⟩

theorem funStore_part {h h' : OHeap} {P : ℕ → Prop} (hp : Part h P) {a : FunAttr} {v v' : OVal} {c : Prop}
    (hv : ∀ r, v = .ref r → r < h.length) (hc : ¬ Spec.Copied h a v → v.on h P c) (hs : a.store h v = .ok (h', v')) :
    ∃ P', Part h' P' ∧ (∀ b, Grown h P h' P' b) ∧ v'.on h' P' c := by
  cases store_case hs with
  | noPeaks => exact ⟨P, hp, Grown.refl _ _, fun r hr => nomatch hr⟩
  | @onePeak r fs hr =>
    obtain ⟨P1, p1, g1, o1⟩ := hp.deepcopy (.ref r) hv c
    obtain ⟨P2, p2, g2, o2⟩ := p1.list [(deepcopy h (.ref r)).2] c (by
      intro x hx
      rw [List.mem_singleton.1 hx]; exact o1)
    exact ⟨P2, p2, fun b => (g1 b).trans (g2 b), o2⟩
  | peakList hr hf => exact hp.deepcopy _ hv c
  | noRise => exact ⟨P, hp, Grown.refl _ _, fun r hr => nomatch hr⟩
  | aRise hr => exact ⟨P, hp, Grown.refl _ _, hc (by rintro (h | ⟨h, _⟩) <;> exact nomatch h)⟩
  | @oneBarrier r fs hr =>
    obtain ⟨P1, p1, g1, o1⟩ := hp.deepcopies [.ref r, .ref r] (by simpa using hv) c
    obtain ⟨P2, p2, g2, o2⟩ := p1.list (deepcopies h [.ref r, .ref r]).2 c o1
    exact ⟨P2, p2, fun b => (g1 b).trans (g2 b), o2⟩
  | pair hr hx hy =>
    refine ⟨P, hp, Grown.refl _ _, hc ?_⟩
    rintro (h | ⟨_, r', o, e, ho, hcl⟩)
    · exact nomatch h
    · cases e
      rw [hr] at ho
      cases ho
      simp at hcl

/-! ### Constructors -/

theorem setAll_cons {h h' : OHeap} {vals : FunAttr → OVal} {a : FunAttr} {l : List FunAttr} {o : FunObj}
    (hs : setAll h vals (a :: l) = .ok (h', o)) : ∃ h1 v o2, a.store h (vals a) = .ok (h1, v) ∧ setAll h1 vals l = .ok (h', o2) ∧
      o = fun b => if b = a then v else o2 b := by
  simp only [setAll] at hs
  cases h1 : a.store h (vals a) with
  | error e => rw [h1] at hs; exact nomatch hs
  | ok x =>
    obtain ⟨k, v⟩ := x
    rw [h1] at hs
    dsimp only at hs
    cases h2 : setAll k vals l with
    | error e => rw [h2] at hs; exact nomatch hs
    | ok y =>
      obtain ⟨k', o2⟩ := y
      rw [h2] at hs
      cases hs
      exact ⟨k, v, o2, rfl, h2, rfl⟩

theorem setAll_prefix {h h' : OHeap} {vals : FunAttr → OVal} {l : List FunAttr} {o : FunObj}
    (hs : setAll h vals l = .ok (h', o)) : h <+: h' := by
  induction l generalizing h h' o with
  | nil => cases hs; exact List.prefix_refl _
  | cons a l ih =>
    obtain ⟨h1, v, o2, e1, e2, rfl⟩ := setAll_cons hs
    exact (funStore_prefix e1).trans (ih e2)

theorem copied_prefix {h H : OHeap} (hpre : h <+: H) {a : FunAttr} {v : OVal} (hv : ∀ r, v = .ref r → r < h.length) :
    Spec.Copied H a v ↔ Spec.Copied h a v := by
  simp only [Spec.Copied, hasClass_prefix hpre hv]

theorem setAll_part {h h' : OHeap} {P : ℕ → Prop} (hp : Part h P) {vals : FunAttr → OVal} {l : List FunAttr} {o : FunObj}
    (hv : ∀ a, (vals a).on h P False) (c : FunAttr → Prop) (hc : ∀ a ∈ l, c a → Spec.Copied h a (vals a))
    (hs : setAll h vals l = .ok (h', o)) :
    ∃ P', Part h' P' ∧ (∀ b, Grown h P h' P' b) ∧ ∀ a, (o a).on h' P' (c a) := by
  induction l generalizing h P h' o with
  | nil => cases hs; exact ⟨P, hp, Grown.refl _ _, fun a r hr => nomatch hr⟩
  | cons a l ih =>
    obtain ⟨h1, v, o2, e1, e2, rfl⟩ := setAll_cons hs
    obtain ⟨P1, p1, g1, o1⟩ := funStore_part hp (c := c a) (fun r hr => (hv a r hr).1) (by
      intro hn r hr
      have := hv a r hr
      exact ⟨this.1, this.2.trans (iff_of_false id fun h => hn (hc a (by simp) h))⟩) e1
    obtain ⟨P2, p2, g2, o2'⟩ := ih p1 (fun b => (hv b).grown (g1 True)) (fun b hb hcb =>
      (copied_prefix (funStore_prefix e1) (fun r hr => (hv b r hr).1)).2 (hc b (List.mem_cons_of_mem _ hb) hcb)) e2
    refine ⟨P2, p2, fun b => (g1 b).trans (g2 b), ?_⟩
    intro b
    by_cases hb : b = a
    · simp only [if_pos hb]; rw [hb]; exact o1.grown (g2 True)
    · simp only [if_neg hb]; exact o2' b

theorem setAll_ok_iff {h : OHeap} {P : ℕ → Prop} (hp : Part h P) {vals : FunAttr → OVal}
    (hv : ∀ a r, vals a = .ref r → r < h.length) (l : List FunAttr) :
    (∃ x, setAll h vals l = .ok x) ↔ ∀ a ∈ l, Spec.FunAccepted h a (vals a) := by
  induction l generalizing h P with
  | nil => simp [setAll]
  | cons a l ih =>
    constructor
    · rintro ⟨⟨h', o⟩, hs⟩
      obtain ⟨h1, v, o2, e1, e2, rfl⟩ := setAll_cons hs
      obtain ⟨P1, p1, g1, _⟩ := funStore_part hp.none (c := False) (hv a) (by
        intro _ r hr; exact ⟨hv a r hr, Iff.rfl⟩) e1
      have := (ih p1 (fun b r hr => lt_of_lt_of_le (hv b r hr) (g1 True).1)).1 ⟨_, e2⟩
      intro b hb
      rcases List.mem_cons.1 hb with rfl | hb
      · exact (store_ok_iff _ _ _).1 ⟨_, e1⟩
      · exact (funAccepted_prefix hp (funStore_prefix e1) (hv b)).1 (this b hb)
    · intro ha
      obtain ⟨⟨h1, v⟩, e1⟩ := (store_ok_iff _ _ _).2 (ha a (by simp))
      obtain ⟨P1, p1, g1, _⟩ := funStore_part hp.none (c := False) (hv a) (by
        intro _ r hr; exact ⟨hv a r hr, Iff.rfl⟩) e1
      obtain ⟨⟨h2, o⟩, e2⟩ := (ih p1 (fun b r hr => lt_of_lt_of_le (hv b r hr) (g1 True).1)).2 (fun b hb =>
        (funAccepted_prefix hp (funStore_prefix e1) (hv b)).2 (ha b (List.mem_cons_of_mem _ hb)))
      refine ⟨(h2, fun b => if b = a then v else o b), ?_⟩
      simp only [setAll, e1, e2]

theorem setAll_err {h : OHeap} {vals : FunAttr → OVal} {l : List FunAttr} {e : PyErr} (hs : setAll h vals l = .error e) :
    e = .valueError := by
  induction l generalizing h with
  | nil => exact nomatch hs
  | cons a l ih =>
    simp only [setAll] at hs
    cases h1 : a.store h (vals a) with
    | error e' => rw [h1] at hs; cases hs; exact store_err h1
    | ok x =>
      obtain ⟨k, v⟩ := x
      rw [h1] at hs
      dsimp only at hs
      cases h2 : setAll k vals l with
      | error e' => rw [h2] at hs; cases hs; exact ih h2
      | ok y => rw [h2] at hs; exact nomatch hs

theorem funStored_extend {h h1 H : OHeap} {a : FunAttr} {v v' : OVal} (hs : Spec.FunStored h a v h1 v') (hpre : h1 <+: H) :
    Spec.FunStored h a v H v' := by
  cases a with
  | peaks =>
    refine ⟨fun hn => (hs.1 hn).extend (List.prefix_refl _) hpre, fun hc => ?_⟩
    obtain ⟨r, x, e, hr, hx⟩ := hs.2 hc
    exact ⟨r, x, e, get_prefix_some hpre hr, hx.extend (List.prefix_refl _) hpre⟩
  | rise => exact Spec.Same.extend hs (List.prefix_refl _) hpre
  | barriers =>
    refine ⟨fun hn => (hs.1 hn).extend (List.prefix_refl _) hpre, fun hc => ?_⟩
    obtain ⟨r, x, y, e, hr, hx, hy⟩ := hs.2 hc
    exact ⟨r, x, y, e, get_prefix_some hpre hr, hx.extend (List.prefix_refl _) hpre, hy.extend (List.prefix_refl _) hpre⟩

theorem funStored_restrict {h h1 H : OHeap} {P : ℕ → Prop} (hp : Part h P) {a : FunAttr} {v v' : OVal} (hpre : h <+: h1)
    (hv : ∀ r, v = .ref r → r < h.length) (hs : Spec.FunStored h1 a v H v') : Spec.FunStored h a v H v' := by
  cases a with
  | peaks =>
    refine ⟨fun hn => (hs.1 (mt (hasClass_prefix hpre hv).1 hn)).restrict hp hpre hv, fun hc => ?_⟩
    obtain ⟨r, x, e, hr, hx⟩ := hs.2 ((hasClass_prefix hpre hv).2 hc)
    exact ⟨r, x, e, hr, hx.restrict hp hpre hv⟩
  | rise => exact Spec.Same.restrict hs hp hpre hv
  | barriers =>
    refine ⟨fun hn => (hs.1 (mt (hasClass_prefix hpre hv).1 hn)).restrict hp hpre hv, fun hc => ?_⟩
    obtain ⟨r, x, y, e, hr, hx, hy⟩ := hs.2 ((hasClass_prefix hpre hv).2 hc)
    exact ⟨r, x, y, e, hr, hx.restrict hp hpre hv, hy.restrict hp hpre hv⟩

theorem setAll_stored {h h' : OHeap} {P : ℕ → Prop} (hp : Part h P) {vals : FunAttr → OVal}
    (hv : ∀ a, (vals a).on h P False) {l : List FunAttr} {o : FunObj} (hs : setAll h vals l = .ok (h', o)) :
    ∀ a ∈ l, Spec.FunStored h a (vals a) h' (o a) := by
  induction l generalizing h P h' o with
  | nil => intro a ha; exact absurd ha List.not_mem_nil
  | cons a l ih =>
    obtain ⟨h1, v, o2, e1, e2, rfl⟩ := setAll_cons hs
    obtain ⟨P1, p1, g1, _⟩ := funStore_part hp (c := False) (fun r hr => (hv a r hr).1) (fun _ => hv a) e1
    intro b hb
    by_cases hba : b = a
    · simp only [if_pos hba]
      rw [hba]
      exact funStored_extend (funStore_stored hp (fun r hr => (hv a r hr).1) e1) (setAll_prefix e2)
    · simp only [if_neg hba]
      have := ih p1 (fun b => (hv b).grown (g1 True)) e2 b ((List.mem_cons.1 hb).resolve_left hba)
      exact funStored_restrict hp (funStore_prefix e1) (fun r hr => (hv b r hr).1) this

/-! ### Programs -/

/-- The part `P` of the objects holds exactly what the protected attributes lead to. -/
structure FGuarded (w : FunWorld) (P : ℕ → Prop) (PS : ℕ → FunAttr → Prop) : Prop where
  part : Part w.heap P
  names : NamesOn w.heap P (fun _ => False) w.vars
  sensors : ∀ (s : ℕ) (x : Bool × FunObj) (a : FunAttr), w.sensors[s]? = some x → (x.2 a).on w.heap P (PS s a)

/-- The statement does not hand out protected attributes, and protected attributes get copies only. -/
def FSafe (w : FunWorld) (PS : ℕ → FunAttr → Prop) : FStmt → Prop
  | .prim _ => True
  | .get s a => ¬ PS s a
  | .set s a e => PS s a → ∀ v, e.eval w.vars = some v → Spec.Copied w.heap a v
  | .newSensor scan args => ∀ a ∈ funAttrs scan, PS w.sensors.length a → ∀ v, (args a).eval w.vars = some v → Spec.Copied w.heap a v

theorem name_off {w : FunWorld} {P : ℕ → Prop} {PS : ℕ → FunAttr → Prop} (g : FGuarded w P PS) {e : OExpr} {v : OVal}
    (he : e.eval w.vars = some v) : v.on w.heap P False := eval_on g.names he fun _ _ => Iff.rfl

theorem FGuarded.set {w : FunWorld} {P : ℕ → Prop} {PS PS' : ℕ → FunAttr → Prop} (g : FGuarded w P PS) {s : ℕ} {scan : Bool}
    {o : FunObj} {a : FunAttr} {v v' : OVal} {h' : OHeap} (ho : w.sensors[s]? = some (scan, o)) (hv : v.on w.heap P False)
    (hPS : ∀ s' b, ¬ (s' = s ∧ b = a) → (PS s' b ↔ PS' s' b)) (hc : PS' s a → Spec.Copied w.heap a v)
    (hs : a.store w.heap v = .ok (h', v')) :
    ∃ P', FGuarded ⟨h', w.vars, w.sensors.set s (scan, fun b => if b = a then v' else o b)⟩ P' PS' ∧ ∀ b, Grown w.heap P h' P' b := by
  have conv : ∀ {s' b x}, ¬ (s' = s ∧ b = a) → OVal.on w.heap P (PS s' b) x → OVal.on w.heap P (PS' s' b) x := by
    intro s' b x hne hx r hr
    exact ⟨(hx r hr).1, (hx r hr).2.trans (hPS s' b hne)⟩
  obtain ⟨P1, p1, g1, o1⟩ := funStore_part g.part (c := PS' s a) (fun r hr => (hv r hr).1) (by
    intro hn r hr
    exact ⟨(hv r hr).1, (hv r hr).2.trans (iff_of_false id fun h => hn (hc h))⟩) hs
  refine ⟨P1, ⟨p1, g.names.grown (g1 True), ?_⟩, g1⟩
  intro s' x b hx
  by_cases hss : s = s'
  · subst hss
    dsimp only at hx
    rw [List.getElem?_set_self (List.getElem?_eq_some_iff.1 ho).1, Option.some.injEq] at hx
    subst hx
    by_cases hba : b = a
    · simp only [if_pos hba]; rw [hba]; exact o1
    · simp only [if_neg hba]
      exact (conv (fun h => hba h.2) (g.sensors s _ b ho)).grown (g1 True)
  · dsimp only at hx
    rw [List.getElem?_set_ne hss] at hx
    exact (conv (fun h => hss h.1.symm) (g.sensors s' x b hx)).grown (g1 True)

theorem FGuarded.new {w : FunWorld} {P : ℕ → Prop} {PS PS' : ℕ → FunAttr → Prop} (g : FGuarded w P PS) {scan : Bool}
    {vals : FunAttr → OVal} (hv : ∀ a, (vals a).on w.heap P False) (hPS : ∀ s' b, s' < w.sensors.length → (PS s' b ↔ PS' s' b))
    (hc : ∀ a ∈ funAttrs scan, PS' w.sensors.length a → Spec.Copied w.heap a (vals a)) {h' : OHeap} {o : FunObj}
    (hs : setAll w.heap vals (funAttrs scan) = .ok (h', o)) :
    ∃ P', FGuarded ⟨h', w.vars, w.sensors ++ [(scan, o)]⟩ P' PS' ∧ ∀ b, Grown w.heap P h' P' b := by
  obtain ⟨P1, p1, g1, o1⟩ := setAll_part g.part hv (PS' w.sensors.length) hc hs
  refine ⟨P1, ⟨p1, g.names.grown (g1 True), ?_⟩, g1⟩
  intro s x b hx
  dsimp only at hx
  by_cases hlt : s < w.sensors.length
  · rw [List.getElem?_append_left hlt] at hx
    have := (g.sensors s x b hx).grown (g1 True)
    intro r hr
    exact ⟨(this r hr).1, (this r hr).2.trans (hPS s b hlt)⟩
  · have hl := (List.getElem?_eq_some_iff.1 hx).1
    rw [List.length_append, List.length_singleton] at hl
    have : s = w.sensors.length := by omega
    subst this
    simp only [List.getElem?_concat_length, Option.some.injEq] at hx
    exact hx ▸ o1 b

theorem ctor_vals_on {w : FunWorld} {P : ℕ → Prop} {PS : ℕ → FunAttr → Prop} (g : FGuarded w P PS) (args : FunAttr → OExpr)
    (a : FunAttr) : (((args a).eval w.vars).getD .none).on w.heap P False := by
  cases he : (args a).eval w.vars with
  | none => intro r hr; exact nomatch hr
  | some v => exact name_off g he

theorem FGuarded.step {w : FunWorld} {P : ℕ → Prop} {PS : ℕ → FunAttr → Prop} (g : FGuarded w P PS) (c : FStmt)
    (hs : FSafe w PS c) : ∃ P', FGuarded (c.run w).2 P' PS ∧ Grown w.heap P (c.run w).2.heap P' False := by
  have triv : ∃ P', FGuarded w P' PS ∧ Grown w.heap P w.heap P' False := ⟨P, g, Grown.refl _ _ _⟩
  cases c with
  | prim p =>
    obtain ⟨P1, p1, n1, g1, _⟩ := Prim.step_part (f := ⟨w.heap, w.vars, []⟩) g.part g.names p (b := False)
      (fun _ _ => Iff.rfl) Iff.rfl
    exact ⟨P1, ⟨p1, n1, fun s o a ho => (g.sensors s o a ho).grown g1⟩, g1⟩
  | newSensor scan args =>
    simp only [FStmt.run]
    split
    · next hall =>
      cases hc : setAll w.heap (fun a => ((args a).eval w.vars).getD .none) (funAttrs scan) with
      | error e => exact triv
      | ok x =>
        obtain ⟨h', o⟩ := x
        obtain ⟨P1, g1, gr⟩ := g.new (PS' := PS) (ctor_vals_on g args) (fun _ _ _ => Iff.rfl) (by
          intro a ha hp
          obtain ⟨v, hv⟩ := Option.isSome_iff_exists.1 (List.all_eq_true.1 hall a ha)
          rw [hv, Option.getD_some]
          exact hs a ha hp v hv) hc
        exact ⟨P1, g1, gr _⟩
    · exact triv
  | set s a e =>
    simp only [FStmt.run]
    cases ho : w.sensors[s]? with
    | none => exact triv
    | some x =>
      obtain ⟨scan, o⟩ := x
      cases he : e.eval w.vars with
      | none => exact triv
      | some v =>
        dsimp only
        by_cases hm : a ∈ funAttrs scan
        · rw [if_pos hm]
          cases hc : a.store w.heap v with
          | error x => exact triv
          | ok y =>
            obtain ⟨h', v'⟩ := y
            obtain ⟨P1, g1, gr⟩ := g.set (PS' := PS) ho (name_off g he) (fun _ _ _ => Iff.rfl) (fun hp => hs hp v he) hc
            exact ⟨P1, g1, gr _⟩
        · rw [if_neg hm]; exact triv
  | get s a =>
    simp only [FStmt.run]
    cases ho : w.sensors[s]? with
    | none => exact triv
    | some x =>
      obtain ⟨scan, o⟩ := x
      dsimp only
      by_cases hm : a ∈ funAttrs scan
      · rw [if_pos hm]
        refine ⟨P, ⟨g.part, g.names.push ?_, g.sensors⟩, Grown.refl _ _ _⟩
        intro r hr
        have := g.sensors s _ a ho r hr
        exact ⟨this.1, this.2.trans (iff_of_false hs id)⟩
      · rw [if_neg hm]; exact triv

theorem fexec_cons (w : FunWorld) (c : FStmt) (l : List FStmt) : w.exec (c :: l) = (c.run w).2.exec l := rfl

theorem fexec_append (w : FunWorld) (l l' : List FStmt) : w.exec (l ++ l') = (w.exec l).exec l' := by
  simp [FunWorld.exec, List.foldl_append]

theorem FGuarded.exec {w : FunWorld} {P : ℕ → Prop} {PS : ℕ → FunAttr → Prop} (g : FGuarded w P PS) (l : List FStmt)
    (hs : ∀ c ∈ l, ∀ w, FSafe w PS c) : ∃ P', FGuarded (w.exec l) P' PS ∧ Grown w.heap P (w.exec l).heap P' False := by
  induction l generalizing w P with
  | nil => exact ⟨P, g, Grown.refl _ _ _⟩
  | cons c l ih =>
    obtain ⟨P1, g1, r1⟩ := g.step c (hs c (by simp) w)
    obtain ⟨P2, g2, r2⟩ := ih g1 (fun d hd => hs d (List.mem_cons_of_mem _ hd))
    exact ⟨P2, g2, r1.trans r2⟩

theorem fguarded_init (PS : ℕ → FunAttr → Prop) : FGuarded FunWorld.init (fun _ => False) PS :=
  ⟨⟨fun _ h => h.elim, fun r o q hr => by simp [FunWorld.init] at hr⟩, fun i v hi => by simp [FunWorld.init] at hi,
    fun s x a hx => by simp [FunWorld.init] at hx⟩

/-- In every state that a program can reach, references lead to objects. -/
theorem fguarded_reachable (p : List FStmt) : ∃ P, FGuarded (FunWorld.init.exec p) P (fun _ _ => False) := by
  obtain ⟨P, g, _⟩ := (fguarded_init (fun _ _ => False)).exec p (by
    intro c _ w
    cases c with
    | prim p => trivial
    | newSensor scan args => intro a _ h; exact h.elim
    | set s a e => intro h; exact h.elim
    | get s a => exact id)
  exact ⟨P, g⟩

/-- Sensors stay where they are, and attributes that are not set keep their values. -/
theorem frun_sensors (c : FStmt) (w : FunWorld) {s : ℕ} {x : Bool × FunObj} (hx : w.sensors[s]? = some x) :
    ∃ x', (c.run w).2.sensors[s]? = some x' ∧ x'.1 = x.1 ∧ ∀ a, (∀ e, c ≠ .set s a e) → x'.2 a = x.2 a := by
  have triv : ∃ x', w.sensors[s]? = some x' ∧ x'.1 = x.1 ∧ ∀ a, (∀ e, c ≠ .set s a e) → x'.2 a = x.2 a := ⟨x, hx, rfl, fun _ _ => rfl⟩
  cases c with
  | prim p => exact triv
  | newSensor scan args =>
    simp only [FStmt.run]
    split
    · cases hc : setAll w.heap (fun a => ((args a).eval w.vars).getD .none) (funAttrs scan) with
      | error e => exact triv
      | ok y =>
        refine ⟨x, ?_, rfl, fun _ _ => rfl⟩
        show (w.sensors ++ _)[s]? = _
        rw [List.getElem?_append_left (List.getElem?_eq_some_iff.1 hx).1]
        exact hx
    · exact triv
  | set s' a e =>
    simp only [FStmt.run]
    cases ho : w.sensors[s']? with
    | none => exact triv
    | some y =>
      obtain ⟨scan, o⟩ := y
      cases he : e.eval w.vars with
      | none => exact triv
      | some v =>
        dsimp only
        by_cases hm : a ∈ funAttrs scan
        · rw [if_pos hm]
          cases hc : a.store w.heap v with
          | error x => exact triv
          | ok z =>
            dsimp only
            by_cases hss : s' = s
            · subst hss
              rw [ho] at hx
              cases hx
              refine ⟨_, List.getElem?_set_self (List.getElem?_eq_some_iff.1 ho).1, rfl, ?_⟩
              intro b hb
              have : b ≠ a := by rintro rfl; exact hb e rfl
              simp only [if_neg this]
            · exact ⟨x, by rw [List.getElem?_set_ne hss]; exact hx, rfl, fun _ _ => rfl⟩
        · rw [if_neg hm]; exact triv
  | get s' a =>
    simp only [FStmt.run]
    cases ho : w.sensors[s']? with
    | none => exact triv
    | some y =>
      obtain ⟨scan, o⟩ := y
      dsimp only
      by_cases hm : a ∈ funAttrs scan
      · rw [if_pos hm]; exact triv
      · rw [if_neg hm]; exact triv

theorem fexec_sensors (l : List FStmt) (w : FunWorld) {s : ℕ} {x : Bool × FunObj} (hx : w.sensors[s]? = some x) :
    ∃ x', (w.exec l).sensors[s]? = some x' ∧ x'.1 = x.1 ∧ ∀ a, (∀ c ∈ l, ∀ e, c ≠ .set s a e) → x'.2 a = x.2 a := by
  induction l generalizing w x with
  | nil => exact ⟨x, hx, rfl, fun _ _ => rfl⟩
  | cons c l ih =>
    obtain ⟨x1, h1, k1, e1⟩ := frun_sensors c w hx
    obtain ⟨x2, h2, k2, e2⟩ := ih (c.run w).2 h1
    refine ⟨x2, h2, k2.trans k1, fun a ha => ?_⟩
    exact (e2 a fun d hd => ha d (List.mem_cons_of_mem _ hd)).trans (e1 a (ha c (by simp)))

/-- What a protected attribute leads to stays the same. -/
theorem FGuarded.keeps {w : FunWorld} {P : ℕ → Prop} {s : ℕ} {a : FunAttr} (g : FGuarded w P (fun s' b => s' = s ∧ b = a))
    (q : List FStmt) (hg : ∀ c ∈ q, c ≠ .get s a) (hq : ∀ c ∈ q, ∀ e, c ≠ .set s a e) {x : Bool × FunObj}
    (hx : w.sensors[s]? = some x) :
    ∃ x', (w.exec q).sensors[s]? = some x' ∧ x'.2 a = x.2 a ∧ Spec.Same w.heap (x.2 a) (w.exec q).heap (x'.2 a) := by
  obtain ⟨x', hx', _, hk⟩ := fexec_sensors q w hx
  -- statements that create sensors concern other sensors
  have key : ∀ (q : List FStmt) (w : FunWorld) (P : ℕ → Prop), FGuarded w P (fun s' b => s' = s ∧ b = a) → s < w.sensors.length →
      (∀ c ∈ q, c ≠ .get s a) → (∀ c ∈ q, ∀ e, c ≠ .set s a e) →
      ∃ P', FGuarded (w.exec q) P' (fun s' b => s' = s ∧ b = a) ∧ Grown w.heap P (w.exec q).heap P' False := by
    intro q
    induction q with
    | nil => intro w P g _ _ _; exact ⟨P, g, Grown.refl _ _ _⟩
    | cons c q ih =>
      intro w P g hl hg hq
      obtain ⟨P1, g1, r1⟩ := g.step c (by
        cases c with
        | prim p => trivial
        | newSensor scan args => rintro b _ ⟨h, _⟩; omega
        | set s' b e => rintro ⟨rfl, rfl⟩; exact absurd rfl (hq _ (by simp) e)
        | get s' b => rintro ⟨rfl, rfl⟩; exact hg _ (by simp) rfl)
      have hl1 : s < (c.run w).2.sensors.length := by
        obtain ⟨x1, h1, _⟩ := frun_sensors c w (List.getElem?_eq_getElem hl)
        exact (List.getElem?_eq_some_iff.1 h1).1
      obtain ⟨P2, g2, r2⟩ := ih (c.run w).2 P1 g1 hl1 (fun d hd => hg d (List.mem_cons_of_mem _ hd))
        (fun d hd => hq d (List.mem_cons_of_mem _ hd))
      exact ⟨P2, g2, r1.trans r2⟩
  obtain ⟨P', g', r'⟩ := key q w P g (List.getElem?_eq_some_iff.1 hx).1 hg hq
  have he := hk a hq
  refine ⟨x', hx', he, ?_⟩
  rw [he]
  obtain ⟨B, hB, hm⟩ := same_of_part g.part (fun r hr => ((r'.2 r (g.part.bound r hr)).2 (iff_of_true hr id)))
    (fun _ : Unit => x.2 a) (by
      intro _ r hr
      have := g.sensors s x a hx r hr
      exact ⟨this.1, this.2.trans (iff_of_true ⟨rfl, rfl⟩ trivial)⟩)
  exact ⟨B, hB, hm ()⟩

theorem pass_run {w : FunWorld} {c : FStmt} {s : ℕ} {a : FunAttr} {v : OVal} (hp : Spec.Passes w c s a v)
    (hok : (c.run w).1 = .ok ()) :
    (∃ e scan o h' v', c = .set s a e ∧ e.eval w.vars = some v ∧ w.sensors[s]? = some (scan, o) ∧ a.store w.heap v = .ok (h', v') ∧
      (c.run w).2 = ⟨h', w.vars, w.sensors.set s (scan, fun b => if b = a then v' else o b)⟩) ∨
    (∃ scan args h' o, c = .newSensor scan args ∧ s = w.sensors.length ∧ a ∈ funAttrs scan ∧ (args a).eval w.vars = some v ∧
      setAll w.heap (fun a => ((args a).eval w.vars).getD .none) (funAttrs scan) = .ok (h', o) ∧
      (c.run w).2 = ⟨h', w.vars, w.sensors ++ [(scan, o)]⟩) := by
  rcases hp with ⟨e, rfl, he⟩ | ⟨scan, args, rfl, hs, ha, he⟩
  · left
    simp only [FStmt.run] at hok ⊢
    cases ho : w.sensors[s]? with
    | none => rw [ho] at hok; exact nomatch hok
    | some x =>
      obtain ⟨scan, o⟩ := x
      rw [ho, he] at hok
      rw [he]
      dsimp only at hok ⊢
      by_cases hm : a ∈ funAttrs scan
      · rw [if_pos hm] at hok
        cases hc : a.store w.heap v with
        | error x => rw [hc] at hok; exact nomatch hok
        | ok y => exact ⟨e, scan, o, y.1, y.2, rfl, he, rfl, rfl, by rw [if_pos hm]⟩
      · rw [if_neg hm] at hok; exact nomatch hok
  · right
    simp only [FStmt.run] at hok ⊢
    split at hok
    · next hall =>
      cases hc : setAll w.heap (fun a => ((args a).eval w.vars).getD .none) (funAttrs scan) with
      | error e => rw [hc] at hok; exact nomatch hok
      | ok x => exact ⟨scan, args, x.1, x.2, rfl, hs, ha, he, hc, by rw [if_pos hall]⟩
    · exact nomatch hok

/-- After a copy was stored, the attribute leads to objects of its own. -/
theorem FGuarded.pass {w : FunWorld} {P : ℕ → Prop} (g : FGuarded w P (fun _ _ => False)) {c : FStmt} {s : ℕ} {a : FunAttr}
    {v : OVal} (hp : Spec.Passes w c s a v) (hc : Spec.Copied w.heap a v) (hok : (c.run w).1 = .ok ()) :
    (∃ P', FGuarded (c.run w).2 P' (fun s' b => s' = s ∧ b = a)) ∧ ∃ x, (c.run w).2.sensors[s]? = some x := by
  rcases pass_run hp hok with ⟨e, scan, o, h', v', rfl, he, ho, hs, hr⟩ | ⟨scan, args, h', o, rfl, rfl, ha, he, hs, hr⟩
  · obtain ⟨P1, g1, _⟩ := g.set (PS' := fun s' b => s' = s ∧ b = a) ho (name_off g he)
      (fun s' b hne => iff_of_false id hne) (fun _ => hc) hs
    rw [hr]
    exact ⟨⟨P1, g1⟩, _, List.getElem?_set_self (List.getElem?_eq_some_iff.1 ho).1⟩
  · obtain ⟨P1, g1, _⟩ := g.new (PS' := fun s' b => s' = w.sensors.length ∧ b = a) (ctor_vals_on g args)
      (fun s' b hlt => iff_of_false id (fun h => by omega)) (by
        rintro b hb ⟨_, rfl⟩
        rw [he, Option.getD_some]
        exact hc) hs
    rw [hr]
    exact ⟨⟨P1, g1⟩, _, List.getElem?_concat_length⟩

/-! ### Reachability -/

theorem leadsTo_on {h H : OHeap} {P : ℕ → Prop} (hp : Part h P) (hpre : h <+: H) {v : OVal} {b : Prop} (hv : v.on h P b) {q : ℕ}
    (hl : Spec.LeadsTo H v q) : q < h.length ∧ (P q ↔ b) := by
  induction hl with
  | here r => exact hv r rfl
  | step _ ho hq ih =>
    have ih := ih hv
    rw [get_prefix hpre ih.1] at ho
    have := hp.closed _ _ _ ho hq
    exact ⟨this.1, this.2.symm.trans ih.2⟩

/-- Two copies share no object. -/
theorem copies_separate {h H : OHeap} {P : ℕ → Prop} (hp : Part h P) {v x y : OVal} (hv : ∀ r, v = .ref r → r < h.length)
    (hd : (deepcopies h [v, v]).2 = [x, y]) (hpre : (deepcopies h [v, v]).1 <+: H) (q : ℕ) (hx : Spec.LeadsTo H x q) :
    ¬ Spec.LeadsTo H y q := by
  obtain ⟨P1, p1, g1, o1⟩ := hp.deepcopy v hv True
  obtain ⟨P2, p2, g2, o2⟩ := p1.deepcopy v (fun r hr => lt_of_lt_of_le (hv r hr) (g1 True).1) False
  have e : [(deepcopy h v).2, (deepcopy (deepcopy h v).1 v).2] = [x, y] := hd
  simp only [List.cons.injEq, and_true] at e
  intro hy
  have hpre' : (deepcopy (deepcopy h v).1 v).1 <+: H := hpre
  have h1 := leadsTo_on p2 hpre' (b := True) (by rw [← e.1]; exact o1.grown (g2 True)) hx
  have h2 := leadsTo_on p2 hpre' (b := False) (by rw [← e.2]; exact o2) hy
  exact h2.2.1 (h1.2.2 trivial)

/-- Objects that a value does not lead to do not matter to its content. -/
theorem same_of_unreached {h h' : OHeap} {v : OVal} (hv : ∀ q, Spec.LeadsTo h v q → q < h.length)
    (hs : ∀ q, Spec.LeadsTo h v q → h'[q]? = h[q]?) : Spec.Same h v h' v := by
  refine ⟨fun r s => r = s ∧ Spec.LeadsTo h v r, ⟨?_, ?_, ?_⟩, ?_⟩
  · rintro r s t ⟨rfl, _⟩ ⟨rfl, _⟩; rfl
  · rintro r s t ⟨rfl, _⟩ ⟨rfl, _⟩; rfl
  · rintro r s ⟨rfl, hP⟩
    have hlt := hv r hP
    refine ⟨h[r], h[r], List.getElem?_eq_getElem hlt, (hs r hP).trans (List.getElem?_eq_getElem hlt), rfl, ?_⟩
    rw [List.forall₂_same]
    intro x hx
    cases x with
    | none => exact .none
    | num x => exact .num x
    | ref q => exact .ref ⟨rfl, .step hP (List.getElem?_eq_getElem hlt) hx⟩
  · cases v with
    | none => exact .none
    | num x => exact .num x
    | ref q => exact .ref ⟨rfl, .here q⟩

/-- A program creates a peak, a barrier and a rise function, and a scan sensor with them. -/
def funDemo : List FStmt :=
  [.prim (.new .peak [.num 1]), .prim (.new .barrier [.num 2]), .prim (.new .rise [.num 3]),
    .newSensor true fun a => match a with | .peaks => .var 0 | .rise => .var 2 | .barriers => .var 1]

theorem funDemo_state : ∃ h o, FunWorld.init.exec funDemo = ⟨h, [.ref 0, .ref 1, .ref 2], [(true, o)]⟩ ∧
    h[0]? = some ⟨.peak, [.num 1]⟩ ∧ h[1]? = some ⟨.barrier, [.num 2]⟩ ∧ h[2]? = some ⟨.rise, [.num 3]⟩ ∧
    o .peaks = .ref 6 ∧ h[6]? = some ⟨.list, [.ref 3]⟩ ∧ o .rise = .ref 2 ∧ o .barriers = .ref 28 ∧
    h[28]? = some ⟨.list, [.ref 8, .ref 15]⟩ ∧ h[8]? = some ⟨.barrier, [.num 2]⟩ := ⟨_, _, rfl, rfl, rfl, rfl, rfl, rfl, rfl, rfl, rfl, rfl⟩

/-- The program without the sensor. -/
theorem funDemo_start : FunWorld.init.exec (funDemo.take 3) =
    ⟨[⟨.peak, [.num 1]⟩, ⟨.barrier, [.num 2]⟩, ⟨.rise, [.num 3]⟩], [.ref 0, .ref 1, .ref 2], []⟩ := rfl

/-- A program creates a list of two barrier functions and a sensor with it. -/
def pairDemo : List FStmt :=
  [.prim (.new .barrier []), .prim (.new .list [.var 0, .var 0]),
    .newSensor true fun a => match a with | .peaks => .none | .rise => .none | .barriers => .var 1]

end SimCATS
