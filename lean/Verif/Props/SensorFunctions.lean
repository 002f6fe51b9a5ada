import Verif.Lemmas.SensorFunctions

/-! C85: each sensor has its own peak, barrier and rise functions. -/

namespace SimCATS

open Spec

/-- Setting the functions of a sensor succeeds exactly for the documented values.  Then the attribute holds the documented
configuration, and no other attribute, no other sensor and no object of the program changes.  Otherwise a ValueError is raised and
nothing changes. -/
theorem C85_set (p : List FStmt) (s : ℕ) (a : FunAttr) (e : OExpr) (scan : Bool) (o : FunObj) (v : OVal)
    (ho : (FunWorld.init.exec p).sensors[s]? = some (scan, o)) (ha : a ∈ funAttrs scan)
    (he : e.eval (FunWorld.init.exec p).vars = some v) :
    let w := FunWorld.init.exec p
    let r := (FStmt.set s a e).run w
    (r.1 = .ok () ↔ FunAccepted w.heap a v) ∧
    (r.1 ≠ .ok () → r = (.error .valueError, w)) ∧
    (r.1 = .ok () → ∃ o', r.2.sensors = w.sensors.set s (scan, o') ∧ FunStored w.heap a v r.2.heap (o' a) ∧
      (∀ b, b ≠ a → o' b = o b) ∧ r.2.vars = w.vars ∧ w.heap <+: r.2.heap) := by
  obtain ⟨P, g⟩ := fguarded_reachable p
  generalize FunWorld.init.exec p = w at *
  intro w1 r
  have hr : r = (FStmt.set s a e).run w := rfl
  simp only [FStmt.run, ho, he, if_pos ha] at hr
  rw [← store_ok_iff]
  cases hs : a.store w.heap v with
  | error x =>
    simp only [hs] at hr
    rw [hr, store_err hs]
    exact ⟨⟨(nomatch ·), fun ⟨y, h⟩ => nomatch h⟩, fun _ => rfl, (nomatch ·)⟩
  | ok y =>
    obtain ⟨h', v'⟩ := y
    simp only [hs] at hr
    rw [hr]
    refine ⟨⟨fun _ => ⟨_, rfl⟩, fun _ => rfl⟩, fun h => absurd rfl h, fun _ => ⟨_, rfl, ?_, ?_, rfl, funStore_prefix hs⟩⟩
    · simp only [if_true]
      exact funStore_stored g.part (fun r hr => (name_off g he r hr).1) hs
    · intro b hb
      simp only [if_neg hb]

/-- A scan sensor gets the barrier function for its peaks, which is not documented, and the peak. -/
example : ∃ o, (FunWorld.init.exec funDemo).sensors[0]? = some (true, o) ∧ .peaks ∈ funAttrs true ∧
    OExpr.eval (FunWorld.init.exec funDemo).vars (.var 0) = some (.ref 0) ∧ FunAccepted (FunWorld.init.exec funDemo).heap .peaks (.ref 0) ∧
    OExpr.eval (FunWorld.init.exec funDemo).vars (.var 1) = some (.ref 1) ∧
    ¬ FunAccepted (FunWorld.init.exec funDemo).heap .peaks (.ref 1) := by
  obtain ⟨h, o, e, h0, h1, _⟩ := funDemo_state
  rw [e]
  refine ⟨o, rfl, by simp [funAttrs], rfl, Or.inr (Or.inl ⟨0, _, rfl, h0, by simp⟩), rfl, ?_⟩
  rintro (h | ⟨r, b, er, hr, hc⟩ | ⟨r, fs, er, hr, _⟩)
  · exact nomatch h
  · cases er
    rw [h1] at hr
    cases hr
    simp at hc
  · cases er
    rw [h1] at hr
    cases hr

/-- The constructors succeed exactly if all functions have documented values.  Then the new sensor has the documented
configuration, and nothing else changes.  Otherwise a ValueError is raised and nothing changes. -/
theorem C85_constructed (p : List FStmt) (scan : Bool) (args : FunAttr → OExpr) (vals : FunAttr → OVal)
    (hv : ∀ a ∈ funAttrs scan, (args a).eval (FunWorld.init.exec p).vars = some (vals a)) :
    let w := FunWorld.init.exec p
    let r := (FStmt.newSensor scan args).run w
    (r.1 = .ok () ↔ ∀ a ∈ funAttrs scan, FunAccepted w.heap a (vals a)) ∧
    (r.1 ≠ .ok () → r = (.error .valueError, w)) ∧
    (r.1 = .ok () → ∃ o, r.2.sensors = w.sensors ++ [(scan, o)] ∧ r.2.vars = w.vars ∧ w.heap <+: r.2.heap ∧
      ∀ a ∈ funAttrs scan, FunStored w.heap a (vals a) r.2.heap (o a)) := by
  obtain ⟨P, g⟩ := fguarded_reachable p
  generalize FunWorld.init.exec p = w at *
  intro w1 r
  have hr : r = (FStmt.newSensor scan args).run w := rfl
  have hall : ((funAttrs scan).all fun a => ((args a).eval w.vars).isSome) = true := by
    rw [List.all_eq_true]
    intro a ha
    rw [hv a ha]; rfl
  have hon := ctor_vals_on g args
  have hval : ∀ a ∈ funAttrs scan, ((args a).eval w.vars).getD .none = vals a := fun a ha => by rw [hv a ha]; rfl
  simp only [FStmt.run, if_pos hall] at hr
  have hacc : (∃ x, setAll w.heap (fun a => ((args a).eval w.vars).getD .none) (funAttrs scan) = .ok x) ↔
      ∀ a ∈ funAttrs scan, FunAccepted w.heap a (vals a) := by
    rw [setAll_ok_iff g.part (fun a r hr => (hon a r hr).1)]
    exact forall₂_congr fun a ha => by rw [hval a ha]
  rw [← hacc]
  cases hs : setAll w.heap (fun a => ((args a).eval w.vars).getD .none) (funAttrs scan) with
  | error x =>
    simp only [hs] at hr
    rw [hr, setAll_err hs]
    exact ⟨⟨(nomatch ·), fun ⟨y, h⟩ => nomatch h⟩, fun _ => rfl, (nomatch ·)⟩
  | ok y =>
    obtain ⟨h', o⟩ := y
    simp only [hs] at hr
    rw [hr]
    refine ⟨⟨fun _ => ⟨_, rfl⟩, fun _ => rfl⟩, fun h => absurd rfl h, fun _ => ⟨_, rfl, rfl, setAll_prefix hs, ?_⟩⟩
    intro a ha
    have := setAll_stored g.part hon hs a ha
    rwa [hval a ha] at this

/-- A sensor with a peak, a barrier and a rise function. -/
example : (FunWorld.init.exec (funDemo.take 3)).vars = [.ref 0, .ref 1, .ref 2] ∧
    ∀ a, FunAccepted (FunWorld.init.exec (funDemo.take 3)).heap a (match a with | .peaks => .ref 0 | .rise => .ref 2 | .barriers => .ref 1) := by
  rw [funDemo_start]
  refine ⟨rfl, fun a => ?_⟩
  cases a with
  | peaks => exact Or.inr (Or.inl ⟨0, _, rfl, rfl, by simp⟩)
  | rise => exact Or.inr ⟨2, _, rfl, rfl, by simp⟩
  | barriers => exact Or.inl ⟨1, _, rfl, rfl, by simp⟩

/-- Each sensor has its own peak functions: nothing a program does with other objects and sensors changes them. -/
theorem C85_peaks : OwnFunctions .peaks := by
  intro p q s x hg hq hx
  obtain ⟨P, g, _⟩ := (fguarded_init (fun s' b => s' = s ∧ b = .peaks)).exec p (by
    intro c hc w
    cases c with
    | prim p => trivial
    | newSensor scan args => rintro a _ ⟨_, rfl⟩ v _; exact Or.inl rfl
    | set s' b e => rintro ⟨_, rfl⟩ v _; exact Or.inl rfl
    | get s' b => rintro ⟨rfl, rfl⟩; exact hg _ (List.mem_append_left _ hc) rfl)
  rw [fexec_append]
  obtain ⟨x', hx', _, hs⟩ := g.keeps q (fun c hc => hg c (List.mem_append_right _ hc)) hq hx
  exact ⟨x', hx', hs⟩

/-- The peak that was passed to the sensor is changed, a second sensor gets it and its peaks are read and adjusted. -/
example : ∃ (x : Bool × FunObj) (q : List FStmt), q = [.prim (.store 0 0 (.num 5)), .newSensor false (fun _ => .var 0), .get 1 .peaks,
      .prim (.store 3 0 (.var 0)), .set 0 .rise .none] ∧ (∀ c ∈ funDemo ++ q, c ≠ .get 0 .peaks) ∧
    (∀ c ∈ q, ∀ e, c ≠ .set 0 .peaks e) ∧ (FunWorld.init.exec funDemo).sensors[0]? = some x ∧ x.2 .peaks = .ref 6 ∧
    (FunWorld.init.exec (funDemo ++ q)).heap[0]? = some ⟨.peak, [.num 5]⟩ := by
  obtain ⟨h, o, e, _, _, _, h6, _⟩ := funDemo_state
  refine ⟨(true, o), _, rfl, ?_, ?_, by rw [e]; rfl, h6, rfl⟩
  · rintro c hc rfl
    simp [funDemo] at hc
  · rintro c hc e' rfl
    simp at hc

/-- From the moment a peak configuration, or one barrier function for both barriers, is passed to a setter or constructor, no
program changes it without the getter or setter, whatever was done before. -/
theorem C85_isolated_partial (p q : List FStmt) (c : FStmt) (s : ℕ) (a : FunAttr) (v : OVal)
    (hp : Passes (FunWorld.init.exec p) c s a v) (hok : (c.run (FunWorld.init.exec p)).1 = .ok ())
    (hc : a = .peaks ∨ (a = .barriers ∧ HasClass (FunWorld.init.exec p).heap [.barrier] v))
    (hq : ∀ d ∈ q, d ≠ .get s a ∧ ∀ e, d ≠ .set s a e) :
    let w := FunWorld.init.exec (p ++ [c])
    let w' := FunWorld.init.exec (p ++ [c] ++ q)
    ∃ x x', w.sensors[s]? = some x ∧ w'.sensors[s]? = some x' ∧ Same w.heap (x.2 a) w'.heap (x'.2 a) := by
  obtain ⟨P, g⟩ := fguarded_reachable p
  have h1 : FunWorld.init.exec (p ++ [c]) = (c.run (FunWorld.init.exec p)).2 := by rw [fexec_append]; rfl
  intro w w'
  have hw : w = (c.run (FunWorld.init.exec p)).2 := h1
  have hw' : w' = w.exec q := by
    show FunWorld.init.exec (p ++ [c] ++ q) = _
    rw [fexec_append]
  obtain ⟨⟨P1, g1⟩, x, hx⟩ := g.pass hp hc hok
  rw [← hw] at g1 hx
  obtain ⟨x', hx', _, hs⟩ := g1.keeps q (fun d hd => (hq d hd).1) (fun d hd => (hq d hd).2) hx
  rw [hw']
  exact ⟨x, x', hx, hx', hs⟩

/-- The constructor of the sensor gets one barrier function, which the program changes afterwards. -/
example : ∃ c, funDemo = funDemo.take 3 ++ [c] ∧ Passes (FunWorld.init.exec (funDemo.take 3)) c 0 .barriers (.ref 1) ∧
    (c.run (FunWorld.init.exec (funDemo.take 3))).1 = .ok () ∧ HasClass (FunWorld.init.exec (funDemo.take 3)).heap [.barrier] (.ref 1) ∧
    ∀ d ∈ [FStmt.prim (.store 1 0 (.num 9))], d ≠ .get 0 .barriers ∧ ∀ e, d ≠ .set 0 .barriers e := by
  refine ⟨_, rfl, Or.inr ⟨true, _, rfl, rfl, by simp [funAttrs], rfl⟩, rfl, ⟨1, _, rfl, rfl, by simp⟩, ?_⟩
  intro d hd
  rw [List.mem_singleton.1 hd]
  exact ⟨(nomatch ·), fun _ => (nomatch ·)⟩

/-- One barrier function that is passed for both barriers becomes two functions that share nothing. -/
theorem C85_barriers_separate (p : List FStmt) (c : FStmt) (s : ℕ) (v : OVal)
    (hp : Passes (FunWorld.init.exec p) c s .barriers v) (hok : (c.run (FunWorld.init.exec p)).1 = .ok ())
    (hc : HasClass (FunWorld.init.exec p).heap [.barrier] v) :
    let w := FunWorld.init.exec p
    let w' := (c.run w).2
    ∃ k x r b1 b2, w'.sensors[s]? = some (k, x) ∧ x .barriers = .ref r ∧ w'.heap[r]? = some ⟨.list, [b1, b2]⟩ ∧
      Same w.heap v w'.heap b1 ∧ Same w.heap v w'.heap b2 ∧ Separate w'.heap b1 b2 := by
  obtain ⟨P, g⟩ := fguarded_reachable p
  generalize FunWorld.init.exec p = w at *
  -- the setter
  have key : ∀ (h : OHeap) (h' : OHeap) (v' : OVal), (∃ P, Part h P) → HasClass h [.barrier] v → (∀ r, v = .ref r → r < h.length) →
      FunAttr.store h .barriers v = .ok (h', v') →
      ∃ r b1 b2, v' = .ref r ∧ h'[r]? = some ⟨.list, [b1, b2]⟩ ∧ Same h v h' b1 ∧ Same h v h' b2 ∧ Separate h' b1 b2 := by
    rintro h h' v' ⟨Q, hQ⟩ hc hv hs
    cases store_case hs with
    | @oneBarrier r fs hr =>
      have := deepcopies_same hQ (vs := [.ref r, .ref r]) (by simpa using hv)
        (List.prefix_append _ [⟨.list, (deepcopies h [.ref r, .ref r]).2⟩])
      refine ⟨_, (deepcopy h (.ref r)).2, (deepcopy (deepcopy h (.ref r)).1 (.ref r)).2, rfl, ?_, ?_, ?_, ?_⟩
      · rw [List.getElem?_concat_length]
        rfl
      · cases this with
        | cons h1 h2 => exact h1
      · cases this with
        | cons h1 h2 =>
          cases h2 with
          | cons h3 h4 => exact h3
      · intro q h1
        exact copies_separate hQ hv rfl (List.prefix_append _ _) q h1
    | pair hr hx hy =>
      obtain ⟨r', o, e, ho, hcl⟩ := hc
      cases e
      rw [hr] at ho
      cases ho
      simp at hcl
  intro w1 w'
  rcases pass_run hp hok with ⟨e, scan, o, h', v', rfl, he, ho, hs, hr⟩ | ⟨scan, args, h', o, rfl, rfl, ha, he, hs, hr⟩
  · have hr : w' = _ := hr
    obtain ⟨r, b1, b2, e1, e2, e3, e4, e5⟩ := key w.heap h' v' ⟨P, g.part⟩ hc (fun r hr => (name_off g he r hr).1) hs
    rw [hr]
    exact ⟨scan, _, r, b1, b2, List.getElem?_set_self (List.getElem?_eq_some_iff.1 ho).1, by rw [if_pos rfl]; exact e1, e2, e3, e4, e5⟩
  · have hr : w' = _ := hr
    rw [hr]
    cases scan with
    | false => simp [funAttrs] at ha
    | true =>
      have hs' : setAll w.heap (fun a => ((args a).eval w.vars).getD .none) [.peaks, .rise, .barriers] = .ok (h', o) := hs
      have hon := ctor_vals_on g args
      obtain ⟨h1, v1, o1, s1, t1, rfl⟩ := setAll_cons hs'
      obtain ⟨P1, p1, g1, _⟩ := funStore_part g.part (c := False) (fun r hr => (hon .peaks r hr).1) (fun _ => hon .peaks) s1
      obtain ⟨h2, v2, o2, s2, t2, rfl⟩ := setAll_cons t1
      obtain ⟨P2, p2, g2, _⟩ := funStore_part p1 (c := False) (fun r hr => ((hon .rise).grown (g1 True) r hr).1)
        (fun _ => (hon .rise).grown (g1 True)) s2
      obtain ⟨h3, v3, o3, s3, t3, rfl⟩ := setAll_cons t2
      cases t3
      have hpre : w.heap <+: h2 := (funStore_prefix s1).trans (funStore_prefix s2)
      have hb : ∀ r, v = .ref r → r < w.heap.length := fun r hr => (name_off g he r hr).1
      simp only [he, Option.getD_some] at s3
      obtain ⟨r, b1, b2, e1, e2, e3, e4, e5⟩ := key h2 h' v3 ⟨P2, p2⟩ ((hasClass_prefix hpre hb).2 hc)
        (fun r hr => lt_of_lt_of_le (hb r hr) hpre.length_le) s3
      refine ⟨true, _, r, b1, b2, List.getElem?_concat_length, ?_, e2, e3.restrict g.part hpre hb, e4.restrict g.part hpre hb, e5⟩
      exact e1

/-- The barrier function is set again. -/
example : Passes (FunWorld.init.exec funDemo) (.set 0 .barriers (.var 1)) 0 .barriers (.ref 1) ∧
    ((FStmt.set 0 .barriers (.var 1)).run (FunWorld.init.exec funDemo)).1 = .ok () ∧
    HasClass (FunWorld.init.exec funDemo).heap [.barrier] (.ref 1) := by
  refine ⟨Or.inl ⟨_, rfl, rfl⟩, rfl, ⟨1, _, rfl, rfl, by simp⟩⟩

/-- If the two barrier functions share nothing, adjusting the first one through the getter adjusts it in the sensor and leaves the
second one as it is. -/
theorem C85_barriers_adjust (p : List FStmt) (s r i j k : ℕ) (y : ℝ) (o : FunObj) (b : OObj)
    (ho : (FunWorld.init.exec p).sensors[s]? = some (true, o)) (hr : o .barriers = .ref r)
    (hl : (FunWorld.init.exec p).heap[r]? = some ⟨.list, [.ref i, .ref j]⟩)
    (hsep : Separate (FunWorld.init.exec p).heap (.ref i) (.ref j)) (hb : (FunWorld.init.exec p).heap[i]? = some b)
    (hc : b.cls = .barrier) (hk : k < b.fields.length) :
    let w := FunWorld.init.exec p
    let w' := w.exec [.get s .barriers, .prim (.load w.vars.length 0), .prim (.store (w.vars.length + 1) k (.num y))]
    w'.sensors = w.sensors ∧ (r ≠ i → w'.heap[r]? = w.heap[r]?) ∧ w'.heap[i]? = some ⟨.barrier, b.fields.set k (.num y)⟩ ∧
      Same w.heap (.ref j) w'.heap (.ref j) := by
  obtain ⟨P, g⟩ := fguarded_reachable p
  generalize FunWorld.init.exec p = w at *
  intro w1 w'
  have f1 : Frame.obj ⟨w.heap, w.vars ++ [.ref r], []⟩ w.vars.length = some (r, ⟨.list, [.ref i, .ref j]⟩) := by
    simp [Frame.obj, hl]
  have f2 : Frame.obj ⟨w.heap, w.vars ++ [.ref r] ++ [.ref i], []⟩ (w.vars.length + 1) = some (i, b) := by
    simp [Frame.obj, hb]
  have hm : FunAttr.barriers ∈ funAttrs true := by simp [funAttrs]
  have hg : b.cls ≠ .generator := by rw [hc]; simp
  have hw' : w' = ⟨w.heap.set i ⟨b.cls, b.fields.set k (.num y)⟩, w.vars ++ [.ref r] ++ [.ref i], w.sensors⟩ := by
    show FunWorld.exec w [.get s .barriers, .prim (.load w.vars.length 0), .prim (.store (w.vars.length + 1) k (.num y))] = _
    rw [fexec_cons]
    simp only [FStmt.run, ho, if_pos hm, hr]
    rw [fexec_cons]
    simp only [FStmt.run, Prim.step, f1]
    rw [if_neg (show OCls.list ≠ .generator by simp)]
    simp only [List.getElem?_cons_zero]
    rw [fexec_cons]
    simp only [FStmt.run, Prim.step, f2, OExpr.eval, if_neg hg, if_pos hk]
    rfl
  rw [hw']
  have hi : i < w.heap.length := (List.getElem?_eq_some_iff.1 hb).1
  refine ⟨rfl, fun hne => List.getElem?_set_ne (Ne.symm hne), ?_, same_of_unreached ?_ ?_⟩
  · show (w.heap.set i _)[i]? = _
    rw [List.getElem?_set_self hi, hc]
  · intro q hq
    refine (leadsTo_on g.part.none (List.prefix_refl _) (b := False) (v := .ref j) ?_ hq).1
    rintro r' ⟨⟩
    exact ⟨(g.part.closed r _ j hl (by simp)).1, Iff.rfl⟩
  · intro q hq
    refine List.getElem?_set_ne ?_
    rintro rfl
    exact hsep _ (.here _) hq

/-- The barrier functions of the sensor above. -/
example : ∃ o, (FunWorld.init.exec funDemo).sensors[0]? = some (true, o) ∧ o .barriers = .ref 28 ∧
    (FunWorld.init.exec funDemo).heap[28]? = some ⟨.list, [.ref 8, .ref 15]⟩ ∧
    Separate (FunWorld.init.exec funDemo).heap (.ref 8) (.ref 15) ∧
    (FunWorld.init.exec funDemo).heap[8]? = some ⟨.barrier, [.num 2]⟩ := by
  obtain ⟨k, x, r, b1, b2, e1, e2, e3, _, _, e4⟩ := C85_barriers_separate (funDemo.take 3) funDemo[3] 0 (.ref 1)
    (Or.inr ⟨true, _, rfl, rfl, by simp [funAttrs], rfl⟩) rfl ⟨1, _, rfl, rfl, by simp⟩
  have hd : (FStmt.run (FunWorld.init.exec (funDemo.take 3)) funDemo[3]).2 = FunWorld.init.exec funDemo := rfl
  rw [hd] at e1 e3 e4
  obtain ⟨h, o, e, _, _, _, _, _, _, h9, h10, h11⟩ := funDemo_state
  rw [e] at e1 e3 e4 ⊢
  cases e1
  rw [h9] at e2
  cases e2
  have e3 : h[28]? = _ := e3
  rw [h10] at e3
  cases e3
  exact ⟨x, rfl, h9, h10, e4, h11⟩

/-- A getter returns the configuration itself: what is adjusted through it is adjusted in the sensor. -/
theorem C85_adjust (w : FunWorld) (s : ℕ) (a : FunAttr) (scan : Bool) (o : FunObj) (r k : ℕ) (y : ℝ) (b : OObj)
    (ho : w.sensors[s]? = some (scan, o)) (ha : a ∈ funAttrs scan) (hr : o a = .ref r) (hb : w.heap[r]? = some b)
    (hc : b.cls ≠ .generator) (hk : k < b.fields.length) :
    let w' := w.exec [.get s a, .prim (.store w.vars.length k (.num y))]
    w'.sensors = w.sensors ∧ w'.heap[r]? = some ⟨b.cls, b.fields.set k (.num y)⟩ ∧ ∀ q, q ≠ r → w'.heap[q]? = w.heap[q]? := by
  intro w'
  have hf : Frame.obj ⟨w.heap, w.vars ++ [.ref r], []⟩ w.vars.length = some (r, b) := by
    simp [Frame.obj, hb]
  have hw' : w' = ⟨w.heap.set r ⟨b.cls, b.fields.set k (.num y)⟩, w.vars ++ [.ref r], w.sensors⟩ := by
    show FunWorld.exec w _ = _
    rw [fexec_cons]
    simp only [FStmt.run, ho, if_pos ha, hr]
    rw [fexec_cons]
    simp only [FStmt.run, Prim.step, hf, OExpr.eval, if_neg hc, if_pos hk]
    rfl
  rw [hw']
  exact ⟨rfl, List.getElem?_set_self (List.getElem?_eq_some_iff.1 hb).1, fun q hq => List.getElem?_set_ne (Ne.symm hq)⟩

/-- The rise function of the sensor above. -/
example : ∃ o, (FunWorld.init.exec funDemo).sensors[0]? = some (true, o) ∧ .rise ∈ funAttrs true ∧ o .rise = .ref 2 ∧
    (FunWorld.init.exec funDemo).heap[2]? = some ⟨.rise, [.num 3]⟩ := ⟨_, rfl, by simp [funAttrs], rfl, rfl⟩

/-- A rise function, and a sequence of two barrier functions, is not copied: the sensor holds the object of the program. -/
theorem C85_shared_actual (p : List FStmt) (c : FStmt) (s : ℕ) (a : FunAttr) (v : OVal)
    (hp : Passes (FunWorld.init.exec p) c s a v) (hok : (c.run (FunWorld.init.exec p)).1 = .ok ())
    (hc : a = .rise ∨ (a = .barriers ∧ ¬ HasClass (FunWorld.init.exec p).heap [.barrier] v)) :
    ∃ x, (c.run (FunWorld.init.exec p)).2.sensors[s]? = some x ∧ x.2 a = v := by
  obtain ⟨P, g⟩ := fguarded_reachable p
  generalize FunWorld.init.exec p = w at *
  have key : ∀ (h h' : OHeap) (v' : OVal), w.heap <+: h → (∀ r, v = .ref r → r < w.heap.length) → a.store h v = .ok (h', v') →
      v' = v := by
    intro h h' v' hpre hv hs
    cases store_case hs with
    | noRise => rfl
    | aRise hr => rfl
    | pair hr hx hy => rfl
    | oneBarrier hr =>
      rcases hc with hc | ⟨_, hc⟩
      · exact nomatch hc
      · exact absurd ((hasClass_prefix hpre hv).1 ⟨_, _, rfl, hr, by simp⟩) hc
    | _ => rcases hc with hc | ⟨hc, _⟩ <;> exact nomatch hc
  rcases pass_run hp hok with ⟨e, scan, o, h', v', rfl, he, ho, hs, hr⟩ | ⟨scan, args, h', o, rfl, rfl, ha, he, hs, hr⟩
  · rw [hr]
    refine ⟨_, List.getElem?_set_self (List.getElem?_eq_some_iff.1 ho).1, ?_⟩
    simp only [if_true]
    exact key _ _ _ (List.prefix_refl _) (fun r hr => (name_off g he r hr).1) hs
  · rw [hr]
    refine ⟨_, List.getElem?_concat_length, ?_⟩
    -- one attribute after the other
    have go : ∀ (l : List FunAttr) (h h' : OHeap) (o : FunObj), w.heap <+: h → a ∈ l →
        setAll h (fun a => ((args a).eval w.vars).getD .none) l = .ok (h', o) → o a = v := by
      intro l
      induction l with
      | nil => intro _ _ _ _ ha; exact absurd ha List.not_mem_nil
      | cons b l ih =>
        intro h h' o hpre ha hs
        obtain ⟨h1, v1, o1, s1, t1, rfl⟩ := setAll_cons hs
        by_cases hab : a = b
        · subst hab
          simp only [if_true]
          simp only [he, Option.getD_some] at s1
          exact key _ _ _ hpre (fun r hr => (name_off g he r hr).1) s1
        · simp only [if_neg hab]
          exact ih _ _ _ (hpre.trans (funStore_prefix s1)) ((List.mem_cons.1 ha).resolve_left hab) t1
    exact go _ _ _ _ (List.prefix_refl _) ha hs

/-- Two sensors get the same rise function. -/
example : Passes (FunWorld.init.exec funDemo) (.newSensor true fun a => match a with | .peaks => .none | .rise => .var 2 | .barriers => .var 1)
      1 .rise (.ref 2) ∧
    (FStmt.run (FunWorld.init.exec funDemo) (.newSensor true fun a => match a with | .peaks => .none | .rise => .var 2 | .barriers => .var 1)).1
      = .ok () ∧ ∃ x, (FunWorld.init.exec funDemo).sensors[0]? = some x ∧ x.2 .rise = .ref 2 :=
  ⟨Or.inr ⟨true, _, rfl, rfl, by simp [funAttrs], rfl⟩, rfl, _, rfl, rfl⟩

/-- A sensor does not have its own rise function: changing the object that was passed to it changes the sensor. -/
theorem C85_rise_refuted : ¬ OwnFunctions .rise := by
  intro h
  obtain ⟨hp, o, e, _, _, h2, _, _, h7, _⟩ := funDemo_state
  obtain ⟨x', hx', B, hB, hm⟩ := h funDemo [.prim (.store 2 0 (.num 4))] 0 (true, o)
    (by rintro c hc rfl; simp [funDemo] at hc) (by rintro c hc e' rfl; simp at hc) (by rw [e]; rfl)
  have h3 : (FunWorld.init.exec (funDemo ++ [.prim (.store 2 0 (.num 4))])).heap[2]? = some ⟨.rise, [.num 4]⟩ := rfl
  have h4 : (FunWorld.init.exec (funDemo ++ [.prim (.store 2 0 (.num 4))])).sensors = (FunWorld.init.exec funDemo).sensors := rfl
  rw [h4, e] at hx'
  cases hx'
  simp only [h7] at hm
  cases hm with
  | ref hb =>
    obtain ⟨b, b', hb1, hb2, _, hf⟩ := hB.obj _ _ hb
    rw [h3] at hb2
    rw [e] at hb1
    have hb1 : hp[2]? = some b := hb1
    rw [h2] at hb1
    cases hb1
    cases hb2
    cases hf with
    | cons h1 _ =>
      generalize hy : (OVal.num 4) = z at h1
      cases h1
      simp only [OVal.num.injEq] at hy
      norm_num at hy

/-- A sensor does not have its own barrier functions if a sequence of two was passed: replacing an entry of the list changes the
sensor. -/
theorem C85_barriers_refuted : ¬ OwnFunctions .barriers := by
  intro h
  obtain ⟨x', hx', B, hB, hm⟩ := h pairDemo [.prim (.store 1 0 (.num 4))] 0 _
    (by rintro c hc rfl; simp [pairDemo] at hc) (by rintro c hc e' rfl; simp at hc) rfl
  have h3 : (FunWorld.init.exec (pairDemo ++ [.prim (.store 1 0 (.num 4))])).heap[1]? = some ⟨.list, [.num 4, .ref 0]⟩ := rfl
  have h2 : (FunWorld.init.exec pairDemo).heap[1]? = some ⟨.list, [.ref 0, .ref 0]⟩ := rfl
  cases hx'
  have hm : ValMatch B (.ref 1) (.ref 1) := hm
  cases hm with
  | ref hb =>
    obtain ⟨b, b', hb1, hb2, _, hf⟩ := hB.obj _ _ hb
    rw [h3] at hb2
    rw [h2] at hb1
    cases hb1
    cases hb2
    cases hf with
    | cons h1 _ => cases h1

/-- The check of the setter does not protect the sensor: without getters and setters it can come to hold a list that is no pair of
barrier functions. -/
theorem C85_checked_refuted : ¬ ∀ (p : List FStmt) (s : ℕ) (o : FunObj), (∀ c ∈ p, c ≠ .get s .barriers) →
    (FunWorld.init.exec p).sensors[s]? = some (true, o) → FunAccepted (FunWorld.init.exec p).heap .barriers (o .barriers) := by
  intro h
  have := h (pairDemo ++ [.prim (.store 1 0 (.num 4))]) 0 _ (by rintro c hc rfl; simp [pairDemo] at hc) rfl
  have h3 : (FunWorld.init.exec (pairDemo ++ [.prim (.store 1 0 (.num 4))])).heap[1]? = some ⟨.list, [.num 4, .ref 0]⟩ := rfl
  rcases this with ⟨r, b, er, hr, hc⟩ | ⟨r, x, y, er, hr, hx, _⟩
  · have er : OVal.ref 1 = .ref r := er
    cases er
    rw [h3] at hr
    cases hr
    simp at hc
  · have er : OVal.ref 1 = .ref r := er
    cases er
    rw [h3] at hr
    cases hr
    obtain ⟨_, _, e, _⟩ := hx
    exact nomatch e

end SimCATS
