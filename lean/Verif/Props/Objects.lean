import Verif.Lemmas.Objects
import Mathlib.Tactic.NormNum
import Mathlib.Algebra.Order.Floor.Ring

/-! Properties C72 to C75: array attributes of sensors. -/

namespace SimCATS

open Spec

/-! ### C72 -/

/-- The evaluated argument has the value `v`. -/
def HasVal (heap : List NpArray) : ObjArg → ArgVal → Prop
  | .none, .none => True
  | .number b x, .number b' x' => b = b' ∧ x = x'
  | .array r, .array a => heap[r]? = some a
  | .other, .other => True
  | _, _ => False

theorem eval_val (w : World) (e : ArgExpr) (v : ArgVal) (h : argVal w e = some v) : ∃ x, w.eval e = .ok x ∧ HasVal w.heap x v := by
  cases e with
  | none => cases h; exact ⟨_, rfl, trivial⟩
  | number b x => cases h; exact ⟨_, rfl, rfl, rfl⟩
  | other => cases h; exact ⟨_, rfl, trivial⟩
  | root p =>
    simp only [argVal, World.value, Option.map_eq_some_iff, Option.bind_eq_some_iff] at h
    obtain ⟨a, ⟨r, hr, ha⟩, rfl⟩ := h
    refine ⟨.array r, ?_, ha⟩
    simp [World.eval, hr]

theorem HasVal.place {heap : List NpArray} {x : ObjArg} {v : ArgVal} (h : HasVal heap x v) (st : Stored) :
    HasVal (st.place heap).1 x v := by
  cases x <;> cases v <;> simp only [HasVal] at h ⊢
  · exact h
  · exact place_get _ _ _ _ h

/-- The setters store the documented configuration or raise `ValueError`. -/
theorem setter_documented (k : AttrKind) (heap : List NpArray) (x : ObjArg) (v : ArgVal) (h : HasVal heap x v) :
    (∀ a, documented k v = some a → ∃ st, k.setter heap x = .ok st ∧ (st.place heap).1[(st.place heap).2]? = some a) ∧
    (documented k v = none → k.setter heap x = .error .valueError) := by
  cases k <;> cases x <;> cases v <;> simp only [HasVal] at h <;>
    simp only [AttrKind.setter, setGenericAlpha, setScanAlpha, setScanSensorGate, setScanOffset, documented, reduceCtorEq, false_imp_iff,
      implies_true, Option.some.injEq, forall_eq', and_true]
  case genericDot.array.array r a | genericGate.array.array r a =>
    rw [h]
    by_cases hs : a.shape.prod = 2
    · have hs' : a.size = 2 := hs
      simp only [if_pos hs, if_pos hs', Option.some.injEq, forall_eq', reduceCtorEq, false_imp_iff, and_true]
      exact ⟨_, rfl, by simp [Stored.place]⟩
    · have hs' : ¬ a.size = 2 := hs
      simp [if_neg hs, if_neg hs']
  case scanDot.array.array r a | scanGate.array.array r a =>
    rw [h]
    by_cases hs : a.shape = [2]
    · simp only [if_pos hs, Option.some.injEq, forall_eq', reduceCtorEq, false_imp_iff, and_true]
      exact ⟨_, rfl, by simp [Stored.place]⟩
    · by_cases h3 : a.shape = [3, 2]
      · simp only [if_neg hs, if_pos h3, Option.some.injEq, forall_eq', reduceCtorEq, false_imp_iff, and_true]
        exact ⟨_, rfl, h⟩
      · simp [if_neg hs, if_neg h3]
  case scanSensorGate.array.array r a =>
    rw [h]
    by_cases hs : a.shape = [3, 2]
    · simp only [if_pos hs, Option.some.injEq, forall_eq', reduceCtorEq, false_imp_iff, and_true]
      exact ⟨_, rfl, h⟩
    · simp [if_neg hs]
  case scanOffset.array.array r a =>
    rw [h]
    by_cases hs : a.shape = [3]
    · simp only [if_pos hs, Option.some.injEq, forall_eq', reduceCtorEq, false_imp_iff, and_true]
      exact ⟨_, rfl, h⟩
    · simp [if_neg hs]
  case scanDot.none.none | scanGate.none.none => exact ⟨_, rfl, by simp [Stored.place]⟩
  case scanOffset.number.number =>
    obtain ⟨rfl, rfl⟩ := h
    exact ⟨_, rfl, by simp [Stored.place]⟩

/-- C72 (setters): in every state a program can reach, setting an attribute of a sensor stores the documented configuration and leaves all
other attributes and arrays as they were, or it raises `ValueError` and changes nothing. -/
theorem C72_set (l : List Stmt) (i : ℕ) (k : AttrKind) (r : ℕ) (e : ArgExpr) (v : ArgVal)
    (hi : (World.init.exec l).attrs[i]? = some (k, r)) (hv : argVal (World.init.exec l) e = some v) :
    match documented k v with
    | some a => ∃ w', (Stmt.set i e).run (World.init.exec l) = (.ok (), w') ∧ w'.value (.attr i) = some a ∧
        ∀ p, p ≠ .attr i → ∀ b, (World.init.exec l).value p = some b → w'.value p = some b
    | none => (Stmt.set i e).run (World.init.exec l) = (.error .valueError, World.init.exec l) := by
  generalize World.init.exec l = w at hi hv ⊢
  obtain ⟨x, hx, hval⟩ := eval_val w e v hv
  obtain ⟨h1, h2⟩ := setter_documented k w.heap x v hval
  have hlt := (List.getElem?_eq_some_iff.1 hi).1
  cases hd : documented k v with
  | none =>
    simp only [Stmt.run, hi, hx, h2 hd]
  | some a =>
    obtain ⟨st, hst, hget⟩ := h1 a hd
    refine ⟨⟨(st.place w.heap).1, w.vars, w.attrs.set i (k, (st.place w.heap).2)⟩, by simp only [Stmt.run, hi, hx, hst], ?_,
      fun p hp b hb => ?_⟩
    · simp [World.value, World.ref, List.getElem?_set_self hlt, hget]
    · simp only [World.value, Option.bind_eq_some_iff] at hb ⊢
      obtain ⟨r', hr', hb⟩ := hb
      refine ⟨r', ?_, place_get _ _ _ _ hb⟩
      cases p with
      | var j => exact hr'
      | attr j =>
        have hj : i ≠ j := fun h => hp (by rw [h])
        simpa only [World.ref, List.getElem?_set_ne hj] using hr'

theorem create_documented : ∀ {l : List (AttrKind × ObjArg)} {vs : List ArgVal} {w : World},
    List.Forall₂ (fun p v => HasVal w.heap p.2 v) l vs →
    (∀ as, List.Forall₂ (fun (q : AttrKind × ArgVal) a => documented q.1 q.2 = some a) ((l.map (·.1)).zip vs) as →
      ∃ w', w.create l = .ok w' ∧ (∀ (j : ℕ) a, as[j]? = some a → w'.value (.attr (w.attrs.length + j)) = some a) ∧
        ∀ p b, w.value p = some b → w'.value p = some b) ∧
    ((∃ q ∈ (l.map (·.1)).zip vs, documented q.1 q.2 = none) → w.create l = .error .valueError) := by
  intro l
  induction l with
  | nil =>
    intro vs w h
    cases h
    refine ⟨fun as ha => ?_, by simp⟩
    cases ha
    exact ⟨w, rfl, by simp, fun p b hb => hb⟩
  | cons p l ih =>
    intro vs w h
    obtain ⟨k, x⟩ := p
    cases h with
    | @cons _ v _ vs hx hl =>
      obtain ⟨h1, h2⟩ := setter_documented k w.heap x v hx
      have hpush : ∀ st : Stored, List.Forall₂ (fun p v => HasVal (w.push k st).heap p.2 v) l vs := by
        intro st
        exact hl.imp fun p v hp => HasVal.place hp st
      constructor
      · intro as ha
        simp only [List.map_cons, List.zip_cons_cons] at ha
        cases ha with
        | @cons _ a _ as hka has =>
          obtain ⟨st, hst, hget⟩ := h1 a hka
          obtain ⟨w', hw', hnew, hold⟩ := (ih (hpush st)).1 as has
          refine ⟨w', by simp only [World.create, hst]; exact hw', fun j b hj => ?_, fun p b hb => ?_⟩
          · cases j with
            | zero =>
              simp only [List.getElem?_cons_zero, Option.some.injEq] at hj
              subst hj
              refine hold _ _ ?_
              simp [World.value, World.ref, World.push, hget]
            | succ j =>
              have := hnew j b (by simpa using hj)
              simp only [World.push, List.length_append, List.length_singleton] at this
              rw [show w.attrs.length + (j + 1) = w.attrs.length + 1 + j by omega]
              exact this
          · refine hold p b ?_
            simp only [World.value, Option.bind_eq_some_iff] at hb ⊢
            obtain ⟨r, hr, hb⟩ := hb
            refine ⟨r, ?_, place_get _ _ _ _ hb⟩
            cases p with
            | var j => exact hr
            | attr j =>
              simp only [World.ref, World.push, Option.map_eq_some_iff] at hr ⊢
              obtain ⟨q, hq, rfl⟩ := hr
              exact ⟨q, (List.getElem?_append_left (List.getElem?_eq_some_iff.1 hq).1).trans hq, rfl⟩
      · rintro ⟨q, hq, hn⟩
        simp only [List.map_cons, List.zip_cons_cons, List.mem_cons] at hq
        cases hd : documented k v with
        | none => simp only [World.create, h2 hd]
        | some a =>
          obtain ⟨st, hst, -⟩ := h1 a hd
          rcases hq with rfl | hq
          · rw [hd] at hn
            cases hn
          · simp only [World.create, hst]
            exact (ih (hpush st)).2 ⟨q, hq, hn⟩

/-- C72 (constructor of `SensorGeneric`): with explicit lever arms the new sensor has the documented configuration, and nothing else changes; or
`ValueError` is raised and there is no new sensor. -/
theorem C72_generic (w : World) (d g : ArgExpr) (vd vg : ArgVal) (hd : argVal w d = some vd) (hg : argVal w g = some vg) :
    (∀ ad ag, documented .genericDot vd = some ad → documented .genericGate vg = some ag →
      ∃ w', (Stmt.newGeneric (some d) (some g)).run w = (.ok (), w') ∧ w'.value (.attr w.attrs.length) = some ad ∧
        w'.value (.attr (w.attrs.length + 1)) = some ag ∧ ∀ p b, w.value p = some b → w'.value p = some b) ∧
    (documented .genericDot vd = none ∨ documented .genericGate vg = none →
      (Stmt.newGeneric (some d) (some g)).run w = (.error .valueError, w)) := by
  obtain ⟨xd, hxd, vxd⟩ := eval_val w d vd hd
  obtain ⟨xg, hxg, vxg⟩ := eval_val w g vg hg
  have key := create_documented (w := w) (l := [(.genericDot, xd), (.genericGate, xg)]) (vs := [vd, vg])
    (.cons vxd (.cons vxg .nil))
  constructor
  · intro ad ag had hag
    obtain ⟨w', hw', hnew, hold⟩ := key.1 [ad, ag] (.cons had (.cons hag .nil))
    exact ⟨w', by simp [Stmt.run, World.construct, World.ctorArgs, World.ctorArg, hxd, hxg, hw'], hnew 0 ad rfl, hnew 1 ag rfl, hold⟩
  · intro h
    have := key.2 (by
      rcases h with h | h
      · exact ⟨(.genericDot, vd), by simp, h⟩
      · exact ⟨(.genericGate, vg), by simp, h⟩)
    simp [Stmt.run, World.construct, World.ctorArgs, World.ctorArg, hxd, hxg, this]

/-- C72 (constructor of `SensorScanSensorGeneric`): the same for lever arms and offsets. -/
theorem C72_scan (w : World) (d g s o : ArgExpr) (vd vg vs vo : ArgVal) (hd : argVal w d = some vd) (hg : argVal w g = some vg)
    (hs : argVal w s = some vs) (ho : argVal w o = some vo) :
    (∀ ad ag as ao, documented .scanDot vd = some ad → documented .scanGate vg = some ag → documented .scanSensorGate vs = some as →
      documented .scanOffset vo = some ao →
      ∃ w', (Stmt.newScan (some d) (some g) (some s) (some o)).run w = (.ok (), w') ∧ w'.value (.attr w.attrs.length) = some ad ∧
        w'.value (.attr (w.attrs.length + 1)) = some ag ∧ w'.value (.attr (w.attrs.length + 2)) = some as ∧
        w'.value (.attr (w.attrs.length + 3)) = some ao ∧ ∀ p b, w.value p = some b → w'.value p = some b) ∧
    (documented .scanDot vd = none ∨ documented .scanGate vg = none ∨ documented .scanSensorGate vs = none ∨
      documented .scanOffset vo = none → (Stmt.newScan (some d) (some g) (some s) (some o)).run w = (.error .valueError, w)) := by
  obtain ⟨xd, hxd, vxd⟩ := eval_val w d vd hd
  obtain ⟨xg, hxg, vxg⟩ := eval_val w g vg hg
  obtain ⟨xs, hxs, vxs⟩ := eval_val w s vs hs
  obtain ⟨xo, hxo, vxo⟩ := eval_val w o vo ho
  have key := create_documented (w := w) (l := [(.scanDot, xd), (.scanGate, xg), (.scanSensorGate, xs), (.scanOffset, xo)])
    (vs := [vd, vg, vs, vo]) (.cons vxd (.cons vxg (.cons vxs (.cons vxo .nil))))
  constructor
  · intro ad ag as ao had hag has hao
    obtain ⟨w', hw', hnew, hold⟩ := key.1 [ad, ag, as, ao] (.cons had (.cons hag (.cons has (.cons hao .nil))))
    exact ⟨w', by simp [Stmt.run, World.construct, World.ctorArgs, World.ctorArg, hxd, hxg, hxs, hxo, hw'], hnew 0 ad rfl, hnew 1 ag rfl,
      hnew 2 as rfl, hnew 3 ao rfl, hold⟩
  · intro h
    have := key.2 (by
      rcases h with h | h | h | h
      · exact ⟨(.scanDot, vd), by simp, h⟩
      · exact ⟨(.scanGate, vg), by simp, h⟩
      · exact ⟨(.scanSensorGate, vs), by simp, h⟩
      · exact ⟨(.scanOffset, vo), by simp, h⟩)
    simp [Stmt.run, World.construct, World.ctorArgs, World.ctorArg, hxd, hxg, hxs, hxo, this]

/-- C72 (invariant): whatever a program does, the attributes of all sensors keep a shape the sensors can work with: lever arms of size 2 for
`SensorGeneric`; lever arms of shape (3, 2) and offsets of shape (3,) for `SensorScanSensorGeneric`. -/
theorem C72_invariant (l : List Stmt) (i : ℕ) (k : AttrKind) (r : ℕ) (hi : (World.init.exec l).attrs[i]? = some (k, r)) :
    ∃ a, (World.init.exec l).value (.attr i) = some a ∧ a.data.length = a.shape.prod ∧ Fits k a := by
  have hv := Valid.init.exec (l := l)
  obtain ⟨a, ha, hf⟩ := hv.attrs i k r hi
  exact ⟨a, by simp [World.value, World.ref, hi, ha], hv.data r a ha, hf⟩

/-- Non-vacuity of C72: a program that makes an array and a sensor with it, changes the array and the lever arms of the sensor. -/
example : ∃ w, World.init.exec [.alloc ⟨false, [3, 2], [1, 2, 3, 4, 5, 6]⟩, .alloc ⟨false, [2], [7, 8]⟩,
      .newScan (some (.root (.var 1))) none (some (.root (.var 0))) (some (.number false 0.5)), .set 1 (.root (.var 1)),
      .set 2 (.root (.var 1))] = w ∧
    w.value (.attr 0) = some ⟨false, [3, 2], [7, 8, 7, 8, 7, 8]⟩ ∧ w.value (.attr 1) = some ⟨false, [3, 2], [7, 8, 7, 8, 7, 8]⟩ ∧
    w.value (.attr 2) = some ⟨false, [3, 2], [1, 2, 3, 4, 5, 6]⟩ ∧ w.value (.attr 3) = some ⟨false, [3], [0.5, 0.5, 0.5]⟩ := by
  refine ⟨_, rfl, ?_⟩
  simp [World.exec, World.init, defaultArrays, Stmt.run, NpArray.size, World.construct, World.ctorArgs, World.ctorArg, World.eval, World.ref,
    World.create, AttrKind.setter, setScanAlpha, setScanSensorGate, setScanOffset, AttrKind.default, Stored.place, World.value]

/-! ### C73 -/

theorem dotShape_pair (dims : List ℕ) : dotShape (dims ++ [2]) [2] = .ok dims := by simp [dotShape]

/-- Lever arms of another accepted shape give an array with more axes than the scan, or no array. -/
theorem dotShape_other (dims s t : List ℕ) (hs : s.prod = 2) (hne : s ≠ [2]) (h : dotShape (dims ++ [2]) s = .ok t) :
    dims.length < t.length := by
  unfold dotShape at h
  rcases hr : s.reverse with _ | ⟨n, _ | ⟨m, rest⟩⟩
  · rw [List.reverse_eq_nil_iff] at hr
    rw [hr] at hs
    simp at hs
  · have hs' : s = [n] := by
      rw [← List.reverse_reverse s, hr]
      rfl
    rw [hs'] at hs
    simp only [List.prod_cons, List.prod_nil, mul_one] at hs
    exact absurd (by rw [hs', hs]) hne
  · rw [hr] at h
    simp only at h
    split_ifs at h with hc
    cases h
    simp

theorem broadcast_length : ∀ {xs ys zs : List ℕ}, broadcastRev xs ys = .ok zs → zs.length = max xs.length ys.length := by
  intro xs
  induction xs with
  | nil =>
    intro ys zs h
    cases h
    simp
  | cons x xs ih =>
    intro ys zs h
    cases ys with
    | nil =>
      cases h
      simp
    | cons y ys =>
      simp only [broadcastRev] at h
      cases hb : broadcastRev xs ys with
      | error e => rw [hb] at h; simp at h
      | ok ws =>
        rw [hb] at h
        have := ih hb
        simp only at h
        split_ifs at h <;> cases h <;> simp [this]

theorem broadcast_self : ∀ xs : List ℕ, broadcastRev xs xs = .ok xs := by
  intro xs
  induction xs with
  | nil => rfl
  | cons x xs ih => simp [broadcastRev, ih]

/-- C73, the part that holds: among the accepted lever arms exactly those of shape (2,) give potentials with the shape of the scan, for scans
with any number of axes and pixels. -/
theorem C73_partial (dims dot gate : List ℕ) (hd : dot.prod = 2) (hg : gate.prod = 2) :
    potentialShape dims dot gate = .ok dims ↔ dot = [2] ∧ gate = [2] := by
  constructor
  · intro h
    unfold potentialShape at h
    cases h1 : dotShape (dims ++ [2]) dot with
    | error e => rw [h1] at h; simp at h
    | ok a =>
      rw [h1] at h
      simp only at h
      cases h2 : dotShape (dims ++ [2]) gate with
      | error e => rw [h2] at h; simp at h
      | ok b =>
        rw [h2] at h
        simp only [addShape] at h
        cases h3 : broadcastRev a.reverse b.reverse with
        | error e => rw [h3] at h; simp at h
        | ok s =>
          rw [h3] at h
          simp only [Except.ok.injEq] at h
          have hl := broadcast_length h3
          have hs : s.length = dims.length := by rw [← h, List.length_reverse]
          rw [hs, List.length_reverse, List.length_reverse] at hl
          by_contra hc
          rw [not_and_or] at hc
          rcases hc with hc | hc
          · have := dotShape_other dims dot a hd hc h1
            omega
          · have := dotShape_other dims gate b hg hc h2
            omega
  · rintro ⟨rfl, rfl⟩
    simp [potentialShape, dotShape_pair, addShape, broadcast_self]

/-- C73 is refuted: `SensorGeneric` accepts lever arms of shape (2, 1) and (1, 2). With the first, an image of n x n pixels gets a potential of
shape (n, n, n), and an image with different numbers of rows and columns raises `ValueError`; with the second every scan does. -/
theorem C73_refuted : ∃ w, World.init.exec [.alloc ⟨false, [2, 1], [-1, -1]⟩, .alloc ⟨false, [1, 2], [-1, -1]⟩,
      .newGeneric (some (.root (.var 0))) none, .newGeneric (some (.root (.var 1))) none] = w ∧
    ((w.value (.attr 0)).map (·.shape) = some [2, 1] ∧ (w.value (.attr 1)).map (·.shape) = some [2] ∧
      (w.value (.attr 2)).map (·.shape) = some [1, 2]) ∧
    (∀ n, potentialShape [n, n] [2, 1] [2] = .ok [n, n, n]) ∧
    (∀ r c, 2 ≤ r → 2 ≤ c → r ≠ c → potentialShape [r, c] [2, 1] [2] = .error .valueError) ∧
    ∀ dims, potentialShape dims [1, 2] [2] = .error .valueError := by
  refine ⟨_, rfl, ⟨?_, ?_, ?_⟩, fun n => ?_, fun r c hr hc hne => ?_, fun dims => ?_⟩
  · simp [World.exec, World.init, defaultArrays, Stmt.run, NpArray.size, World.construct, World.ctorArgs, World.ctorArg, World.eval, World.ref,
      World.create, AttrKind.setter, setGenericAlpha, AttrKind.default, Stored.place, World.value]
  · simp [World.exec, World.init, defaultArrays, Stmt.run, NpArray.size, World.construct, World.ctorArgs, World.ctorArg, World.eval, World.ref,
      World.create, AttrKind.setter, setGenericAlpha, AttrKind.default, Stored.place, World.value]
  · simp [World.exec, World.init, defaultArrays, Stmt.run, NpArray.size, World.construct, World.ctorArgs, World.ctorArg, World.eval, World.ref,
      World.create, AttrKind.setter, setGenericAlpha, AttrKind.default, Stored.place, World.value]
  · by_cases h1 : n = 1
    · subst h1
      simp [potentialShape, dotShape, addShape, broadcastRev]
    · simp [potentialShape, dotShape, addShape, broadcastRev, Ne.symm h1]
  · have h1 : r ≠ 1 := by omega
    have h2 : c ≠ 1 := by omega
    simp [potentialShape, dotShape, addShape, broadcastRev, h1, h2, Ne.symm hne]
  · simp [potentialShape, dotShape]

/-! ### C74 -/

/-- C74, `SensorGeneric`: in every program the lever arms of a generic sensor change only by statements that set the attribute or write into it by
its name, unless the program has kept a reference to the returned array itself. -/
theorem C74_generic_partial (before after : List Stmt) (i : ℕ) (k : AttrKind) (r : ℕ)
    (hi : (World.init.exec before).attrs[i]? = some (k, r)) (hk : IsGeneric k) (hb : ∀ c ∈ before ++ after, c ≠ .bind i)
    (hc : ∀ c ∈ after, ¬ Changes i c) :
    ((World.init.exec before).exec after).value (.attr i) = (World.init.exec before).value (.attr i) := by
  have hv := Valid.init.exec (l := before)
  have hg : GenericExcl (World.init.exec before) fun j => j ≠ i := by
    refine GenericExcl.exec Valid.init (fun j k' r' hj => ?_) fun c hcb j hj hji => ?_
    · simp [World.init] at hj
    · subst hji
      exact hb c (List.mem_append_left _ hcb) hj
  have he := hg i k r hi hk (fun h => h rfl)
  obtain ⟨a, ha, hf⟩ := hv.attrs i k r hi
  obtain ⟨he', hr⟩ := he.exec hv hc (fun c hc' => hb c (List.mem_append_right _ hc')) (Or.inr ⟨a, ha, fits_size_eq hf hk⟩)
  rw [he'.value, he.value, hr]

/-- Nothing in the program refers to array `r`, a default of the generic sensor. -/
structure NoRoot (w : World) (r : ℕ) : Prop where
  attrs : ∀ (j : ℕ) (k : AttrKind), w.attrs[j]? ≠ some (k, r)
  vars : r ∉ w.vars
  defaults : ∀ k : AttrKind, k.default = some r → IsGeneric k
  lt : r < w.heap.length

theorem NoRoot.eval {w : World} {r : ℕ} (h : NoRoot w r) (e : ArgExpr) : w.eval e ≠ .ok (.array r) := by
  cases e with
  | none => simp [World.eval]
  | number b x => simp [World.eval]
  | other => simp [World.eval]
  | root p =>
    simp only [World.eval]
    cases hp : w.ref p with
    | none => simp
    | some r' =>
      simp only [ne_eq, Except.ok.injEq, ObjArg.array.injEq]
      rintro rfl
      cases p with
      | var j => exact h.vars (List.mem_of_getElem? hp)
      | attr j =>
        simp only [World.ref, Option.map_eq_some_iff] at hp
        obtain ⟨⟨k, r''⟩, hk, rfl⟩ := hp
        exact h.attrs j k hk

theorem NoRoot.stored {w : World} (hv : Valid w) {r : ℕ} (hn : NoRoot w r) (k : AttrKind) (x : ObjArg) (st : Stored)
    (h : k.setter w.heap x = .ok st) (hx : x = .array r → IsGeneric k) :
    (st.place w.heap).2 ≠ r ∧ (st.place w.heap).1[r]? = w.heap[r]? ∧ r < (st.place w.heap).1.length := by
  refine ⟨?_, ?_, lt_of_lt_of_le hn.lt (place_length _ _)⟩
  · rcases setter_cases k w.heap hv.data x st h with ⟨b, rfl, -, -⟩ | ⟨r', b, rfl, rfl, hb, hf, hg⟩
    · exact (Nat.ne_of_lt hn.lt).symm
    · rintro rfl
      exact hg (hx rfl)
  · have := List.getElem?_eq_getElem hn.lt
    rw [place_get _ _ _ _ this, this]

theorem NoRoot.create {r : ℕ} {l : List (AttrKind × ObjArg)} : ∀ {w w' : World}, Valid w → NoRoot w r →
    (∀ p ∈ l, p.2 = .array r → IsGeneric p.1) → w.create l = .ok w' → NoRoot w' r ∧ w'.heap[r]? = w.heap[r]? := by
  induction l with
  | nil =>
    intro w w' hv hn hx h
    cases h
    exact ⟨hn, rfl⟩
  | cons p l ih =>
    intro w w' hv hn hx h
    obtain ⟨k, x⟩ := p
    simp only [World.create] at h
    cases hs : k.setter w.heap x with
    | error e => rw [hs] at h; simp at h
    | ok st =>
      rw [hs] at h
      obtain ⟨h1, h2, h3⟩ := hn.stored hv k x st hs (hx _ List.mem_cons_self)
      have hn' : NoRoot (w.push k st) r := by
        refine ⟨fun j k' hj => ?_, hn.vars, hn.defaults, h3⟩
        rcases getElem?_snoc _ _ _ _ hj with hj | ⟨-, hj⟩
        · exact hn.attrs j k' hj
        · exact h1 (Prod.mk.inj hj).2.symm
      obtain ⟨h4, h5⟩ := ih (hv.push k x st hs) hn' (fun p hp => hx p (List.mem_cons_of_mem _ hp)) h
      exact ⟨h4, h5.trans h2⟩

theorem NoRoot.ctorArgs {w : World} {r : ℕ} (hn : NoRoot w r) {l : List (AttrKind × Option ArgExpr)} :
    ∀ {as}, w.ctorArgs l = .ok as → ∀ p ∈ as, p.2 = .array r → IsGeneric p.1 := by
  induction l with
  | nil =>
    intro as hs
    cases hs
    simp
  | cons q l ih =>
    intro as hs
    obtain ⟨k, e⟩ := q
    simp only [World.ctorArgs] at hs
    cases ha : w.ctorArg k e with
    | error e => rw [ha] at hs; simp at hs
    | ok a =>
      rw [ha] at hs
      cases hl : w.ctorArgs l with
      | error e => rw [hl] at hs; simp at hs
      | ok as' =>
        rw [hl] at hs
        simp only [Except.ok.injEq] at hs
        subst hs
        intro p hp
        rcases List.mem_cons.1 hp with rfl | hp
        · simp only
          rintro rfl
          cases e with
          | some e => exact absurd ha (hn.eval e)
          | none =>
            simp only [World.ctorArg] at ha
            cases hd : k.default with
            | none => rw [hd] at ha; simp at ha
            | some r' =>
              rw [hd] at ha
              simp only [Except.ok.injEq, ObjArg.array.injEq] at ha
              exact hn.defaults k (by rw [hd, ha])
        · exact ih hl p hp

theorem NoRoot.construct {w : World} (hv : Valid w) {r : ℕ} (hn : NoRoot w r) (l : List (AttrKind × Option ArgExpr)) :
    NoRoot (w.construct l).2 r ∧ (w.construct l).2.heap[r]? = w.heap[r]? := by
  unfold World.construct
  cases ha : w.ctorArgs l with
  | error e => exact ⟨hn, rfl⟩
  | ok as =>
    simp only
    cases hc : w.create as with
    | error e => exact ⟨hn, rfl⟩
    | ok w' => exact NoRoot.create hv hn (hn.ctorArgs ha) hc

theorem NoRoot.run {w : World} (hv : Valid w) {r : ℕ} (hn : NoRoot w r) (c : Stmt) :
    NoRoot (c.run w).2 r ∧ (c.run w).2.heap[r]? = w.heap[r]? := by
  cases c with
  | alloc a =>
    simp only [Stmt.run]
    split_ifs with hl
    · refine ⟨⟨hn.attrs, fun h => ?_, hn.defaults, ?_⟩, List.getElem?_append_left hn.lt⟩
      · simp only [List.mem_append, List.mem_singleton] at h
        rcases h with h | h
        · exact hn.vars h
        · exact hn.lt.ne h
      · simpa using Nat.lt_succ_of_lt hn.lt
    · exact ⟨hn, rfl⟩
  | bind j =>
    simp only [Stmt.run]
    cases hr : w.ref (.attr j) with
    | none => exact ⟨hn, rfl⟩
    | some r' =>
      refine ⟨⟨hn.attrs, fun h => ?_, hn.defaults, hn.lt⟩, rfl⟩
      simp only [List.mem_append, List.mem_singleton] at h
      rcases h with h | h
      · exact hn.vars h
      · subst h
        simp only [World.ref, Option.map_eq_some_iff] at hr
        obtain ⟨⟨k, r''⟩, hk, rfl⟩ := hr
        exact hn.attrs j k hk
  | write p j v =>
    simp only [Stmt.run]
    cases hr : w.ref p with
    | none => exact ⟨hn, rfl⟩
    | some r' =>
      simp only
      cases ha : w.heap[r']? with
      | none => exact ⟨hn, rfl⟩
      | some a =>
        simp only
        split_ifs
        · refine ⟨⟨hn.attrs, hn.vars, hn.defaults, by simpa using hn.lt⟩, List.getElem?_set_ne ?_⟩
          rintro rfl
          cases p with
          | var n => exact hn.vars (List.mem_of_getElem? hr)
          | attr n =>
            simp only [World.ref, Option.map_eq_some_iff] at hr
            obtain ⟨⟨k, r''⟩, hk, rfl⟩ := hr
            exact hn.attrs n k hk
        · exact ⟨hn, rfl⟩
  | set j e =>
    simp only [Stmt.run]
    cases hi : w.attrs[j]? with
    | none => exact ⟨hn, rfl⟩
    | some p =>
      obtain ⟨k, r'⟩ := p
      cases hev : w.eval e with
      | error e => exact ⟨hn, rfl⟩
      | ok x =>
        simp only
        cases hs : k.setter w.heap x with
        | error e => exact ⟨hn, rfl⟩
        | ok st =>
          obtain ⟨h1, h2, h3⟩ := hn.stored hv k x st hs (fun hx => absurd (by rw [hev, hx]) (hn.eval e))
          refine ⟨⟨fun j' k' hj' => ?_, hn.vars, hn.defaults, h3⟩, h2⟩
          simp only at hj'
          rw [List.getElem?_set] at hj'
          split_ifs at hj' with h4 h5
          · exact h1 (Prod.mk.inj (Option.some.inj hj')).2
          · exact hn.attrs j' k' hj'
  | newGeneric d g => exact hn.construct hv _
  | newScan d g s o => exact hn.construct hv _

theorem NoRoot.exec {r : ℕ} {l : List Stmt} : ∀ {w : World}, Valid w → NoRoot w r →
    NoRoot (w.exec l) r ∧ (w.exec l).heap[r]? = w.heap[r]? := by
  induction l with
  | nil => exact fun _ hn => ⟨hn, rfl⟩
  | cons c l ih =>
    intro w hv hn
    obtain ⟨h1, h2⟩ := hn.run hv c
    obtain ⟨h3, h4⟩ := ih (hv.run c) h1
    exact ⟨h3, h4.trans h2⟩

/-- C74, defaults of `SensorGeneric`: whatever a program has done before, a generic sensor made without arguments has the documented lever arms
(-1, -1) to the dots and (0, 0) to the gates. -/
theorem C74_generic_default_partial (l : List Stmt) : ∃ w', (Stmt.newGeneric none none).run (World.init.exec l) = (.ok (), w') ∧
    w'.value (.attr (World.init.exec l).attrs.length) = some ⟨true, [2], [-1, -1]⟩ ∧
    w'.value (.attr ((World.init.exec l).attrs.length + 1)) = some ⟨true, [2], [0, 0]⟩ := by
  have nr : ∀ r < 2, NoRoot World.init r := by
    intro r hr
    refine ⟨by simp [World.init], by simp [World.init], fun k hk => ?_, by simp [World.init, defaultArrays]; omega⟩
    cases k <;> simp only [AttrKind.default, Option.some.injEq, reduceCtorEq] at hk <;> first | omega | simp [IsGeneric]
  have h0 := ((nr 0 (by norm_num)).exec (l := l) Valid.init).2
  have h1 := ((nr 1 (by norm_num)).exec (l := l) Valid.init).2
  generalize World.init.exec l = w at h0 h1 ⊢
  have g0 : w.heap[0]? = some ⟨true, [2], [-1, -1]⟩ := h0
  have g1 : w.heap[1]? = some ⟨true, [2], [0, 0]⟩ := h1
  have hl : 1 < w.heap.length := (List.getElem?_eq_some_iff.1 g1).1
  have g1' : (w.heap ++ [(⟨true, [2], [-1, -1]⟩ : NpArray)])[1]? = some ⟨true, [2], [0, 0]⟩ :=
    (List.getElem?_append_left hl).trans g1
  refine ⟨⟨w.heap ++ [⟨true, [2], [-1, -1]⟩] ++ [⟨true, [2], [0, 0]⟩], w.vars,
    w.attrs ++ [(.genericDot, w.heap.length)] ++ [(.genericGate, w.heap.length + 1)]⟩, ?_, ?_, ?_⟩
  · simp only [Stmt.run, World.construct, World.ctorArgs, World.ctorArg, AttrKind.default, World.create, AttrKind.setter, setGenericAlpha,
      g0, NpArray.size, List.prod_cons, List.prod_nil, mul_one, if_true, Stored.place, g1', List.length_append, List.length_singleton]
  · simp [World.value, World.ref]
  · simp [World.value, World.ref]

/-- C74, `SensorScanSensorGeneric`: an attribute that was set to None, to one pair of lever arms or to one offset for all potentials changes only
by statements that set the attribute or write into it by its name, unless the program keeps the returned array itself or passes it on. -/
theorem C74_scan_partial (before after : List Stmt) (i : ℕ) (k : AttrKind) (r : ℕ) (e : ArgExpr) (v : ArgVal) (w : World)
    (hi : (World.init.exec before).attrs[i]? = some (k, r)) (hval : argVal (World.init.exec before) e = some v)
    (hv : v = .none ∨ (∃ b x, v = .number b x) ∨ ∃ a, v = .array a ∧ a.shape = [2])
    (hset : (Stmt.set i e).run (World.init.exec before) = (.ok (), w)) (hb : ∀ c ∈ after, c ≠ .bind i)
    (hp : ∀ c ∈ after, .root (.attr i) ∉ args c) (hc : ∀ c ∈ after, ¬ Changes i c) :
    (w.exec after).value (.attr i) = w.value (.attr i) := by
  have hv0 := Valid.init.exec (l := before)
  obtain ⟨x, hx, hxv⟩ := eval_val _ e v hval
  have hlt := (List.getElem?_eq_some_iff.1 hi).1
  have hvw : Valid w := by
    have := hv0.run (.set i e)
    rw [hset] at this
    exact this
  simp only [Stmt.run, hi, hx] at hset
  cases hs : k.setter (World.init.exec before).heap x with
  | error e => rw [hs] at hset; simp at hset
  | ok st =>
    rw [hs] at hset
    simp only [Prod.mk.injEq, true_and] at hset
    rcases setter_cases k _ hv0.data x st hs with ⟨b, rfl, -, -⟩ | ⟨r', b, rfl, rfl, hrb, hf, hg⟩
    · have he := Excl.fresh hv0 i k b hlt
      simp only [Stored.place] at hset
      rw [hset] at he
      obtain ⟨he', hr⟩ := he.exec hvw hc hb (Or.inl hp)
      rw [he'.value, he.value, hr]
    · exfalso
      rcases hv with rfl | ⟨b', x', rfl⟩ | ⟨a, rfl, ha⟩
      · exact hxv
      · exact hxv
      · have hab : (World.init.exec before).heap[r']? = some a := hxv
        rw [hrb] at hab
        cases hab
        cases k <;> simp only [Fits, ha, IsGeneric, not_true_eq_false, or_true, true_or] at hf hg <;> simp at hf

/-- C74 is refuted for default lever arms of `SensorScanSensorGeneric`: adjusting the lever arms of one sensor changes those of another sensor
and those of a sensor that is made later. -/
theorem C74_default_refuted : ∃ w w' : World, World.init.exec [.alloc ⟨false, [3, 2], [1, 1, 1, 1, 1, 1]⟩,
      .newScan none none (some (.root (.var 0))) none, .newScan none none (some (.root (.var 0))) none] = w ∧
    w.exec [.write (.attr 1) 0 1, .newScan none none (some (.root (.var 0))) none] = w' ∧
    w.value (.attr 5) = some ⟨true, [3, 2], [0, 0, 0, 0, 0, 0]⟩ ∧ w'.value (.attr 5) = some ⟨true, [3, 2], [1, 0, 0, 0, 0, 0]⟩ ∧
    w'.value (.attr 9) = some ⟨true, [3, 2], [1, 0, 0, 0, 0, 0]⟩ := by
  refine ⟨_, _, rfl, rfl, ?_, ?_, ?_⟩ <;>
  simp [World.exec, World.init, defaultArrays, Stmt.run, NpArray.size, NpArray.put, NpArray.entry, World.construct, World.ctorArgs, World.ctorArg,
    World.eval, World.ref, World.create, AttrKind.setter, setScanAlpha, setScanSensorGate, setScanOffset, AttrKind.default, Stored.place,
    World.value]

/-- C74 is refuted for arguments of `SensorScanSensorGeneric`: a later change of the array that was passed changes the sensor. -/
theorem C74_argument_refuted : ∃ w w' : World, World.init.exec [.alloc ⟨false, [3, 2], [1, 1, 1, 1, 1, 1]⟩,
      .newScan none none (some (.root (.var 0))) none] = w ∧ w.exec [.write (.var 0) 0 (1 / 2)] = w' ∧
    w.value (.attr 2) = some ⟨false, [3, 2], [1, 1, 1, 1, 1, 1]⟩ ∧ w'.value (.attr 2) = some ⟨false, [3, 2], [1 / 2, 1, 1, 1, 1, 1]⟩ := by
  refine ⟨_, _, rfl, rfl, ?_, ?_⟩ <;>
  simp [World.exec, World.init, defaultArrays, Stmt.run, NpArray.size, NpArray.put, NpArray.entry, World.construct, World.ctorArgs, World.ctorArg,
    World.eval, World.ref, World.create, AttrKind.setter, setScanAlpha, setScanSensorGate, setScanOffset, AttrKind.default, Stored.place,
    World.value]

/-- Non-vacuity of C74: two generic sensors made with the same array; the array and the other sensor are changed, the first sensor is not. -/
example : ∃ w, World.init.exec [.alloc ⟨false, [2], [-1, -2]⟩, .newGeneric (some (.root (.var 0))) none,
      .newGeneric (some (.root (.var 0))) (some (.root (.attr 0)))] = w ∧
    (w.exec [.write (.var 0) 0 5, .write (.attr 2) 1 7, .write (.attr 3) 0 9]).value (.attr 0) = some ⟨false, [2], [-1, -2]⟩ := by
  refine ⟨_, rfl, ?_⟩
  rw [C74_generic_partial _ _ 0 .genericDot 6 ?_ (Or.inl rfl) (by simp) (by simp [Changes])]
  all_goals simp [World.exec, World.init, defaultArrays, Stmt.run, NpArray.size, World.construct, World.ctorArgs, World.ctorArg,
    World.eval, World.ref, World.create, AttrKind.setter, setGenericAlpha, AttrKind.default, Stored.place, World.value]

/-- Non-vacuity of C74 for `SensorScanSensorGeneric`: one pair of lever arms is set for all potentials; then the pair and the default lever arms of
another sensor are changed. -/
example : ∃ w w' : World, World.init.exec [.alloc ⟨false, [3, 2], [1, 1, 1, 1, 1, 1]⟩, .newScan none none (some (.root (.var 0))) none,
      .alloc ⟨false, [2], [-1, -2]⟩] = w ∧ (Stmt.set 0 (.root (.var 1))).run w = (.ok (), w') ∧
    (w'.exec [.write (.var 1) 0 5, .newScan none none (some (.root (.var 0))) none, .write (.attr 4) 0 7]).value (.attr 0) =
      some ⟨false, [3, 2], [-1, -2, -1, -2, -1, -2]⟩ := by
  refine ⟨_, ((Stmt.set 0 (.root (.var 1))).run (World.init.exec [.alloc ⟨false, [3, 2], [1, 1, 1, 1, 1, 1]⟩,
        .newScan none none (some (.root (.var 0))) none, .alloc ⟨false, [2], [-1, -2]⟩])).2, rfl, ?_, ?_⟩
  rotate_left
  · rw [C74_scan_partial [.alloc ⟨false, [3, 2], [1, 1, 1, 1, 1, 1]⟩, .newScan none none (some (.root (.var 0))) none,
      .alloc ⟨false, [2], [-1, -2]⟩] _ 0 .scanDot 3 (.root (.var 1)) (.array ⟨false, [2], [-1, -2]⟩)
      ((Stmt.set 0 (.root (.var 1))).run (World.init.exec [.alloc ⟨false, [3, 2], [1, 1, 1, 1, 1, 1]⟩,
        .newScan none none (some (.root (.var 0))) none, .alloc ⟨false, [2], [-1, -2]⟩])).2 ?_ ?_ (Or.inr (Or.inr ⟨_, rfl, rfl⟩)) ?_ (by simp)
      (by simp [args]) (by simp [Changes])]
    all_goals simp [World.exec, World.init, defaultArrays, Stmt.run, NpArray.size, World.construct, World.ctorArgs, World.ctorArg,
      World.eval, World.ref, World.create, AttrKind.setter, setScanAlpha, setScanSensorGate, setScanOffset, AttrKind.default, Stored.place,
      World.value, argVal]
  · simp [World.exec, World.init, defaultArrays, Stmt.run, NpArray.size, World.construct, World.ctorArgs, World.ctorArg,
      World.eval, World.ref, World.create, AttrKind.setter, setScanAlpha, setScanSensorGate, setScanOffset, AttrKind.default, Stored.place]

/-! ### C75 -/

/-- What writing into the array of an attribute does: entry `j` becomes the given number, in an integer array without its decimals; the other entries
and the shape stay. -/
theorem C75_actual (l : List Stmt) (i j : ℕ) (v : ℝ) (a : NpArray) (ha : (World.init.exec l).value (.attr i) = some a)
    (hj : j < a.shape.prod) : ∃ w' b, (Stmt.write (.attr i) j v).run (World.init.exec l) = (.ok (), w') ∧ w'.value (.attr i) = some b ∧
      b.shape = a.shape ∧ (∀ m, m ≠ j → b.data[m]? = a.data[m]?) ∧
      b.data[j]? = some (if a.isInt then (if 0 ≤ v then (⌊v⌋ : ℝ) else (⌈v⌉ : ℝ)) else v) := by
  have hv := Valid.init.exec (l := l)
  generalize World.init.exec l = w at ha hv ⊢
  simp only [World.value, Option.bind_eq_some_iff] at ha
  obtain ⟨r, hr, ha⟩ := ha
  have hlt := (List.getElem?_eq_some_iff.1 ha).1
  have hlen := hv.data r a ha
  refine ⟨⟨w.heap.set r (a.put j v), w.vars, w.attrs⟩, a.put j v, ?_, ?_, (put_form a j v).1, fun m hm => ?_, ?_⟩
  · have hj' : j < a.size := hj
    simp only [Stmt.run, hr, ha, if_pos hj']
  · have hr' : World.ref ⟨w.heap.set r (a.put j v), w.vars, w.attrs⟩ (.attr i) = some r := hr
    simp only [World.value, hr', Option.bind_some]
    exact List.getElem?_set_self hlt
  · exact List.getElem?_set_ne (Ne.symm hm)
  · have : j < a.data.length := by rw [hlen]; exact hj
    exact List.getElem?_set_self this

/-- C75, the part that holds: an adjustment of lever arms with float entries is used as it is. -/
theorem C75_partial (l : List Stmt) (i j : ℕ) (v : ℝ) (a : NpArray) (ha : (World.init.exec l).value (.attr i) = some a)
    (hf : a.isInt = false) (hj : j < a.shape.prod) : ∃ w' b, (Stmt.write (.attr i) j v).run (World.init.exec l) = (.ok (), w') ∧
      w'.value (.attr i) = some b ∧ b.shape = a.shape ∧ (∀ m, m ≠ j → b.data[m]? = a.data[m]?) ∧ b.data[j]? = some v := by
  obtain ⟨w', b, h1, h2, h3, h4, h5⟩ := C75_actual l i j v a ha hj
  rw [hf] at h5
  exact ⟨w', b, h1, h2, h3, h4, h5⟩

/-- Non-vacuity of C75: float lever arms of a generic sensor. -/
example : ∃ a, (World.init.exec [.alloc ⟨false, [2], [-1, -2]⟩, .newGeneric (some (.root (.var 0))) none]).value (.attr 0) = some a ∧
    a.isInt = false ∧ 1 < a.shape.prod := by
  refine ⟨⟨false, [2], [-1, -2]⟩, ?_, rfl, by simp⟩
  simp [World.exec, World.init, defaultArrays, Stmt.run, NpArray.size, World.construct, World.ctorArgs, World.ctorArg,
    World.eval, World.ref, World.create, AttrKind.setter, setGenericAlpha, AttrKind.default, Stored.place, World.value]

/-- C75 is refuted for the default lever arms: setting the lever arm of the first dot of a generic sensor to -0.5 gives 0, and setting that of the first
gate to 0.1 gives 0. -/
theorem C75_refuted : ∃ w : World, World.init.exec [.newGeneric none none] = w ∧
    (w.exec [.write (.attr 0) 0 (-0.5)]).value (.attr 0) = some ⟨true, [2], [0, -1]⟩ ∧
    (w.exec [.write (.attr 1) 0 0.1]).value (.attr 1) = some ⟨true, [2], [0, 0]⟩ := by
  have h1 : (⌈(-0.5 : ℝ)⌉ : ℤ) = 0 := by rw [Int.ceil_eq_iff]; norm_num
  have h2 : (⌊(0.1 : ℝ)⌋ : ℤ) = 0 := by rw [Int.floor_eq_iff]; norm_num
  have h3 : ¬ (0 : ℝ) ≤ -0.5 := by norm_num
  have h4 : (0 : ℝ) ≤ 0.1 := by norm_num
  refine ⟨_, rfl, ?_, ?_⟩
  · simp only [World.exec, World.init, defaultArrays, Stmt.run, NpArray.size, World.construct, World.ctorArgs, World.ctorArg,
      World.ref, World.create, AttrKind.setter, setGenericAlpha, AttrKind.default, Stored.place, World.value, List.foldl_cons, List.foldl_nil]
    simp [NpArray.put, NpArray.entry, h1, h3]
  · simp only [World.exec, World.init, defaultArrays, Stmt.run, NpArray.size, World.construct, World.ctorArgs, World.ctorArg,
      World.ref, World.create, AttrKind.setter, setGenericAlpha, AttrKind.default, Stored.place, World.value, List.foldl_cons, List.foldl_nil]
    simp [NpArray.put, NpArray.entry, h2, h4]

end SimCATS
