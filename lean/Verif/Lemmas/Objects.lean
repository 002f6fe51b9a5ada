import Verif.Spec.Objects
import Mathlib.Tactic.Linarith
import Mathlib.Data.List.Infix

/-! Lemmas about programs with sensors and arrays. -/

namespace SimCATS

open Spec

/-- Consistent states: all names refer to arrays, attributes to arrays of the right shape. -/
structure Valid (w : World) : Prop where
  vars : ∀ r ∈ w.vars, r < w.heap.length
  attrs : ∀ (i : ℕ) (k : AttrKind) (r : ℕ), w.attrs[i]? = some (k, r) → ∃ a, w.heap[r]? = some a ∧ Fits k a
  data : ∀ (r : ℕ) (a : NpArray), w.heap[r]? = some a → a.data.length = a.size
  defaults : ∀ (k : AttrKind) (r : ℕ), k.default = some r → ∃ a, w.heap[r]? = some a ∧ Fits k a

theorem Valid.init : Valid World.init := by
  refine ⟨fun r h => ?_, fun i k r h => ?_, fun r a h => ?_, fun k r h => ?_⟩
  · simp [World.init] at h
  · simp [World.init] at h
  · simp only [World.init, defaultArrays] at h
    have := List.mem_of_getElem? h
    simp only [List.mem_cons, List.not_mem_nil, or_false] at this
    rcases this with rfl | rfl | rfl | rfl | rfl <;> simp [NpArray.size]
  · cases k <;> simp only [AttrKind.default, Option.some.injEq, reduceCtorEq] at h <;> subst h <;>
      exact ⟨_, rfl, by simp [Fits]⟩

/-- What a setter stores fits, and is either a new array or the array of the argument; in the second case the attribute is one
of a sensor with barriers. -/
theorem setter_cases (k : AttrKind) (heap : List NpArray) (hd : ∀ (r : ℕ) (a : NpArray), heap[r]? = some a → a.data.length = a.size)
    (x : ObjArg) (st : Stored) (h : k.setter heap x = .ok st) :
    (∃ a, st = .fresh a ∧ Fits k a ∧ a.data.length = a.size) ∨
    ∃ r a, st = .keep r ∧ x = .array r ∧ heap[r]? = some a ∧ Fits k a ∧ ¬ IsGeneric k := by
  cases k <;> simp only [AttrKind.setter] at h
  case genericDot | genericGate =>
    left
    cases x <;> simp only [setGenericAlpha, reduceCtorEq] at h
    rename_i r
    cases hr : heap[r]? with
    | none => rw [hr] at h; simp at h
    | some a =>
      rw [hr] at h
      simp only at h
      split_ifs at h with hs
      cases h
      exact ⟨a, rfl, hs, hd r a hr⟩
  case scanDot | scanGate =>
    cases x <;> simp only [setScanAlpha, reduceCtorEq, Except.ok.injEq] at h
    · subst h
      exact Or.inl ⟨_, rfl, rfl, rfl⟩
    · rename_i r
      cases hr : heap[r]? with
      | none => rw [hr] at h; simp at h
      | some a =>
        rw [hr] at h
        simp only at h
        split_ifs at h with hs h3
        · cases h
          have := hd r a hr
          refine Or.inl ⟨_, rfl, rfl, ?_⟩
          simp only [NpArray.size, hs, List.prod_cons, List.prod_nil, List.length_append] at this ⊢
          omega
        · cases h
          exact Or.inr ⟨r, a, rfl, rfl, hr, h3, by simp [IsGeneric]⟩
  case scanSensorGate =>
    cases x <;> simp only [setScanSensorGate, reduceCtorEq] at h
    rename_i r
    cases hr : heap[r]? with
    | none => rw [hr] at h; simp at h
    | some a =>
      rw [hr] at h
      simp only at h
      split_ifs at h with hs
      cases h
      exact Or.inr ⟨r, a, rfl, rfl, hr, hs, by simp [IsGeneric]⟩
  case scanOffset =>
    cases x <;> simp only [setScanOffset, reduceCtorEq, Except.ok.injEq] at h
    · subst h
      exact Or.inl ⟨_, rfl, rfl, rfl⟩
    · rename_i r
      cases hr : heap[r]? with
      | none => rw [hr] at h; simp at h
      | some a =>
        rw [hr] at h
        simp only at h
        split_ifs at h with hs
        cases h
        exact Or.inr ⟨r, a, rfl, rfl, hr, hs, by simp [IsGeneric]⟩

/-- Fits and not generic: not of size 2. -/
theorem fits_size_ne {k : AttrKind} {a : NpArray} (h : Fits k a) (hk : ¬ IsGeneric k) : a.size ≠ 2 := by
  cases k <;> simp only [Fits, IsGeneric, reduceCtorEq, or_false, false_or, not_true_eq_false, not_false_eq_true] at h hk <;>
    simp [NpArray.size, h]

theorem fits_size_eq {k : AttrKind} {a : NpArray} (h : Fits k a) (hk : IsGeneric k) : a.size = 2 := by
  rcases hk with rfl | rfl <;> exact h

/-- Attribute `i` refers to array `r`, and nothing else does. -/
structure Excl (w : World) (i r : ℕ) : Prop where
  own : ∃ k, w.attrs[i]? = some (k, r)
  attrs : ∀ (j : ℕ) (k : AttrKind), w.attrs[j]? = some (k, r) → j = i
  vars : r ∉ w.vars
  defaults : ∀ k : AttrKind, k.default ≠ some r

/-- The state with one more attribute. -/
def World.push (w : World) (k : AttrKind) (st : Stored) : World :=
  ⟨(st.place w.heap).1, w.vars, w.attrs ++ [(k, (st.place w.heap).2)]⟩

theorem place_get (heap : List NpArray) (st : Stored) (r : ℕ) (a : NpArray) (h : heap[r]? = some a) :
    (st.place heap).1[r]? = some a := by
  cases st with
  | keep _ => exact h
  | fresh b => exact (List.getElem?_append_left (List.getElem?_eq_some_iff.1 h).1).trans h

theorem place_data (heap : List NpArray) (hd : ∀ (r : ℕ) (a : NpArray), heap[r]? = some a → a.data.length = a.size) (k : AttrKind)
    (x : ObjArg) (st : Stored) (h : k.setter heap x = .ok st) :
    (∀ (r : ℕ) (a : NpArray), (st.place heap).1[r]? = some a → a.data.length = a.size) ∧
    ∃ a, (st.place heap).1[(st.place heap).2]? = some a ∧ Fits k a := by
  rcases setter_cases k heap hd x st h with ⟨b, rfl, hf, hl⟩ | ⟨r, b, rfl, -, hr, hf, -⟩
  · refine ⟨fun r a ha => ?_, b, by simp [Stored.place], hf⟩
    rcases Nat.lt_or_ge r heap.length with hlt | hge
    · rw [Stored.place, List.getElem?_append_left hlt] at ha
      exact hd r a ha
    · rw [Stored.place, List.getElem?_append_right hge] at ha
      have := List.mem_of_getElem? ha
      simp only [List.mem_singleton] at this
      rw [this]
      exact hl
  · exact ⟨hd, b, hr, hf⟩

theorem place_length (heap : List NpArray) (st : Stored) : heap.length ≤ (st.place heap).1.length := by
  cases st <;> simp [Stored.place]

theorem getElem?_snoc {α : Type} (l : List α) (x : α) (i : ℕ) (y : α) (h : (l ++ [x])[i]? = some y) :
    l[i]? = some y ∨ (i = l.length ∧ y = x) := by
  rcases Nat.lt_or_ge i l.length with hlt | hge
  · rw [List.getElem?_append_left hlt] at h
    exact Or.inl h
  · rw [List.getElem?_append_right hge] at h
    have hi : i - l.length < 1 := (List.getElem?_eq_some_iff.1 h).1
    have : i = l.length := by omega
    subst this
    simp only [Nat.sub_self, List.getElem?_cons_zero, Option.some.injEq] at h
    exact Or.inr ⟨rfl, h.symm⟩

theorem Valid.push {w : World} (hv : Valid w) (k : AttrKind) (x : ObjArg) (st : Stored) (h : k.setter w.heap x = .ok st) :
    Valid (w.push k st) := by
  obtain ⟨hd, a, ha, hf⟩ := place_data w.heap hv.data k x st h
  refine ⟨fun r hr => lt_of_lt_of_le (hv.vars r hr) (place_length _ _), fun i k' r hi => ?_, hd, fun k' r hr => ?_⟩
  · rcases getElem?_snoc _ _ _ _ hi with hi | ⟨-, hi⟩
    · obtain ⟨b, hb, hfb⟩ := hv.attrs i k' r hi
      exact ⟨b, place_get _ _ _ _ hb, hfb⟩
    · cases hi
      exact ⟨a, ha, hf⟩
  · obtain ⟨b, hb, hfb⟩ := hv.defaults k' r hr
    exact ⟨b, place_get _ _ _ _ hb, hfb⟩

theorem Valid.reset {w : World} (hv : Valid w) (i : ℕ) (k : AttrKind) (x : ObjArg) (st : Stored) (h : k.setter w.heap x = .ok st) :
    Valid ⟨(st.place w.heap).1, w.vars, w.attrs.set i (k, (st.place w.heap).2)⟩ := by
  obtain ⟨hd, a, ha, hf⟩ := place_data w.heap hv.data k x st h
  refine ⟨fun r hr => lt_of_lt_of_le (hv.vars r hr) (place_length _ _), fun j k' r hi => ?_, hd, fun k' r hr => ?_⟩
  · rw [List.getElem?_set] at hi
    split_ifs at hi with h1 h2
    · cases hi
      exact ⟨a, ha, hf⟩
    · obtain ⟨b, hb, hfb⟩ := hv.attrs j k' r hi
      exact ⟨b, place_get _ _ _ _ hb, hfb⟩
  · obtain ⟨b, hb, hfb⟩ := hv.defaults k' r hr
    exact ⟨b, place_get _ _ _ _ hb, hfb⟩

theorem Valid.create {l : List (AttrKind × ObjArg)} : ∀ {w w' : World}, Valid w → w.create l = .ok w' → Valid w' := by
  induction l with
  | nil =>
    intro w w' hv h
    cases h
    exact hv
  | cons p l ih =>
    intro w w' hv h
    obtain ⟨k, x⟩ := p
    simp only [World.create] at h
    cases hs : k.setter w.heap x with
    | error e => rw [hs] at h; simp at h
    | ok st =>
      rw [hs] at h
      exact ih (hv.push k x st hs) h

theorem Valid.construct {w : World} (hv : Valid w) (l : List (AttrKind × Option ArgExpr)) : Valid (w.construct l).2 := by
  unfold World.construct
  cases w.ctorArgs l with
  | error e => exact hv
  | ok as =>
    simp only
    cases hc : w.create as with
    | error e => exact hv
    | ok w' => exact hv.create hc

theorem put_form (a : NpArray) (i : ℕ) (v : ℝ) :
    (a.put i v).shape = a.shape ∧ (a.put i v).isInt = a.isInt ∧ (a.put i v).data.length = a.data.length := by
  simp [NpArray.put]

theorem fits_put {k : AttrKind} {a : NpArray} (h : Fits k a) (i : ℕ) (v : ℝ) : Fits k (a.put i v) := by
  unfold Fits at h ⊢
  rw [(put_form a i v).1]
  exact h

theorem Valid.write {w : World} (hv : Valid w) (r i : ℕ) (v : ℝ) (a : NpArray) (ha : w.heap[r]? = some a) :
    Valid ⟨w.heap.set r (a.put i v), w.vars, w.attrs⟩ := by
  have hlt := (List.getElem?_eq_some_iff.1 ha).1
  have get : ∀ (k : AttrKind) (r' : ℕ), (∃ b, w.heap[r']? = some b ∧ Fits k b) →
      ∃ b, (w.heap.set r (a.put i v))[r']? = some b ∧ Fits k b := by
    rintro k r' ⟨b, hb, hf⟩
    rw [List.getElem?_set]
    split_ifs with h1
    · subst h1
      rw [ha] at hb
      cases hb
      exact ⟨_, rfl, fits_put hf i v⟩
    · exact ⟨b, hb, hf⟩
  refine ⟨fun r' hr => ?_, fun j k' r' hi => get _ _ (hv.attrs j k' r' hi), fun r' b hb => ?_, fun k' r' hr => get _ _ (hv.defaults k' r' hr)⟩
  · simpa using hv.vars r' hr
  · rw [List.getElem?_set] at hb
    split_ifs at hb with h1
    · cases hb
      rw [NpArray.size, (put_form a i v).1, (put_form a i v).2.2]
      exact hv.data r a ha
    · exact hv.data r' b hb

theorem Valid.run {w : World} (hv : Valid w) (c : Stmt) : Valid (c.run w).2 := by
  cases c with
  | alloc a =>
    simp only [Stmt.run]
    split_ifs with hl
    · refine ⟨fun r hr => ?_, fun i k r hi => ?_, fun r b hb => ?_, fun k r hr => ?_⟩
      · simp only [List.mem_append, List.mem_singleton, List.length_append, List.length_singleton] at hr ⊢
        rcases hr with hr | rfl
        · exact Nat.lt_succ_of_lt (hv.vars r hr)
        · exact Nat.lt_succ_self _
      · obtain ⟨b, hb, hf⟩ := hv.attrs i k r hi
        exact ⟨b, place_get w.heap (.fresh a) r b hb, hf⟩
      · rcases getElem?_snoc _ _ _ _ hb with hb | ⟨-, rfl⟩
        · exact hv.data r b hb
        · exact hl
      · obtain ⟨b, hb, hf⟩ := hv.defaults k r hr
        exact ⟨b, place_get w.heap (.fresh a) r b hb, hf⟩
    · exact hv
  | bind i =>
    simp only [Stmt.run]
    cases hr : w.ref (.attr i) with
    | none => exact hv
    | some r =>
      refine ⟨fun r' hr' => ?_, hv.attrs, hv.data, hv.defaults⟩
      simp only [List.mem_append, List.mem_singleton] at hr'
      rcases hr' with hr' | rfl
      · exact hv.vars r' hr'
      · simp only [World.ref, Option.map_eq_some_iff] at hr
        obtain ⟨⟨k, r⟩, hk, rfl⟩ := hr
        obtain ⟨a, ha, -⟩ := hv.attrs i k r hk
        exact (List.getElem?_eq_some_iff.1 ha).1
  | write p i v =>
    simp only [Stmt.run]
    cases hr : w.ref p with
    | none => exact hv
    | some r =>
      simp only
      cases ha : w.heap[r]? with
      | none => exact hv
      | some a =>
        simp only
        split_ifs
        · exact hv.write r i v a ha
        · exact hv
  | set i e =>
    simp only [Stmt.run]
    cases hi : w.attrs[i]? with
    | none => exact hv
    | some p =>
      obtain ⟨k, r⟩ := p
      cases he : w.eval e with
      | error e => exact hv
      | ok x =>
        simp only
        cases hs : k.setter w.heap x with
        | error e => exact hv
        | ok st => exact hv.reset i k x st hs
  | newGeneric d g => exact hv.construct _
  | newScan d g s o => exact hv.construct _

/-- Pushing or resetting an attribute does not make another attribute refer to an exclusive array, unless the argument is this
array and the attribute is one of a sensor with barriers. -/
theorem stored_ne {w : World} (hv : Valid w) {i r : ℕ} (he : Excl w i r) (k : AttrKind) (x : ObjArg) (st : Stored)
    (h : k.setter w.heap x = .ok st) (hx : x ≠ .array r ∨ ∃ a, w.heap[r]? = some a ∧ a.size = 2) :
    (st.place w.heap).2 ≠ r ∧ (st.place w.heap).1[r]? = w.heap[r]? := by
  obtain ⟨k0, hk0⟩ := he.own
  obtain ⟨a0, ha0, -⟩ := hv.attrs i k0 r hk0
  have hlt := (List.getElem?_eq_some_iff.1 ha0).1
  refine ⟨?_, by rw [place_get _ _ _ _ ha0, ha0]⟩
  rcases setter_cases k w.heap hv.data x st h with ⟨b, rfl, -, -⟩ | ⟨r', b, rfl, rfl, hb, hf, hg⟩
  · exact (Nat.ne_of_lt hlt).symm
  · rintro rfl
    rcases hx with hx | ⟨a, ha, hs⟩
    · exact hx rfl
    · simp only [Stored.place] at ha
      rw [hb] at ha
      cases ha
      exact fits_size_ne hf hg hs

theorem Excl.push {w : World} (hv : Valid w) {i r : ℕ} (he : Excl w i r) (k : AttrKind) (x : ObjArg) (st : Stored)
    (h : k.setter w.heap x = .ok st) (hx : x ≠ .array r ∨ ∃ a, w.heap[r]? = some a ∧ a.size = 2) :
    Excl (w.push k st) i r ∧ (w.push k st).heap[r]? = w.heap[r]? := by
  obtain ⟨hne, hget⟩ := stored_ne hv he k x st h hx
  refine ⟨⟨?_, fun j k' hj => ?_, he.vars, he.defaults⟩, hget⟩
  · obtain ⟨k0, hk0⟩ := he.own
    exact ⟨k0, (List.getElem?_append_left (List.getElem?_eq_some_iff.1 hk0).1).trans hk0⟩
  · rcases getElem?_snoc _ _ _ _ hj with hj | ⟨-, hj⟩
    · exact he.attrs j k' hj
    · exact absurd (Prod.mk.inj hj).2.symm hne

theorem Excl.reset {w : World} (hv : Valid w) {i r : ℕ} (he : Excl w i r) (j : ℕ) (hj : j ≠ i) (k : AttrKind) (x : ObjArg)
    (st : Stored) (h : k.setter w.heap x = .ok st) (hx : x ≠ .array r ∨ ∃ a, w.heap[r]? = some a ∧ a.size = 2) :
    Excl ⟨(st.place w.heap).1, w.vars, w.attrs.set j (k, (st.place w.heap).2)⟩ i r ∧ (st.place w.heap).1[r]? = w.heap[r]? := by
  obtain ⟨hne, hget⟩ := stored_ne hv he k x st h hx
  refine ⟨⟨?_, fun j' k' hj' => ?_, he.vars, he.defaults⟩, hget⟩
  · obtain ⟨k0, hk0⟩ := he.own
    exact ⟨k0, by rw [List.getElem?_set_ne hj]; exact hk0⟩
  · rw [List.getElem?_set] at hj'
    split_ifs at hj' with h1 h2
    · exact absurd (Prod.mk.inj (Option.some.inj hj')).2 hne
    · exact he.attrs j' k' hj'

/-- A new array in an attribute belongs to this attribute only. -/
theorem Excl.fresh {w : World} (hv : Valid w) (i : ℕ) (k : AttrKind) (a : NpArray) (hi : i < w.attrs.length) :
    Excl ⟨w.heap ++ [a], w.vars, w.attrs.set i (k, w.heap.length)⟩ i w.heap.length := by
  refine ⟨⟨k, List.getElem?_set_self hi⟩, fun j k' hj => ?_, fun h => (hv.vars _ h).ne rfl, fun k' h => ?_⟩
  · rw [List.getElem?_set] at hj
    split_ifs at hj with h1 h2
    · exact h1.symm
    · obtain ⟨b, hb, -⟩ := hv.attrs j k' _ hj
      exact absurd (List.getElem?_eq_some_iff.1 hb).1 (lt_irrefl _)
  · obtain ⟨b, hb, -⟩ := hv.defaults k' _ h
    exact (List.getElem?_eq_some_iff.1 hb).1.ne rfl

theorem Excl.freshPush {w : World} (hv : Valid w) (k : AttrKind) (a : NpArray) :
    Excl ⟨w.heap ++ [a], w.vars, w.attrs ++ [(k, w.heap.length)]⟩ w.attrs.length w.heap.length := by
  refine ⟨⟨k, by simp⟩, fun j k' hj => ?_, fun h => (hv.vars _ h).ne rfl, fun k' h => ?_⟩
  · rcases getElem?_snoc _ _ _ _ hj with hj | ⟨hj, -⟩
    · obtain ⟨b, hb, -⟩ := hv.attrs j k' _ hj
      exact absurd (List.getElem?_eq_some_iff.1 hb).1 (lt_irrefl _)
    · exact hj
  · obtain ⟨b, hb, -⟩ := hv.defaults k' _ h
    exact (List.getElem?_eq_some_iff.1 hb).1.ne rfl

theorem Excl.create {i r : ℕ} {l : List (AttrKind × ObjArg)} : ∀ {w w' : World}, Valid w → Excl w i r →
    (∀ p ∈ l, p.2 ≠ .array r ∨ ∃ a, w.heap[r]? = some a ∧ a.size = 2) → w.create l = .ok w' →
    Excl w' i r ∧ w'.heap[r]? = w.heap[r]? := by
  induction l with
  | nil =>
    intro w w' hv he hx h
    cases h
    exact ⟨he, rfl⟩
  | cons p l ih =>
    intro w w' hv he hx h
    obtain ⟨k, x⟩ := p
    simp only [World.create] at h
    cases hs : k.setter w.heap x with
    | error e => rw [hs] at h; simp at h
    | ok st =>
      rw [hs] at h
      obtain ⟨he', hg⟩ := he.push hv k x st hs (hx _ List.mem_cons_self)
      obtain ⟨he'', hg'⟩ := ih (hv.push k x st hs) he' (fun p hp => by
        rw [hg]
        exact hx p (List.mem_cons_of_mem _ hp)) h
      exact ⟨he'', hg'.trans hg⟩

/-- The arguments of a constructor refer to an exclusive array only if they name its attribute. -/
theorem eval_ne {w : World} {i r : ℕ} (he : Excl w i r) (e : ArgExpr) (h : e ≠ .root (.attr i)) : w.eval e ≠ .ok (.array r) := by
  cases e with
  | none => simp [World.eval]
  | number b x => simp [World.eval]
  | other => simp [World.eval]
  | root p =>
    simp only [World.eval]
    cases hp : w.ref p with
    | none => simp
    | some r' =>
      simp only [ne_eq, Except.ok.injEq, ObjArg.array.injEq]
      rintro rfl
      cases p with
      | var j => exact he.vars (List.mem_of_getElem? hp)
      | attr j =>
        simp only [World.ref, Option.map_eq_some_iff] at hp
        obtain ⟨⟨k, r''⟩, hk, rfl⟩ := hp
        exact h (by rw [he.attrs j k hk])

theorem ctorArgs_ne {w : World} {i r : ℕ} (he : Excl w i r) {l : List (AttrKind × Option ArgExpr)}
    (h : ∀ p ∈ l, p.2 ≠ some (.root (.attr i))) : ∀ {as}, w.ctorArgs l = .ok as → ∀ p ∈ as, p.2 ≠ .array r := by
  induction l with
  | nil =>
    intro as hs
    cases hs
    simp
  | cons q l ih =>
    intro as hs
    obtain ⟨k, e⟩ := q
    simp only [World.ctorArgs] at hs
    cases ha : w.ctorArg k e with
    | error e => rw [ha] at hs; simp at hs
    | ok a =>
      rw [ha] at hs
      cases hl : w.ctorArgs l with
      | error e => rw [hl] at hs; simp at hs
      | ok as' =>
        rw [hl] at hs
        simp only [Except.ok.injEq] at hs
        subst hs
        intro p hp
        rcases List.mem_cons.1 hp with rfl | hp
        · simp only
          rintro rfl
          cases e with
          | some e => exact eval_ne he e (fun hc => h _ List.mem_cons_self (by rw [hc])) ha
          | none =>
            simp only [World.ctorArg] at ha
            cases hd : k.default with
            | none => rw [hd] at ha; simp at ha
            | some r' =>
              rw [hd] at ha
              simp only [Except.ok.injEq, ObjArg.array.injEq] at ha
              exact he.defaults k (by rw [hd, ha])
        · exact ih (fun p hp => h p (List.mem_cons_of_mem _ hp)) hl p hp

theorem Excl.construct {w : World} (hv : Valid w) {i r : ℕ} (he : Excl w i r) (l : List (AttrKind × Option ArgExpr))
    (h : (∀ p ∈ l, p.2 ≠ some (.root (.attr i))) ∨ ∃ a, w.heap[r]? = some a ∧ a.size = 2) :
    Excl (w.construct l).2 i r ∧ (w.construct l).2.heap[r]? = w.heap[r]? := by
  unfold World.construct
  cases ha : w.ctorArgs l with
  | error e => exact ⟨he, rfl⟩
  | ok as =>
    simp only
    cases hc : w.create as with
    | error e => exact ⟨he, rfl⟩
    | ok w' =>
      refine Excl.create hv he (fun p hp => ?_) hc
      rcases h with h | h
      · exact Or.inl (ctorArgs_ne he h ha p hp)
      · exact Or.inr h

/-- A statement that neither sets attribute `i` nor keeps or passes on its array leaves the array to this attribute; only writing by the
name of the attribute changes it. -/
theorem Excl.run {w : World} (hv : Valid w) {i r : ℕ} (he : Excl w i r) (c : Stmt) (hset : ∀ e, c ≠ .set i e) (hbind : c ≠ .bind i)
    (hm : .root (.attr i) ∉ args c ∨ ∃ a, w.heap[r]? = some a ∧ a.size = 2) :
    Excl (c.run w).2 i r ∧ ((∀ j v, c ≠ .write (.attr i) j v) → (c.run w).2.heap[r]? = w.heap[r]?) := by
  obtain ⟨k0, hk0⟩ := he.own
  obtain ⟨a0, ha0, -⟩ := hv.attrs i k0 r hk0
  have hlt := (List.getElem?_eq_some_iff.1 ha0).1
  cases c with
  | alloc a =>
    simp only [Stmt.run]
    split_ifs with hl
    · refine ⟨⟨he.own, he.attrs, fun h => ?_, he.defaults⟩, fun _ => List.getElem?_append_left hlt⟩
      simp only [List.mem_append, List.mem_singleton] at h
      rcases h with h | h
      · exact he.vars h
      · omega
    · exact ⟨he, fun _ => rfl⟩
  | bind j =>
    simp only [Stmt.run]
    cases hr : w.ref (.attr j) with
    | none => exact ⟨he, fun _ => rfl⟩
    | some r' =>
      refine ⟨⟨he.own, he.attrs, fun h => ?_, he.defaults⟩, fun _ => rfl⟩
      simp only [List.mem_append, List.mem_singleton] at h
      rcases h with h | h
      · exact he.vars h
      · subst h
        simp only [World.ref, Option.map_eq_some_iff] at hr
        obtain ⟨⟨k, r''⟩, hk, rfl⟩ := hr
        exact hbind (by rw [he.attrs j k hk])
  | write p j v =>
    simp only [Stmt.run]
    cases hr : w.ref p with
    | none => exact ⟨he, fun _ => rfl⟩
    | some r' =>
      simp only
      cases ha : w.heap[r']? with
      | none => exact ⟨he, fun _ => rfl⟩
      | some a =>
        simp only
        split_ifs
        · refine ⟨⟨he.own, he.attrs, he.vars, he.defaults⟩, fun hw => ?_⟩
          refine List.getElem?_set_ne ?_
          rintro rfl
          cases p with
          | var n => exact he.vars (List.mem_of_getElem? hr)
          | attr n =>
            simp only [World.ref, Option.map_eq_some_iff] at hr
            obtain ⟨⟨k, r''⟩, hk, rfl⟩ := hr
            have := he.attrs n k hk
            subst this
            exact hw j v rfl
        · exact ⟨he, fun _ => rfl⟩
  | set j e =>
    simp only [Stmt.run]
    have hj : j ≠ i := fun h => hset e (by rw [h])
    cases hi : w.attrs[j]? with
    | none => exact ⟨he, fun _ => rfl⟩
    | some p =>
      obtain ⟨k, r'⟩ := p
      cases hev : w.eval e with
      | error e => exact ⟨he, fun _ => rfl⟩
      | ok x =>
        simp only
        cases hs : k.setter w.heap x with
        | error e => exact ⟨he, fun _ => rfl⟩
        | ok st =>
          have hx : x ≠ .array r ∨ ∃ a, w.heap[r]? = some a ∧ a.size = 2 := by
            rcases hm with hm | hm
            · left
              rintro rfl
              exact eval_ne he e (fun hc => hm (by simp [args, hc])) hev
            · exact Or.inr hm
          obtain ⟨h1, h2⟩ := he.reset hv j hj k x st hs hx
          exact ⟨h1, fun _ => h2⟩
  | newGeneric d g =>
    obtain ⟨h1, h2⟩ := he.construct hv [(.genericDot, d), (.genericGate, g)] (hm.imp_left fun hm p hp hc => hm (by
      simp only [args, List.mem_filterMap, id]
      refine ⟨p.2, ?_, hc⟩
      simp only [List.mem_cons, List.not_mem_nil, or_false] at hp ⊢
      rcases hp with rfl | rfl <;> simp))
    exact ⟨h1, fun _ => h2⟩
  | newScan d g s o =>
    obtain ⟨h1, h2⟩ := he.construct hv [(.scanDot, d), (.scanGate, g), (.scanSensorGate, s), (.scanOffset, o)]
      (hm.imp_left fun hm p hp hc => hm (by
        simp only [args, List.mem_filterMap, id]
        refine ⟨p.2, ?_, hc⟩
        simp only [List.mem_cons, List.not_mem_nil, or_false] at hp ⊢
        rcases hp with rfl | rfl | rfl | rfl <;> simp))
    exact ⟨h1, fun _ => h2⟩

/-- All attributes of generic sensors that are not kept in `B` are exclusive. -/
def GenericExcl (w : World) (B : ℕ → Prop) : Prop :=
  ∀ (i : ℕ) (k : AttrKind) (r : ℕ), w.attrs[i]? = some (k, r) → IsGeneric k → ¬ B i → Excl w i r

theorem GenericExcl.push {w : World} (hv : Valid w) {B : ℕ → Prop} (hg : GenericExcl w B) (k : AttrKind) (x : ObjArg) (st : Stored)
    (h : k.setter w.heap x = .ok st) : GenericExcl (w.push k st) B := by
  intro i k' r hi hk hB
  rcases getElem?_snoc _ _ _ _ hi with hi | ⟨rfl, hi'⟩
  · obtain ⟨a, ha, hf⟩ := hv.attrs i k' r hi
    exact ((hg i k' r hi hk hB).push hv k x st h (Or.inr ⟨a, ha, fits_size_eq hf hk⟩)).1
  · cases hi'
    rcases setter_cases k w.heap hv.data x st h with ⟨b, rfl, -, -⟩ | ⟨r', b, -, -, -, -, hn⟩
    · exact Excl.freshPush hv k b
    · exact absurd hk hn

theorem GenericExcl.create {B : ℕ → Prop} {l : List (AttrKind × ObjArg)} : ∀ {w w' : World}, Valid w → GenericExcl w B →
    w.create l = .ok w' → GenericExcl w' B := by
  induction l with
  | nil =>
    intro w w' hv hg h
    cases h
    exact hg
  | cons p l ih =>
    intro w w' hv hg h
    obtain ⟨k, x⟩ := p
    simp only [World.create] at h
    cases hs : k.setter w.heap x with
    | error e => rw [hs] at h; simp at h
    | ok st =>
      rw [hs] at h
      exact ih (hv.push k x st hs) (hg.push hv k x st hs) h

theorem GenericExcl.construct {w : World} (hv : Valid w) {B : ℕ → Prop} (hg : GenericExcl w B) (l : List (AttrKind × Option ArgExpr)) :
    GenericExcl (w.construct l).2 B := by
  unfold World.construct
  cases w.ctorArgs l with
  | error e => exact hg
  | ok as =>
    simp only
    cases hc : w.create as with
    | error e => exact hg
    | ok w' => exact hg.create hv hc

theorem GenericExcl.run {w : World} (hv : Valid w) {B : ℕ → Prop} (hg : GenericExcl w B) (c : Stmt) (hB : ∀ i, c = .bind i → B i) :
    GenericExcl (c.run w).2 B := by
  -- statements that do not change the attributes
  have same : (c.run w).2.attrs = w.attrs → (∀ i e, c ≠ .set i e) → GenericExcl (c.run w).2 B := by
    intro ha hs i k r hi hk hb
    rw [ha] at hi
    obtain ⟨a, haa, hf⟩ := hv.attrs i k r hi
    exact ((hg i k r hi hk hb).run hv c (hs i) (fun h => hb (hB i h)) (Or.inr ⟨a, haa, fits_size_eq hf hk⟩)).1
  cases c with
  | alloc a =>
    refine same ?_ (by simp)
    simp only [Stmt.run]
    split_ifs <;> rfl
  | bind j =>
    refine same ?_ (by simp)
    simp only [Stmt.run]
    cases w.ref (.attr j) <;> rfl
  | write p j v =>
    refine same ?_ (by simp)
    simp only [Stmt.run]
    cases w.ref p with
    | none => rfl
    | some r =>
      simp only
      cases w.heap[r]? with
      | none => rfl
      | some a =>
        simp only
        split_ifs <;> rfl
  | set j e =>
    simp only [Stmt.run]
    cases hj : w.attrs[j]? with
    | none => exact hg
    | some p =>
      obtain ⟨k, r'⟩ := p
      cases hev : w.eval e with
      | error e => exact hg
      | ok x =>
        simp only
        cases hs : k.setter w.heap x with
        | error e => exact hg
        | ok st =>
          intro i k' r hi hk hb
          simp only at hi
          rw [List.getElem?_set] at hi
          split_ifs at hi with h1 h2
          · subst h1
            cases hi
            rcases setter_cases k w.heap hv.data x st hs with ⟨b, rfl, -, -⟩ | ⟨r'', b, -, -, -, -, hn⟩
            · exact Excl.fresh hv j k b h2
            · exact absurd hk hn
          · obtain ⟨a, ha, hf⟩ := hv.attrs i k' r hi
            exact ((hg i k' r hi hk hb).reset hv j h1 k x st hs (Or.inr ⟨a, ha, fits_size_eq hf hk⟩)).1
  | newGeneric d g => exact hg.construct hv _
  | newScan d g s o => exact hg.construct hv _

theorem Valid.exec {l : List Stmt} : ∀ {w : World}, Valid w → Valid (w.exec l) := by
  induction l with
  | nil => exact fun hv => hv
  | cons c l ih => exact fun hv => ih (hv.run c)

theorem GenericExcl.exec {B : ℕ → Prop} {l : List Stmt} : ∀ {w : World}, Valid w → GenericExcl w B → (∀ c ∈ l, ∀ i, c = .bind i → B i) →
    GenericExcl (w.exec l) B := by
  induction l with
  | nil => exact fun _ hg _ => hg
  | cons c l ih =>
    exact fun hv hg hB => ih (hv.run c) (hg.run hv c (hB c List.mem_cons_self)) fun c' hc' => hB c' (List.mem_cons_of_mem _ hc')

/-- A list of statements that does not set, keep or pass on attribute `i`, nor write into it by its name, leaves its content. -/
theorem Excl.exec {i r : ℕ} {l : List Stmt} : ∀ {w : World}, Valid w → Excl w i r → (∀ c ∈ l, ¬ Changes i c) → (∀ c ∈ l, c ≠ .bind i) →
    ((∀ c ∈ l, .root (.attr i) ∉ args c) ∨ ∃ a, w.heap[r]? = some a ∧ a.size = 2) →
    Excl (w.exec l) i r ∧ (w.exec l).heap[r]? = w.heap[r]? := by
  induction l with
  | nil => exact fun _ he _ _ _ => ⟨he, rfl⟩
  | cons c l ih =>
    intro w hv he hc hb hm
    have hc0 := hc c List.mem_cons_self
    obtain ⟨he', hg⟩ := he.run hv c (fun e h => hc0 (Or.inl ⟨e, h⟩)) (hb c List.mem_cons_self)
      (hm.imp_left fun hm => hm c List.mem_cons_self)
    have hg' := hg fun j v h => hc0 (Or.inr ⟨j, v, h⟩)
    obtain ⟨h1, h2⟩ := ih (hv.run c) he' (fun c' hc' => hc c' (List.mem_cons_of_mem _ hc'))
      (fun c' hc' => hb c' (List.mem_cons_of_mem _ hc')) (hm.imp (fun hm c' hc' => hm c' (List.mem_cons_of_mem _ hc')) fun h => by
        rw [hg']
        exact h)
    exact ⟨h1, h2.trans hg'⟩

theorem Excl.value {w : World} {i r : ℕ} (he : Excl w i r) : w.value (.attr i) = w.heap[r]? := by
  obtain ⟨k, hk⟩ := he.own
  simp [World.value, World.ref, hk]

end SimCATS
