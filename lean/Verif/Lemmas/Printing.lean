import Verif.Spec.Printing
import Mathlib.Tactic.SplitIfs

/-!
Helper lemmas about printed forms.
-/

namespace SimCATS

open Spec

/-- Scans a text from bracket depth `d`; no result if a bracket is closed that was not opened or if one of the characters
in `stops` is found outside of brackets. -/
def scan (stops : List Char) : ℕ → List Char → Option ℕ
  | d, [] => some d
  | d, c :: r =>
    if d = 0 ∧ c ∈ stops then none
    else if opens c then scan stops (d + 1) r
    else if closes c then (if d = 0 then none else scan stops (d - 1) r)
    else scan stops d r

lemma scan_append (st : List Char) (a b : List Char) : ∀ d, scan st d (a ++ b) = (scan st d a).bind fun e => scan st e b := by
  induction a with
  | nil => exact fun d => rfl
  | cons c r ih =>
    intro d
    simp only [List.cons_append, scan]
    split_ifs <;> first | rfl | exact ih _

/-- Inside of more brackets the stops do not matter. -/
lemma scan_lift (st st' : List Char) (k : ℕ) (hk : 0 < k) (s : List Char) :
    ∀ d e, scan st d s = some e → scan st' (d + k) s = some (e + k) := by
  induction s with
  | nil =>
    intro d e h
    cases h
    rfl
  | cons c r ih =>
    intro d e h
    simp only [scan] at h ⊢
    rw [if_neg (by omega)]
    split_ifs at h ⊢ with h1 h2 h3 h4 h5 <;> try omega
    · rw [Nat.add_right_comm]
      exact ih _ _ h
    · rw [show d + k - 1 = d - 1 + k from by omega]
      exact ih _ _ h
    · exact ih _ _ h

lemma scan_plain (st : List Char) (s : List Char) (d : ℕ)
    (h : ∀ c ∈ s, opens c = false ∧ closes c = false ∧ c ∉ st) : scan st d s = some d := by
  induction s with
  | nil => rfl
  | cons c r ih =>
    obtain ⟨h1, h2, h3⟩ := h c (by simp)
    simp only [scan, h1, h2, h3, and_false, if_false, Bool.false_eq_true]
    exact ih fun x hx => h x (by simp [hx])

/-- Two sealed texts before stops are equal if the whole texts are. -/
lemma scan_split (st : List Char) (c d : Char) (hc : c ∈ st ∨ (opens c = false ∧ closes c = true))
    (hd : d ∈ st ∨ (opens d = false ∧ closes d = true)) (a b x y : List Char)
    (ha : scan st 0 a = some 0) (hb : scan st 0 b = some 0) (h : a ++ c :: x = b ++ d :: y) : a = b ∧ c = d ∧ x = y := by
  have key : ∀ c, (c ∈ st ∨ (opens c = false ∧ closes c = true)) → ∀ a b z, scan st 0 a = some 0 → scan st 0 b = some 0 →
      b = a ++ c :: z → False := by
    rintro ch hch a b z ha hb rfl
    rw [scan_append, ha] at hb
    simp only [Option.bind_some, scan] at hb
    rcases hch with h | ⟨h, h'⟩
    · rw [if_pos ⟨trivial, h⟩] at hb
      cases hb
    · simp [h, h'] at hb
  rcases List.append_eq_append_iff.1 h with ⟨e, h1, h2⟩ | ⟨e, h1, h2⟩
  · cases e with
    | nil =>
      simp only [List.append_nil, List.nil_append, List.cons.injEq] at h1 h2
      exact ⟨h1.symm, h2.1, h2.2⟩
    | cons c' z =>
      simp only [List.cons_append, List.cons.injEq] at h2
      rw [← h2.1] at h1
      exact (key c hc a b z ha hb h1).elim
  · cases e with
    | nil =>
      simp only [List.append_nil, List.nil_append, List.cons.injEq] at h1 h2
      exact ⟨h1, h2.1.symm, h2.2.symm⟩
    | cons c' z =>
      simp only [List.cons_append, List.cons.injEq] at h2
      rw [← h2.1] at h1
      exact (key d hd b a z hb ha h1).elim

/-- The scan counts brackets. -/
lemma scan_iff (st : List Char) (hst : ∀ c ∈ st, opens c = false ∧ closes c = false) (s : List Char) : ∀ d e, scan st d s = some e ↔
    (d + s.countP opens = e + s.countP closes ∧ (∀ p q, s = p ++ q → p.countP closes ≤ d + p.countP opens) ∧
      ∀ c ∈ st, ∀ p q, s = p ++ c :: q → p.countP closes < d + p.countP opens) := by
  induction s with
  | nil =>
    intro d e
    simp only [scan, Option.some.injEq, List.countP_nil, add_zero]
    constructor
    · rintro rfl
      refine ⟨rfl, fun p q h => ?_, fun c _ p q h => ?_⟩
      · obtain ⟨rfl, rfl⟩ := List.append_eq_nil_iff.1 h.symm
        simp
      · simp at h
    · exact fun h => h.1
  | cons x r ih =>
    intro d e
    have hoc : ¬ (opens x = true ∧ closes x = true) := by
      rintro ⟨h1, h2⟩
      simp only [opens, closes, Bool.or_eq_true, beq_iff_eq] at h1 h2
      rcases h1 with (rfl | rfl) | rfl <;> simp at h2
    have pre : ∀ (P : List Char → List Char → Prop), (∀ p q, x :: r = p ++ q → P p q) ↔ P [] (x :: r) ∧ ∀ p q, r = p ++ q → P (x :: p) q := by
      intro P
      constructor
      · exact fun h => ⟨h [] _ rfl, fun p q hp => h _ _ (by rw [hp]; rfl)⟩
      · rintro ⟨h1, h2⟩ p q hp
        cases p with
        | nil =>
          simp only [List.nil_append] at hp
          rw [← hp]
          exact h1
        | cons y p =>
          simp only [List.cons_append, List.cons.injEq] at hp
          obtain ⟨rfl, hp⟩ := hp
          exact h2 p q hp
    have pre2 : ∀ (P : List Char → Prop) c, (∀ p q, x :: r = p ++ c :: q → P p) ↔ (x = c → P []) ∧ ∀ p q, r = p ++ c :: q → P (x :: p) := by
      intro P c
      constructor
      · refine fun h => ⟨fun hc => h [] r (by rw [hc]; rfl), fun p q hp => h _ q (by rw [hp]; rfl)⟩
      · rintro ⟨h1, h2⟩ p q hp
        cases p with
        | nil =>
          simp only [List.nil_append, List.cons.injEq] at hp
          exact h1 hp.1
        | cons y p =>
          simp only [List.cons_append, List.cons.injEq] at hp
          obtain ⟨rfl, hp⟩ := hp
          exact h2 p q hp
    rw [pre fun p _ => p.countP closes ≤ d + p.countP opens]
    have e3 : (∀ c ∈ st, ∀ p q, x :: r = p ++ c :: q → p.countP closes < d + p.countP opens) ↔
        (x ∈ st → 0 < d) ∧ ∀ c ∈ st, ∀ p q, r = p ++ c :: q → (x :: p).countP closes < d + (x :: p).countP opens := by
      constructor
      · intro h
        refine ⟨fun hx => ?_, fun c hc => ((pre2 _ c).1 (h c hc)).2⟩
        have := ((pre2 (fun p => p.countP closes < d + p.countP opens) x).1 (h x hx)).1 rfl
        simpa using this
      · rintro ⟨h1, h2⟩ c hc
        refine (pre2 (fun p => p.countP closes < d + p.countP opens) c).2 ⟨?_, h2 c hc⟩
        rintro rfl
        simpa using h1 hc
    rw [e3]
    simp only [scan]
    by_cases h0 : d = 0 ∧ x ∈ st
    · rw [if_pos h0]
      simp only [reduceCtorEq, false_iff]
      rintro ⟨_, _, h, _⟩
      have := h h0.2
      omega
    rw [if_neg h0]
    have hx0 : x ∈ st → 0 < d := fun h => by
      by_contra hd
      exact h0 ⟨by omega, h⟩
    by_cases ho : opens x = true
    · have hcl : closes x = false := by
        cases hc : closes x with
        | false => rfl
        | true => exact absurd ⟨ho, hc⟩ hoc
      rw [if_pos ho, ih]
      simp only [List.countP_cons, ho, hcl, if_true, Bool.false_eq_true, if_false, List.countP_nil, add_zero, Nat.zero_le, true_and]
      constructor
      · rintro ⟨h1, h2, h3⟩
        refine ⟨by omega, fun p q hp => ?_, hx0, fun c hc p q hp => ?_⟩
        · have := h2 p q hp
          omega
        · have := h3 c hc p q hp
          omega
      · rintro ⟨h1, h2, _, h3⟩
        refine ⟨by omega, fun p q hp => ?_, fun c hc p q hp => ?_⟩
        · have := h2 p q hp
          omega
        · have := h3 c hc p q hp
          omega
    · have ho' : opens x = false := by simpa using ho
      rw [if_neg ho]
      by_cases hc : closes x = true
      · rw [if_pos hc]
        by_cases hd : d = 0
        · rw [if_pos hd]
          simp only [reduceCtorEq, false_iff]
          rintro ⟨_, ⟨_, h⟩, _⟩
          have := h [] r rfl
          simp only [List.countP_cons, hc, ho', if_true, List.countP_nil, Bool.false_eq_true, if_false] at this
          omega
        · rw [if_neg hd, ih]
          simp only [List.countP_cons, hc, ho', if_true, Bool.false_eq_true, if_false, List.countP_nil, add_zero, Nat.zero_le, true_and]
          constructor
          · rintro ⟨h1, h2, h3⟩
            refine ⟨by omega, fun p q hp => ?_, hx0, fun c hc p q hp => ?_⟩
            · have := h2 p q hp
              omega
            · have := h3 c hc p q hp
              omega
          · rintro ⟨h1, h2, _, h3⟩
            refine ⟨by omega, fun p q hp => ?_, fun c hc p q hp => ?_⟩
            · have := h2 p q hp
              omega
            · have := h3 c hc p q hp
              omega
      · have hc' : closes x = false := by simpa using hc
        rw [if_neg hc, ih]
        simp only [List.countP_cons, hc', ho', Bool.false_eq_true, if_false, List.countP_nil, add_zero, Nat.zero_le, true_and]
        constructor
        · rintro ⟨h1, h2, h3⟩
          exact ⟨h1, h2, hx0, h3⟩
        · rintro ⟨h1, h2, _, h3⟩
          exact ⟨h1, h2, h3⟩

lemma scan_balanced (s : List Char) (h : scan [','] 0 s = some 0) : Balanced s ∧ CommasInside s := by
  obtain ⟨h1, h2, h3⟩ := (scan_iff [','] (by decide) s 0 0).1 h
  refine ⟨⟨by omega, fun p q hp => ?_⟩, fun p q hp => ?_⟩
  · have := h2 p q hp
    omega
  · have := h3 ',' (by simp) p q hp
    omega

lemma scan_of_balanced (s : List Char) (h1 : Balanced s) (h2 : CommasInside s) : scan [','] 0 s = some 0 := by
  refine (scan_iff [','] (by decide) s 0 0).2 ⟨by have := h1.1; omega, fun p q hp => ?_, fun c hc p q hp => ?_⟩
  · have := h1.2 p q hp
    omega
  · obtain rfl : c = ',' := by simpa using hc
    have := h2 p q hp
    omega

section
variable (g : String → List Char) (t : String → Prop) (r : List Piece)

lemma render_nil : render g t [] = [] := rfl

lemma render_lit (s : String) : render g t (.lit s :: r) = s.toList ++ render g t r := rfl

lemma render_attr (n : String) : render g t (.attr n :: r) = g n ++ render g t r := rfl

open Classical in
lemma render_latest (n : String) : render g t (.latest n :: r) =
    "[latest=".toList ++ ((if t n then g n else "0".toList) ++ ("]".toList ++ render g t r)) := rfl

open Classical in
lemma render_flag (n : String) : render g t (.flag n :: r) =
    (if t n then "[activated]".toList else "[deactivated]".toList) ++ render g t r := rfl

end

/-- The first character of the rest of a format string. -/
def nextChar : List Piece → Option Char
  | .lit s :: _ => s.toList.head?
  | .latest _ :: _ => some '['
  | _ => none

lemma nextChar_render (r : List Piece) (ch : Char) (h : nextChar r = some ch) (g : String → List Char) (t : String → Prop) :
    ∃ x, render g t r = ch :: x := by
  cases r with
  | nil => cases h
  | cons p r =>
    rcases p with s | n | n | n
    · -- lit s
      simp only [nextChar] at h
      simp only [render_lit, render_attr, render_latest, render_flag]
      cases hs : s.toList with
      | nil =>
        rw [hs] at h
        cases h
      | cons c l =>
        rw [hs] at h
        cases h
        exact ⟨_, rfl⟩
    · -- attr n
      simp [nextChar] at h
    · -- latest n
      simp only [nextChar, Option.some.injEq] at h
      rw [← h]
      exact ⟨_, rfl⟩
    · -- flag n
      simp [nextChar] at h

/-- The attributes of a format string with the character that follows each of them. -/
def follows : List Piece → List (String × Option Char)
  | [] => []
  | .attr n :: r => (n, nextChar r) :: follows r
  | _ :: r => follows r

/-- The attributes printed as latest values. -/
def latests : List Piece → List String
  | [] => []
  | .latest n :: r => n :: latests r
  | _ :: r => latests r

/-- The attributes printed as flags. -/
def flags : List Piece → List String
  | [] => []
  | .flag n :: r => n :: flags r
  | _ :: r => flags r

/-- Every attribute, except at the end, is followed by text. -/
def separated : List Piece → Bool
  | [] => true
  | .attr _ :: r => (r.isEmpty || (nextChar r).isSome) && separated r
  | _ :: r => separated r

open Classical in
/-- The text printed for a latest value. -/
noncomputable def latestText (g : String → List Char) (t : String → Prop) (n : String) : List Char :=
  if t n then g n else "0".toList

lemma render_unique (g g' : String → List Char) (t t' : String → Prop) : ∀ (P : List Piece), separated P = true →
    (∀ n ch, (n, some ch) ∈ follows P → ∃ st, (ch ∈ st ∨ (opens ch = false ∧ closes ch = true)) ∧
      scan st 0 (g n) = some 0 ∧ scan st 0 (g' n) = some 0) →
    (∀ n ∈ latests P, scan [','] 0 (g n) = some 0 ∧ scan [','] 0 (g' n) = some 0) →
    render g t P = render g' t' P →
    (∀ n ch, (n, ch) ∈ follows P → g n = g' n) ∧ (∀ n ∈ latests P, latestText g t n = latestText g' t' n) ∧
      ∀ n ∈ flags P, t n ↔ t' n := by
  intro P
  induction P with
  | nil => exact fun _ _ _ _ => ⟨fun n ch h => by simp [follows] at h, fun n h => by simp [latests] at h, fun n h => by simp [flags] at h⟩
  | cons p r ih =>
    intro hs hf hl h
    rcases p with s | n | n | n
    · -- lit s
      simp only [render_nil, render_lit, render_attr, render_latest, render_flag, List.append_cancel_left_eq] at h
      exact ih hs hf hl h
    · -- attr n
      simp only [separated, Bool.and_eq_true, Bool.or_eq_true, List.isEmpty_iff] at hs
      simp only [render_lit, render_attr, render_latest, render_flag] at h
      have hfr : ∀ m ch, (m, some ch) ∈ follows r → ∃ st, (ch ∈ st ∨ (opens ch = false ∧ closes ch = true)) ∧
          scan st 0 (g m) = some 0 ∧ scan st 0 (g' m) = some 0 := fun m ch hm => hf m ch (by simp [follows, hm])
      have key : g n = g' n ∧ render g t r = render g' t' r := by
        rcases hs.1 with rfl | hc
        · simp only [render_nil, render_lit, render_attr, render_latest, render_flag, List.append_nil] at h ⊢
          exact ⟨h, trivial⟩
        · obtain ⟨ch, hch⟩ := Option.isSome_iff_exists.1 hc
          obtain ⟨x, hx⟩ := nextChar_render r ch hch g t
          obtain ⟨y, hy⟩ := nextChar_render r ch hch g' t'
          obtain ⟨st, h1, h2, h3⟩ := hf n ch (by simp [follows, hch])
          rw [hx, hy] at h ⊢
          obtain ⟨e1, -, e2⟩ := scan_split st ch ch h1 h1 _ _ _ _ h2 h3 h
          exact ⟨e1, by rw [e2]⟩
      obtain ⟨i1, i2, i3⟩ := ih hs.2 hfr hl key.2
      refine ⟨fun m ch hm => ?_, i2, i3⟩
      simp only [follows, List.mem_cons, Prod.mk.injEq] at hm
      rcases hm with ⟨rfl, _⟩ | hm
      · exact key.1
      · exact i1 m ch hm
    · -- latest n
      simp only [render_nil, render_lit, render_attr, render_latest, render_flag, List.append_cancel_left_eq] at h
      have hn := hl n (by simp [latests])
      have h0 : ∀ (u : String → List Char) (v : String → Prop), scan [','] 0 (u n) = some 0 →
          scan [','] 0 (latestText u v n) = some 0 := by
        intro u v hu
        unfold latestText
        split_ifs
        · exact hu
        · decide
      obtain ⟨e1, -, e2⟩ := scan_split [','] ']' ']' (Or.inr (by decide)) (Or.inr (by decide)) (latestText g t n) (latestText g' t' n)
        (render g t r) (render g' t' r) (h0 _ _ hn.1) (h0 _ _ hn.2) h
      obtain ⟨i1, i2, i3⟩ := ih hs hf (fun m hm => hl m (by simp [latests, hm])) e2
      refine ⟨i1, fun m hm => ?_, i3⟩
      simp only [latests, List.mem_cons] at hm
      rcases hm with rfl | hm
      · exact e1
      · exact i2 m hm
    · -- flag n
      simp only [render_lit, render_attr, render_latest, render_flag] at h
      have key : (t n ↔ t' n) ∧ render g t r = render g' t' r := by
        by_cases h1 : t n <;> by_cases h2 : t' n
        · rw [if_pos h1, if_pos h2, List.append_cancel_left_eq] at h
          exact ⟨iff_of_true h1 h2, h⟩
        · rw [if_pos h1, if_neg h2] at h
          simp at h
        · rw [if_neg h1, if_pos h2] at h
          simp at h
        · rw [if_neg h1, if_neg h2, List.append_cancel_left_eq] at h
          exact ⟨iff_of_false h1 h2, h⟩
      obtain ⟨i1, i2, i3⟩ := ih hs hf hl key.2
      refine ⟨i1, i2, fun m hm => ?_⟩
      simp only [flags, List.mem_cons] at hm
      rcases hm with rfl | hm
      · exact key.1
      · exact i3 m hm

/-- The scan of a format string, in which attributes may be only inside of brackets. -/
def scanPieces (st : List Char) : ℕ → List Piece → Option ℕ
  | d, [] => some d
  | d, .lit s :: r => (scan st d s.toList).bind fun e => scanPieces st e r
  | d, .attr _ :: r => if d = 0 then none else scanPieces st d r
  | d, .latest _ :: r => if d = 0 then none else scanPieces st d r
  | d, .flag _ :: r => if '[' ∈ st then none else scanPieces st d r

open Classical in
lemma scan_render (st : List Char) (hst : st ⊆ [',', '[']) (g : String → List Char) (t : String → Prop) : ∀ (P : List Piece),
    (∀ n ch, (n, ch) ∈ follows P → scan [','] 0 (g n) = some 0) → (∀ n ∈ latests P, scan [','] 0 (g n) = some 0) →
    ∀ d e, scanPieces st d P = some e → scan st d (render g t P) = some e := by
  intro P
  induction P with
  | nil => exact fun _ _ d e h => h
  | cons p r ih =>
    intro hf hl d e h
    rcases p with s | n | n | n
    · -- lit s
      simp only [scanPieces] at h
      simp only [render_nil, render_lit, render_attr, render_latest, render_flag, scan_append]
      cases hs : scan st d s.toList with
      | none =>
        rw [hs] at h
        cases h
      | some x =>
        rw [hs] at h
        exact ih hf hl x e h
    · -- attr n
      simp only [scanPieces] at h
      by_cases hd : d = 0
      · rw [if_pos hd] at h
        cases h
      · rw [if_neg hd] at h
        simp only [render_nil, render_lit, render_attr, render_latest, render_flag, scan_append]
        have := scan_lift [','] st d (by omega) (g n) 0 0 (hf n (nextChar r) (by simp [follows]))
        rw [Nat.zero_add] at this
        rw [this]
        exact ih (fun m ch hm => hf m ch (by simp [follows, hm])) hl d e h
    · -- latest n
      simp only [scanPieces] at h
      by_cases hd : d = 0
      · rw [if_pos hd] at h
        cases h
      · rw [if_neg hd] at h
        have h0 : scan [','] 0 ("[latest=".toList ++ (latestText g t n ++ "]".toList)) = some 0 := by
          rw [scan_append, show scan [','] 0 "[latest=".toList = some 1 from by decide]
          simp only [Option.bind_some]
          rw [scan_append]
          have : scan [','] 0 (latestText g t n) = some 0 := by
            unfold latestText
            split_ifs
            · exact hl n (by simp [latests])
            · decide
          rw [scan_lift [','] [','] 1 (by omega) _ 0 0 this]
          decide
        have := scan_lift [','] st d (by omega) _ 0 0 h0
        rw [Nat.zero_add] at this
        have e1 : render g t (.latest n :: r) = ("[latest=".toList ++ (latestText g t n ++ "]".toList)) ++ render g t r := by
          simp only [render_nil, render_lit, render_attr, render_latest, render_flag, latestText, List.append_assoc]
        rw [e1, scan_append, this]
        exact ih hf (fun m hm => hl m (by simp [latests, hm])) d e h
    · -- flag n
      simp only [scanPieces] at h
      by_cases hs : '[' ∈ st
      · rw [if_pos hs] at h
        cases h
      · rw [if_neg hs] at h
        simp only [render_nil, render_lit, render_attr, render_latest, render_flag, scan_append]
        have h1 : ∀ s : List Char, scan [','] 0 s = some 0 → scan st 0 s = some 0 → scan st d s = some d := by
          intro s h h'
          by_cases hd : d = 0
          · rw [hd]
            exact h'
          · have := scan_lift [','] st d (by omega) s 0 0 h
            rwa [Nat.zero_add] at this
        have hsub : ∀ c, c ∈ st → c = ',' := by
          intro c hc
          have := hst hc
          simp only [List.mem_cons, List.not_mem_nil, or_false] at this
          rcases this with rfl | rfl
          · rfl
          · exact absurd hc hs
        have h2 : scan st d (if t n then "[activated]".toList else "[deactivated]".toList) = some d := by
          have a1 : ∀ s : List Char, ',' ∉ s → scan [','] 0 s = some 0 → scan st 0 s = some 0 := by
            intro s hs' h
            obtain ⟨b1, b2, b3⟩ := (scan_iff [','] (by decide) s 0 0).1 h
            refine (scan_iff st (fun c hc => by rw [hsub c hc]; decide) s 0 0).2 ⟨b1, b2, fun c hc p q hp => ?_⟩
            obtain rfl := hsub c hc
            exact absurd (by rw [hp]; simp) hs'
          split_ifs
          · exact h1 _ (by decide) (a1 _ (by decide) (by decide))
          · exact h1 _ (by decide) (a1 _ (by decide) (by decide))
        rw [h2]
        exact ih hf hl d e h

lemma pieces_separated (c : PCls) : separated c.pieces = true := by
  cases c <;> decide

lemma pieces_scan (c : PCls) (h : c ≠ .multi) : scanPieces [','] 1 c.pieces = some 0 := by
  cases c <;> first | exact absurd rfl h | decide

lemma pieces_shown (c : PCls) : (follows c.pieces).map Prod.fst = shown c := by
  cases c <;> decide

lemma pieces_latest (c : PCls) : latests c.pieces = latestOf c := by
  cases c <;> decide

lemma pieces_flag (c : PCls) : flags c.pieces = flagOf c := by
  cases c <;> decide

lemma pieces_follow (c : PCls) (h : c ≠ .multi) : ∀ p ∈ follows c.pieces, p.2 = some ',' ∨ p.2 = some ')' ∨
    (p.2 = some '[' ∧ p.1 = "sigma" ∧ latestOf c ≠ []) ∨ (p.2 = some '\'' ∧ p.1 = "cdf_type" ∧ c = .geometric) := by
  cases c <;> first | exact absurd rfl h | decide

lemma sampler_scan (c : PCls) (h : IsSampler c) : scanPieces ['['] 1 c.pieces = some 0 := by
  rcases h with rfl | rfl | rfl | rfl <;> decide

lemma name_scan (c : PCls) : scan [','] 0 (c.name.toList ++ ['(']) = some 1 ∧ scan ['['] 0 (c.name.toList ++ ['(']) = some 1 := by
  cases c <;> decide

lemma follow_shown {c : PCls} {n : String} {ch : Option Char} (h : (n, ch) ∈ follows c.pieces) : n ∈ shown c := by
  rw [← pieces_shown]
  exact List.mem_map.2 ⟨_, h, rfl⟩

lemma shown_follow {c : PCls} {n : String} (h : n ∈ shown c) : ∃ ch, (n, ch) ∈ follows c.pieces := by
  rw [← pieces_shown] at h
  obtain ⟨⟨m, ch⟩, h1, h2⟩ := List.mem_map.1 h
  cases h2
  exact ⟨ch, h1⟩

lemma scan_join (g : ℕ → List Char) (n : ℕ) : (∀ i < n, scan [','] 0 (g i) = some 0) → scan [','] 1 (joinItems n g) = some 1 := by
  induction n generalizing g with
  | zero => exact fun _ => rfl
  | succ n ih =>
    intro h
    have h0 : scan [','] 1 (g 0) = some 1 := scan_lift [','] [','] 1 (by omega) _ 0 0 (h 0 (by omega))
    cases n with
    | zero => exact h0
    | succ n =>
      have e : joinItems (n + 2) g = g 0 ++ ([',', ' '] ++ joinItems (n + 1) fun i => g (i + 1)) := rfl
      rw [e, scan_append, h0]
      simp only [Option.bind_some]
      rw [scan_append, show scan [','] 1 [',', ' '] = some 1 from by decide]
      exact ih (fun i => g (i + 1)) fun i hi => h (i + 1) (by omega)

/-- A text in brackets is sealed. -/
lemma scan_bracket (o : Char) (ho : opens o = true) (s e : List Char) (st : List Char) (hst : o ∉ st)
    (h : scan [','] 1 s = some 1) (h' : scan [','] 1 s = some 1 → scan st 1 s = some 1) (he : scan st 1 e = some 0) :
    scan st 0 (o :: (s ++ e)) = some 0 := by
  simp only [scan, hst, ho, and_false, if_false, if_true]
  rw [scan_append, h' h]
  exact he

lemma digit_plain (c : Char) (h : c.isDigit = true) : opens c = false ∧ closes c = false ∧ c ∉ [',', ':'] := by
  refine ⟨?_, ?_, ?_⟩
  · cases ho : opens c with
    | false => rfl
    | true =>
      simp only [opens, Bool.or_eq_true, beq_iff_eq] at ho
      rcases ho with (rfl | rfl) | rfl <;> simp at h
  · cases ho : closes c with
    | false => rfl
    | true =>
      simp only [closes, Bool.or_eq_true, beq_iff_eq] at ho
      rcases ho with (rfl | rfl) | rfl <;> simp at h
  · intro hm
    simp only [List.mem_cons, List.not_mem_nil, or_false] at hm
    rcases hm with rfl | rfl <;> simp at h

lemma int_scan {fmt : Fmt} (hf : Faithful fmt) (k : ℕ) : scan [',', ':'] 0 (fmt.int k) = some 0 :=
  scan_plain _ _ _ fun c hc => digit_plain c (hf.int_digits k c hc)

lemma int_scan_comma {fmt : Fmt} (hf : Faithful fmt) (k : ℕ) : scan [','] 0 (fmt.int k) = some 0 := by
  apply scan_plain
  intro c hc
  obtain ⟨h1, h2, h3⟩ := digit_plain c (hf.int_digits k c hc)
  refine ⟨h1, h2, fun h => h3 ?_⟩
  simp only [List.mem_cons, List.not_mem_nil, or_false] at h ⊢
  exact Or.inl h

lemma num_scan {fmt : Fmt} (hf : Faithful fmt) (x : ℝ) (hx : x ∈ fmt.floats) (st : List Char) (hst : st ⊆ [',', '[']) :
    scan st 0 (fmt.num x) = some 0 := by
  apply scan_plain
  intro c hc
  obtain ⟨h1, h2, h3⟩ := hf.num_plain x hx c hc
  refine ⟨h1, h2, fun hm => ?_⟩
  have := hst hm
  simp only [List.mem_cons, List.not_mem_nil, or_false] at this
  rcases this with rfl | rfl
  · exact h3 rfl
  · simp [opens] at h1

lemma print_inst (fmt : Fmt) (c : PCls) (f : String → PObj) : (PObj.inst c f).print fmt =
    c.name.toList ++ '(' :: render (fun n => (f n).print fmt) (fun n => (f n).truthy) c.pieces := rfl

lemma print_scan {fmt : Fmt} (hf : Faithful fmt) : ∀ a : PObj, Ordinary fmt a → scan [','] 0 (a.print fmt) = some 0 := by
  intro a
  induction a with
  | none => exact fun _ => (by decide : scan [','] 0 "None".toList = some 0)
  | bool b =>
    intro _
    cases b with
    | false => exact (by decide : scan [','] 0 "False".toList = some 0)
    | true => exact (by decide : scan [','] 0 "True".toList = some 0)
  | num x => exact fun h => num_scan hf x h _ (by simp)
  | word s =>
    rintro (rfl | rfl)
    · exact (by decide : scan [','] 0 "sigmoid".toList = some 0)
    · exact (by decide : scan [','] 0 "cauchy".toList = some 0)
  | gen s => exact fun _ => (by decide : scan [','] 0 "Generator(PCG64)".toList = some 0)
  | array v => exact fun _ => scan_of_balanced _ (hf.arr_balanced v) (hf.arr_commas v)
  | list n f ih =>
    exact fun h => scan_bracket '[' (by decide) _ _ [','] (by decide) (scan_join _ n fun i hi => ih i (h i hi)) id (by decide)
  | tuple n f ih =>
    intro h
    exact scan_bracket '(' (by decide) _ _ [','] (by decide) (scan_join _ n fun i hi => ih i (h i hi)) id
      (by split_ifs <;> decide)
  | dict n k f ih =>
    intro h
    refine scan_bracket '{' (by decide) _ _ [','] (by decide) (scan_join _ n fun i hi => ?_) id (by decide)
    have h1 := int_scan_comma hf (k i)
    rw [show fmt.int (k i) ++ ':' :: ' ' :: (f i).print fmt = fmt.int (k i) ++ ([':', ' '] ++ (f i).print fmt) from rfl,
      scan_append, h1]
    simp only [Option.bind_some]
    rw [scan_append, show scan [','] 0 [':', ' '] = some 0 from by decide]
    exact ih i (h i hi)
  | inst c f ih =>
    rintro ⟨h1, h2, h3, -, -⟩
    have e : (PObj.inst c f).print fmt = (c.name.toList ++ ['(']) ++
        render (fun n => (f n).print fmt) (fun n => (f n).truthy) c.pieces := by
      rw [print_inst, List.append_assoc]
      rfl
    rw [e, scan_append, (name_scan c).1]
    exact scan_render [','] (by simp) _ _ c.pieces (fun n ch hn => ih n (h2 n (follow_shown hn)))
      (fun n hn => ih n (h3 n (by rw [← pieces_latest]; exact hn))) 1 0 (pieces_scan c h1)

/-- Numbers and samplers have no square bracket outside of brackets. -/
lemma sampler_print_scan {fmt : Fmt} (hf : Faithful fmt) (a : PObj) (ha : Ordinary fmt a) (hs : NumberOrSampler a) :
    scan ['['] 0 (a.print fmt) = some 0 := by
  cases a with
  | num x => exact num_scan hf x ha _ (by simp)
  | inst c f =>
    obtain ⟨h1, h2, h3, -, -⟩ := ha
    have e : (PObj.inst c f).print fmt = (c.name.toList ++ ['(']) ++
        render (fun n => (f n).print fmt) (fun n => (f n).truthy) c.pieces := by
      rw [print_inst, List.append_assoc]
      rfl
    rw [e, scan_append, (name_scan c).2]
    exact scan_render ['['] (by simp) _ _ c.pieces (fun n ch hn => print_scan hf _ (h2 n (follow_shown hn)))
      (fun n hn => print_scan hf _ (h3 n (by rw [← pieces_latest]; exact hn))) 1 0 (sampler_scan c hs)
  | none => exact hs.elim
  | bool b => exact hs.elim
  | word s => exact hs.elim
  | gen s => exact hs.elim
  | array v => exact hs.elim
  | list n f => exact hs.elim
  | tuple n f => exact hs.elim
  | dict n k f => exact hs.elim

/-- The kinds of printed objects. -/
inductive Kind
  | none | bool | num | word | gen | array | bracket | tuple | dict | inst
  deriving DecidableEq

/-- The kind of a printed text. -/
def kindOf (s : List Char) : Kind :=
  if s.head? = some '[' then .bracket
  else if s.head? = some '(' then .tuple
  else if s.head? = some '{' then .dict
  else if s.head? = some 'a' then .array
  else if s = ['N', 'o', 'n', 'e'] then .none
  else if s = ['T', 'r', 'u', 'e'] ∨ s = ['F', 'a', 'l', 's', 'e'] then .bool
  else if s = ['s', 'i', 'g', 'm', 'o', 'i', 'd'] ∨ s = ['c', 'a', 'u', 'c', 'h', 'y'] then .word
  else if s.head? = some 'G' then .gen
  else if (s.head?.map fun c => c.isDigit || c == '-') = some true then .num
  else .inst

lemma kind_num {fmt : Fmt} (hf : Faithful fmt) (x : ℝ) (hx : x ∈ fmt.floats) : kindOf (fmt.num x) = .num := by
  obtain ⟨c, r, h, hc⟩ := hf.num_head x hx
  rw [h]
  have hd : (c.isDigit || c == '-') = true := by
    rcases hc with hc | rfl
    · rw [hc]
      rfl
    · rfl
  have ne : ∀ d : Char, (d.isDigit || d == '-') = false → c ≠ d := by
    rintro d hd' rfl
    rw [hd] at hd'
    cases hd'
  unfold kindOf
  simp only [List.head?_cons, Option.some.injEq, List.cons.injEq, ne '[' (by decide), ne '(' (by decide), ne '{' (by decide),
    ne 'a' (by decide), ne 'N' (by decide), ne 'T' (by decide), ne 'F' (by decide), ne 's' (by decide), ne 'c' (by decide),
    ne 'G' (by decide), false_and, or_self, if_false, Option.map_some, hd, if_true]

lemma kind_inst (c : PCls) (r : List Char) : kindOf (c.name.toList ++ '(' :: r) = .inst := by
  cases c <;> simp [kindOf, PCls.name]

lemma kind_array {fmt : Fmt} (hf : Faithful fmt) (v : List ℝ) : kindOf (fmt.arr v) = .bracket ∨ kindOf (fmt.arr v) = .array := by
  rcases hf.arr_head v with h | h
  · left
    simp [kindOf, h]
  · right
    simp [kindOf, h]

/-- The class of a name. -/
def ofName (s : String) : Option PCls :=
  [PCls.gaussian, .lorentzian, .rise, .barrier, .multi, .circle, .linear, .white, .pink, .fermi, .gaussBlur, .dotJumps,
    .potentialRtn, .responseRtn, .geometric, .normalSampler, .uniformSampler, .logNormalSampler, .exponentialSampler,
    .sensorGeneric, .scanSensor, .simulation].find? fun c => c.name == s

lemma ofName_name (c : PCls) : ofName c.name = some c := by
  cases c <;> decide

/-- Names of classes end at the parenthesis. -/
lemma name_unique (c d : PCls) (x y : List Char) (h : c.name.toList ++ '(' :: x = d.name.toList ++ '(' :: y) : c = d ∧ x = y := by
  have hn : ∀ c : PCls, scan ['('] 0 c.name.toList = some 0 := by
    intro c
    cases c <;> decide
  obtain ⟨h1, -, h2⟩ := scan_split ['('] '(' '(' (by simp) (by simp) _ _ _ _ (hn c) (hn d) h
  refine ⟨?_, h2⟩
  have h3 : c.name = d.name := String.toList_injective h1
  have h4 := ofName_name c
  rw [h3, ofName_name d] at h4
  exact (Option.some.inj h4).symm

lemma join_unique (cl : Char) (hcl : opens cl = false ∧ closes cl = true) : ∀ (n m : ℕ) (g h : ℕ → List Char),
    (∀ i < n, scan [','] 0 (g i) = some 0 ∧ g i ≠ []) → (∀ i < m, scan [','] 0 (h i) = some 0 ∧ h i ≠ []) →
    joinItems n g ++ [cl] = joinItems m h ++ [cl] → n = m ∧ ∀ i < n, g i = h i := by
  have hc : cl ≠ ',' := by
    rintro rfl
    exact absurd hcl.2 (by decide)
  have ne : ∀ m (h : ℕ → List Char), h 0 ≠ [] → joinItems (m + 1) h ≠ [] := by
    intro m h h0 hj
    cases m with
    | zero => exact h0 hj
    | succ m =>
      have e : joinItems (m + 2) h = h 0 ++ (',' :: ' ' :: joinItems (m + 1) fun i => h (i + 1)) := rfl
      rw [e] at hj
      exact h0 (List.append_eq_nil_iff.1 hj).1
  intro n
  induction n with
  | zero =>
    intro m g h _ hh hj
    cases m with
    | zero => exact ⟨rfl, fun i hi => absurd hi (by omega)⟩
    | succ m => exact absurd (List.append_cancel_right hj).symm (ne m h (hh 0 (by omega)).2)
  | succ n ih =>
    intro m g h hg hh hj
    cases m with
    | zero => exact absurd (List.append_cancel_right hj) (ne n g (hg 0 (by omega)).2)
    | succ m =>
      cases n with
      | zero =>
        cases m with
        | zero =>
          refine ⟨rfl, fun i hi => ?_⟩
          obtain rfl : i = 0 := by omega
          exact List.append_cancel_right hj
        | succ m =>
          have hj' : g 0 ++ cl :: [] = h 0 ++ ',' :: (' ' :: joinItems (m + 1) (fun i => h (i + 1)) ++ [cl]) := by
            have e : joinItems (m + 2) h = h 0 ++ (',' :: ' ' :: joinItems (m + 1) fun i => h (i + 1)) := rfl
            rw [e, List.append_assoc] at hj
            exact hj
          exact absurd (scan_split [','] cl ',' (Or.inr hcl) (by simp) _ _ _ _ (hg 0 (by omega)).1 (hh 0 (by omega)).1 hj').2.1 hc
      | succ n =>
        have e : joinItems (n + 2) g = g 0 ++ (',' :: ' ' :: joinItems (n + 1) fun i => g (i + 1)) := rfl
        rw [e, List.append_assoc] at hj
        cases m with
        | zero =>
          exact absurd (scan_split [','] ',' cl (by simp) (Or.inr hcl) _ _ _ _ (hg 0 (by omega)).1 (hh 0 (by omega)).1 hj).2.1.symm hc
        | succ m =>
          have e : joinItems (m + 2) h = h 0 ++ (',' :: ' ' :: joinItems (m + 1) fun i => h (i + 1)) := rfl
          rw [e, List.append_assoc] at hj
          obtain ⟨h1, -, h2⟩ := scan_split [','] ',' ',' (by simp) (by simp) _ _ _ _ (hg 0 (by omega)).1 (hh 0 (by omega)).1 hj
          obtain ⟨h3, h4⟩ := ih (m + 1) (fun i => g (i + 1)) (fun i => h (i + 1)) (fun i hi => hg _ (by omega))
            (fun i hi => hh _ (by omega)) (List.cons.inj h2).2
          refine ⟨by omega, fun i hi => ?_⟩
          cases i with
          | zero => exact h1
          | succ i => exact h4 i (by omega)

lemma tuple_unique (n m : ℕ) (g h : ℕ → List Char)
    (hg : ∀ i < n, scan [','] 0 (g i) = some 0 ∧ g i ≠ []) (hh : ∀ i < m, scan [','] 0 (h i) = some 0 ∧ h i ≠ [])
    (hj : joinItems n g ++ (if n = 1 then [',', ')'] else [')']) = joinItems m h ++ if m = 1 then [',', ')'] else [')']) :
    n = m ∧ ∀ i < n, g i = h i := by
  have key : ∀ m (g h : ℕ → List Char), scan [','] 0 (g 0) = some 0 → (∀ i < m, scan [','] 0 (h i) = some 0 ∧ h i ≠ []) →
      m ≠ 1 → g 0 ++ [',', ')'] = joinItems m h ++ [')'] → False := by
    intro m g h hg hh hm hj
    match m with
    | 0 =>
      have := congrArg List.length hj
      simp [joinItems] at this
    | 1 => exact hm rfl
    | m + 2 =>
      have e : joinItems (m + 2) h = h 0 ++ (',' :: ' ' :: joinItems (m + 1) fun i => h (i + 1)) := rfl
      rw [e, List.append_assoc] at hj
      have h2 := (scan_split [','] ',' ',' (by simp) (by simp) _ _ _ _ hg (hh 0 (by omega)).1 hj).2.2
      simp at h2
  by_cases h1 : n = 1 <;> by_cases h2 : m = 1
  · subst h1
    subst h2
    refine ⟨rfl, fun i hi => ?_⟩
    obtain rfl : i = 0 := by omega
    exact List.append_cancel_right hj
  · subst h1
    rw [if_pos rfl, if_neg h2] at hj
    exact (key m g h (hg 0 (by omega)).1 hh h2 hj).elim
  · subst h2
    rw [if_pos rfl, if_neg h1] at hj
    exact (key n h g (hh 0 (by omega)).1 hg h1 hj.symm).elim
  · rw [if_neg h1, if_neg h2] at hj
    exact join_unique ')' (by decide) n m g h hg hh hj

/-- The kind of an object other than an array. -/
def PObj.kind : PObj → Kind
  | .none => .none
  | .bool _ => .bool
  | .num _ => .num
  | .word _ => .word
  | .gen _ => .gen
  | .array _ => .array
  | .list _ _ => .bracket
  | .tuple _ _ => .tuple
  | .dict _ _ _ => .dict
  | .inst _ _ => .inst

lemma kind_print {fmt : Fmt} (hf : Faithful fmt) (a : PObj) (ha : Ordinary fmt a) :
    kindOf (a.print fmt) = a.kind ∨ ((∃ v, a = .array v) ∧ kindOf (a.print fmt) = .bracket) := by
  cases a with
  | none => exact Or.inl (by decide : kindOf "None".toList = .none)
  | bool b =>
    left
    cases b with
    | false => exact (by decide : kindOf "False".toList = .bool)
    | true => exact (by decide : kindOf "True".toList = .bool)
  | num x => exact Or.inl (kind_num hf x ha)
  | word s =>
    left
    rcases ha with rfl | rfl
    · exact (by decide : kindOf "sigmoid".toList = .word)
    · exact (by decide : kindOf "cauchy".toList = .word)
  | gen s => exact Or.inl (by decide : kindOf "Generator(PCG64)".toList = .gen)
  | array v =>
    rcases kind_array hf v with h | h
    · exact Or.inr ⟨⟨v, rfl⟩, h⟩
    · exact Or.inl h
  | list n f => exact Or.inl rfl
  | tuple n f => exact Or.inl rfl
  | dict n k f => exact Or.inl rfl
  | inst c f => exact Or.inl (kind_inst c _)

lemma print_ne_nil {fmt : Fmt} (hf : Faithful fmt) (a : PObj) (ha : Ordinary fmt a) : a.print fmt ≠ [] := by
  intro h
  have hk := kind_print hf a ha
  rw [h] at hk
  have h0 : kindOf [] = .inst := by decide
  rw [h0] at hk
  rcases hk with hk | ⟨_, hk⟩
  · cases a with
    | inst c f =>
      rw [print_inst] at h
      simp at h
    | _ => simp [PObj.kind] at hk
  · cases hk

lemma kind_same {fmt : Fmt} (hf : Faithful fmt) {a b : PObj} (ha : Ordinary fmt a) (hb : Ordinary fmt b)
    (h : a.print fmt = b.print fmt) (hna : ∀ v, a ≠ .array v) :
    b.kind = a.kind ∨ ((∃ v, b = .array v) ∧ a.kind = .bracket) := by
  have h1 := kind_print hf a ha
  have h2 := kind_print hf b hb
  rcases h1 with h1 | ⟨⟨v, h1⟩, _⟩
  · rcases h2 with h2 | ⟨h2, h3⟩
    · left
      rw [← h1, ← h2, h]
    · right
      refine ⟨h2, ?_⟩
      rw [← h1, h, h3]
  · exact absurd h1 (hna v)

end SimCATS
