import Verif.Lemmas.Printing
import Mathlib.Algebra.Order.Floor.Semiring
import Mathlib.Data.Real.Archimedean

/-!
Printed forms determine objects.
-/

namespace SimCATS

open Spec

/-- The same printed instance has the same printed attributes. -/
lemma inst_unique {fmt : Fmt} (hf : Faithful fmt) (c : PCls) (f g : String → PObj) (ha : Ordinary fmt (.inst c f))
    (hb : Ordinary fmt (.inst c g))
    (h : render (fun n => (f n).print fmt) (fun n => (f n).truthy) c.pieces =
      render (fun n => (g n).print fmt) (fun n => (g n).truthy) c.pieces) :
    (∀ n ∈ shown c, (f n).print fmt = (g n).print fmt) ∧
    (∀ n ∈ latestOf c, latestText (fun n => (f n).print fmt) (fun n => (f n).truthy) n =
      latestText (fun n => (g n).print fmt) (fun n => (g n).truthy) n) ∧
    ∀ n ∈ flagOf c, (f n).truthy ↔ (g n).truthy := by
  obtain ⟨a1, a2, a3, a4, a5⟩ := ha
  obtain ⟨_, b2, b3, b4, b5⟩ := hb
  obtain ⟨h1, h2, h3⟩ := render_unique _ _ _ _ c.pieces (pieces_separated c) (by
    intro n ch hn
    have hs := follow_shown hn
    have p1 := print_scan hf _ (a2 n hs)
    have p2 := print_scan hf _ (b2 n hs)
    rcases pieces_follow c a1 _ hn with e | e | ⟨e, e', e''⟩ | ⟨e, e', e''⟩
    · exact ⟨[','], Or.inl (by cases e; simp), p1, p2⟩
    · exact ⟨[','], Or.inr (by cases e; decide), p1, p2⟩
    · dsimp only at e e'
      subst e'
      exact ⟨['['], Or.inl (by cases e; simp), sampler_print_scan hf _ (a2 _ hs) (a4 e''),
        sampler_print_scan hf _ (b2 _ hs) (b4 e'')⟩
    · dsimp only at e e'
      subst e'
      refine ⟨['\''], Or.inl (by cases e; simp), ?_, ?_⟩
      · rcases a5 e'' with h | h
        · simp only [h]
          exact (by decide : scan ['\''] 0 "sigmoid".toList = some 0)
        · simp only [h]
          exact (by decide : scan ['\''] 0 "cauchy".toList = some 0)
      · rcases b5 e'' with h | h
        · simp only [h]
          exact (by decide : scan ['\''] 0 "sigmoid".toList = some 0)
        · simp only [h]
          exact (by decide : scan ['\''] 0 "cauchy".toList = some 0))
    (fun n hn => by
      rw [pieces_latest] at hn
      exact ⟨print_scan hf _ (a3 n hn), print_scan hf _ (b3 n hn)⟩) h
  refine ⟨fun n hn => ?_, fun n hn => h2 n (by rwa [pieces_latest]), fun n hn => h3 n (by rwa [pieces_flag])⟩
  obtain ⟨ch, hch⟩ := shown_follow hn
  exact h1 n ch hch

/-- Only 0 is printed as `0`. -/
lemma zero_falsy {fmt : Fmt} (hf : Faithful fmt) (a : PObj) (ha : Ordinary fmt a) (h : a.print fmt = "0".toList) : ¬ a.truthy := by
  have hk : kindOf (a.print fmt) = .num := by
    rw [h]
    decide
  rcases kind_print hf a ha with e | ⟨_, e⟩
  · rw [hk] at e
    cases a with
    | num x =>
      intro ht
      exact ht (hf.num_zero x ha h)
    | _ => simp [PObj.kind] at e
  · rw [hk] at e
    cases e

lemma print_unique {fmt : Fmt} (hf : Faithful fmt) : ∀ a : PObj, Ordinary fmt a → ∀ b : PObj, Ordinary fmt b →
    a.print fmt = b.print fmt → SamePrinted fmt a b := by
  intro a
  induction a with
  | none =>
    intro ha b hb h
    rcases kind_same hf ha hb h (by simp) with hk | ⟨_, hk⟩
    · cases b <;> simp [PObj.kind] at hk
      rfl
    · cases hk
  | bool x =>
    intro ha b hb h
    rcases kind_same hf ha hb h (by simp) with hk | ⟨_, hk⟩
    · cases b with
      | bool y =>
        show PObj.bool y = .bool x
        have e : (if x then "True".toList else "False".toList) = if y then "True".toList else "False".toList := h
        cases x <;> cases y <;> first | rfl | simp at e
      | _ => simp [PObj.kind] at hk
    · cases hk
  | num x =>
    intro ha b hb h
    rcases kind_same hf ha hb h (by simp) with hk | ⟨_, hk⟩
    · cases b with
      | num y =>
        show PObj.num y = .num x
        rw [hf.num_inj ha hb h]
      | _ => simp [PObj.kind] at hk
    · cases hk
  | word s =>
    intro ha b hb h
    rcases kind_same hf ha hb h (by simp) with hk | ⟨_, hk⟩
    · cases b with
      | word t =>
        show PObj.word t = .word s
        rw [String.toList_injective (show s.toList = t.toList from h)]
      | _ => simp [PObj.kind] at hk
    · cases hk
  | gen s =>
    intro ha b hb h
    rcases kind_same hf ha hb h (by simp) with hk | ⟨_, hk⟩
    · cases b with
      | gen t => exact ⟨t, rfl⟩
      | _ => simp [PObj.kind] at hk
    · cases hk
  | array v =>
    intro ha b hb h
    refine ⟨h.symm, ?_⟩
    by_cases hna : ∃ w, b = .array w
    · exact Or.inl hna
    · right
      push Not at hna
      rcases kind_same hf hb ha h.symm hna with hk | ⟨_, hk⟩
      · cases b <;> simp [PObj.kind] at hk
        exact absurd rfl (hna _)
      · cases b with
        | list n g => exact ⟨n, g, rfl⟩
        | _ => simp [PObj.kind] at hk
  | list n f ih =>
    intro ha b hb h
    rcases kind_same hf ha hb h (by simp) with hk | ⟨⟨v, rfl⟩, _⟩
    · cases b with
      | list m g =>
        left
        obtain ⟨rfl, h2⟩ := join_unique ']' (by decide) n m _ _
          (fun i hi => ⟨print_scan hf _ (ha i hi), print_ne_nil hf _ (ha i hi)⟩)
          (fun i hi => ⟨print_scan hf _ (hb i hi), print_ne_nil hf _ (hb i hi)⟩) (List.cons.inj h).2
        exact ⟨g, rfl, fun i hi => ih i (ha i hi) _ (hb i hi) (h2 i hi)⟩
      | _ => simp [PObj.kind] at hk
    · exact Or.inr ⟨v, rfl, h.symm⟩
  | tuple n f ih =>
    intro ha b hb h
    rcases kind_same hf ha hb h (by simp) with hk | ⟨_, hk⟩
    · cases b with
      | tuple m g =>
        obtain ⟨rfl, h2⟩ := tuple_unique n m _ _
          (fun i hi => ⟨print_scan hf _ (ha i hi), print_ne_nil hf _ (ha i hi)⟩)
          (fun i hi => ⟨print_scan hf _ (hb i hi), print_ne_nil hf _ (hb i hi)⟩) (List.cons.inj h).2
        exact ⟨g, rfl, fun i hi => ih i (ha i hi) _ (hb i hi) (h2 i hi)⟩
      | _ => simp [PObj.kind] at hk
    · cases hk
  | dict n k f ih =>
    intro ha b hb h
    rcases kind_same hf ha hb h (by simp) with hk | ⟨_, hk⟩
    · cases b with
      | dict m l g =>
        have key : ∀ (j : ℕ) (x : PObj), Ordinary fmt x → scan [','] 0 (fmt.int j ++ ':' :: ' ' :: x.print fmt) = some 0 ∧
            fmt.int j ++ ':' :: ' ' :: x.print fmt ≠ [] := by
          intro j x hx
          have h1 := print_scan hf (.dict 1 (fun _ => j) fun _ => x) (fun i _ => hx)
          refine ⟨?_, by simp⟩
          rw [show fmt.int j ++ ':' :: ' ' :: x.print fmt = fmt.int j ++ ([':', ' '] ++ x.print fmt) from rfl,
            scan_append, int_scan_comma hf j]
          simp only [Option.bind_some]
          rw [scan_append, show scan [','] 0 [':', ' '] = some 0 from by decide]
          exact print_scan hf x hx
        obtain ⟨rfl, h2⟩ := join_unique '}' (by decide) n m _ _ (fun i hi => key (k i) _ (ha i hi))
          (fun i hi => key (l i) _ (hb i hi)) (List.cons.inj h).2
        refine ⟨l, g, rfl, fun i hi => ?_⟩
        obtain ⟨e1, -, e2⟩ := scan_split [',', ':'] ':' ':' (by simp) (by simp) _ _ _ _ (int_scan hf (k i)) (int_scan hf (l i))
          (h2 i hi)
        exact ⟨hf.int_inj e1, ih i (ha i hi) _ (hb i hi) (List.cons.inj e2).2⟩
      | _ => simp [PObj.kind] at hk
    · cases hk
  | inst c f ih =>
    intro ha b hb h
    rcases kind_same hf ha hb h (by simp) with hk | ⟨_, hk⟩
    · cases b with
      | inst d g =>
        rw [print_inst, print_inst] at h
        obtain ⟨rfl, h⟩ := name_unique c d _ _ h
        obtain ⟨h1, h2, h3⟩ := inst_unique hf c f g ha hb h
        refine ⟨g, rfl, fun n hn => ih n (ha.2.1 n hn) _ (hb.2.1 n hn) (h1 n hn), fun n hn => ?_, h3⟩
        have e := h2 n hn
        have oa := ha.2.2.1 n hn
        have ob := hb.2.2.1 n hn
        unfold latestText at e
        by_cases ta : (f n).truthy <;> by_cases tb : (g n).truthy
        · rw [if_pos ta, if_pos tb] at e
          exact ⟨iff_of_true ta tb, fun _ => ih n oa _ ob e⟩
        · rw [if_pos ta, if_neg tb] at e
          exact absurd ta (zero_falsy hf _ oa e)
        · rw [if_neg ta, if_pos tb] at e
          exact absurd tb (zero_falsy hf _ ob e.symm)
        · exact ⟨iff_of_false ta tb, fun h => absurd h ta⟩
      | _ => simp [PObj.kind] at hk
    · cases hk

/-- A way to print natural numbers, for the examples. -/
noncomputable def demoFmt : Fmt where
  floats := Set.range fun n : ℕ => (n : ℝ)
  num x := '7' :: List.replicate ⌊x⌋₊ '1'
  int k := List.replicate k '1'
  arr _ := "[0.1 0.2]".toList

lemma demoFmt_faithful : Faithful demoFmt where
  num_inj := by
    rintro _ ⟨n, rfl⟩ _ ⟨m, rfl⟩ h
    have := congrArg List.length h
    simp only [demoFmt, List.length_cons, List.length_replicate, Nat.floor_natCast, Nat.add_right_cancel_iff] at this
    simp [this]
  num_head x _ := ⟨'7', _, rfl, by decide⟩
  num_plain x _ c hc := by
    simp only [demoFmt, List.mem_cons, List.mem_replicate] at hc
    rcases hc with rfl | ⟨_, rfl⟩ <;> decide
  num_zero x _ h := by simp [demoFmt] at h
  int_inj k l h := by simpa [demoFmt] using congrArg List.length h
  int_digits k c hc := by
    obtain rfl : c = '1' := (List.mem_replicate.1 hc).2
    decide
  arr_balanced _ := (scan_balanced _ (by decide : scan [','] 0 "[0.1 0.2]".toList = some 0)).1
  arr_commas _ := (scan_balanced _ (by decide : scan [','] 0 "[0.1 0.2]".toList = some 0)).2
  arr_head _ := Or.inl (by decide : "[0.1 0.2]".toList.head? = some '[')

end SimCATS
