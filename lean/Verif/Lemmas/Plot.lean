import Verif.Spec.Plot
import Mathlib.Tactic.Linarith
import Mathlib.Tactic.FieldSimp
import Mathlib.Tactic.Ring

/-! Helper lemmas about plots. -/

namespace SimCATS

open Spec

theorem linList_nat (a b : ℝ) (k : ℕ) : linList a b (k : ℤ) = .ok ((List.range k).map (linAt a b k)) := by
  unfold linList
  rw [if_neg (by omega), Int.toNat_natCast]

theorem linAt_rev (a b : ℝ) {n : ℕ} (hn : 2 ≤ n) (i : Fin n) : linAt b a n i = linAt a b n i.rev := by
  have h : (2 : ℝ) ≤ n := by exact_mod_cast hn
  have h1 : (n : ℝ) - 1 ≠ 0 := by linarith
  have e : ((i.rev : ℕ) : ℝ) = (n : ℝ) - 1 - i := by
    rw [Fin.val_rev, Nat.cast_sub (by omega)]
    push_cast
    ring
  unfold linAt
  rw [e]
  field_simp
  ring

theorem scale_linAt (a b : ℝ) {n k : ℕ} (hn : 2 ≤ n) {i : ℕ} : scaleAt a b n (linAt 0 ((n : ℝ) - 1) k i) = linAt a b k i := by
  have h : (2 : ℝ) ≤ n := by exact_mod_cast hn
  have h1 : (n : ℝ) - 1 ≠ 0 := by linarith
  unfold scaleAt linAt
  rw [zero_add, sub_zero]
  congr 1
  field_simp

/-- The ticks of an axis. -/
theorem ticks_name (label : ℝ → String) {n k : ℕ} (hn : 2 ≤ n) {ticks : List (ℝ × String)}
    (h : ticks = (List.range k).map fun i => (linAt 0 ((n : ℝ) - 1) k i, label (linAt 0 ((n : ℝ) - 1) k i))) :
    TicksName label n k ticks := by
  have hn' : (2 : ℝ) ≤ n := by exact_mod_cast hn
  subst h
  refine ⟨by simp, ?_, ?_, ?_, ?_⟩
  · intro t ht
    obtain ⟨i, hi, rfl⟩ := List.mem_map.mp ht
    have hik := List.mem_range.mp hi
    unfold linAt
    dsimp only
    rw [zero_add, sub_zero]
    by_cases hk : k = 1
    · have : i = 0 := by omega
      subst this
      refine ⟨by norm_num, ?_, rfl⟩
      rw [Nat.cast_zero, zero_mul]
      linarith
    · have hk2 : (2 : ℝ) ≤ k := by exact_mod_cast (by omega : 2 ≤ k)
      have hi' : (i : ℝ) + 1 ≤ k := by exact_mod_cast hik
      refine ⟨mul_nonneg (Nat.cast_nonneg _) (div_nonneg (by linarith) (by linarith)), ?_, rfl⟩
      rw [← mul_div_assoc, div_le_iff₀ (by linarith), mul_comm]
      exact mul_le_mul_of_nonneg_left (by linarith) (by linarith)
  · intro t ht
    cases k with
    | zero => simp at ht
    | succ k =>
      rw [List.range_succ_eq_map] at ht
      simp only [List.map_cons, List.head?_cons, Option.some.injEq] at ht
      rw [← ht]
      simp [linAt]
  · intro hk t ht
    obtain ⟨m, rfl⟩ : ∃ m, k = m + 1 := ⟨k - 1, by omega⟩
    rw [List.range_succ, List.map_append] at ht
    simp only [List.map_cons, List.map_nil, List.getLast?_append, List.getLast?_singleton, Option.some_or,
      Option.some.injEq] at ht
    rw [← ht]
    have hm : (1 : ℝ) ≤ m := by exact_mod_cast (by omega : 1 ≤ m)
    have hm0 : (m : ℝ) ≠ 0 := by linarith
    unfold linAt
    push_cast
    rw [zero_add, sub_zero, add_sub_cancel_right]
    field_simp
  · rw [List.map_map, List.pairwise_map]
    refine List.Pairwise.imp_of_mem ?_ List.pairwise_lt_range
    intro a b ha hb hab
    have hb' := List.mem_range.mp hb
    have hk2 : (2 : ℝ) ≤ k := by exact_mod_cast (by omega : 2 ≤ k)
    have hab' : (a : ℝ) < b := by exact_mod_cast hab
    simp only [Function.comp, linAt]
    have : 0 < ((n : ℝ) - 1 - 0) / (k - 1) := div_pos (by linarith) (by linarith)
    have := mul_lt_mul_of_pos_right hab' this
    linarith

/-- The limits after sorting. -/
noncomputable def shownLim (sort : Bool) (g : ℝ × ℝ) : ℝ × ℝ := open Classical in if sort = true ∧ g.1 > g.2 then revLim g else g

theorem shownLim_sorted (g : ℝ × ℝ) : (shownLim true g).1 ≤ (shownLim true g).2 := by
  unfold shownLim revLim
  by_cases h : g.1 > g.2
  · rw [if_pos ⟨rfl, h⟩]; exact h.le
  · rw [if_neg (by simpa using h)]; exact not_lt.mp h

theorem shownLim_unsorted (g : ℝ × ℝ) : shownLim false g = g := by
  unfold shownLim
  rw [if_neg (by simp)]

theorem shownLim_rev {g : ℝ × ℝ} (h : g.1 ≠ g.2) : shownLim true (revLim g) = shownLim true g := by
  unfold shownLim revLim
  rcases lt_or_gt_of_ne h with h | h
  · rw [if_pos ⟨rfl, h⟩, if_neg (by simpa using h.le)]
  · rw [if_neg (by simpa using h.le), if_pos ⟨rfl, h⟩]

/-- The pixel of the measurement that is drawn at a place. -/
noncomputable def shownPix (sort : Bool) (g : ℝ × ℝ) {n : ℕ} : Fin n ≃ Fin n :=
  open Classical in if sort = true ∧ g.1 > g.2 then Fin.revPerm else Equiv.refl _

theorem shown_volt (sort : Bool) (g : ℝ × ℝ) {n : ℕ} (hn : 2 ≤ n) (i : Fin n) :
    scaleAt (shownLim sort g).1 (shownLim sort g).2 n i = linspace g.1 g.2 n (shownPix sort g i) := by
  unfold shownLim shownPix linspace
  by_cases h : sort = true ∧ g.1 > g.2
  · rw [if_pos h, if_pos h, Fin.revPerm_apply, ← linAt_rev _ _ hn]; rfl
  · rw [if_neg h, if_neg h]; rfl

theorem shownLim_extent (sort : Bool) (g : ℝ × ℝ) :
    max (shownLim sort g).1 (shownLim sort g).2 - min (shownLim sort g).1 (shownLim sort g).2 = |g.2 - g.1| := by
  rw [max_sub_min_eq_abs]
  unfold shownLim revLim
  split
  · exact abs_sub_comm _ _
  · rfl

/-- The ticks of an axis. -/
noncomputable def axisTicks (fmt : ℝ → String) (g : ℝ × ℝ) (n k : ℕ) : List (ℝ × String) :=
  (List.range k).map fun i => (linAt 0 ((n : ℝ) - 1) k i, fmt (linAt g.1 g.2 k i))

theorem plot2d_run (fmt : ℝ → String) (r c : ℕ) (csd : Fin r → Fin c → ℝ) (g1 g2 : ℝ × ℝ) (title cb : Option String)
    (xl yl : String) (sort : Bool) (kx ky : ℕ) :
    plot2d fmt r c csd g1 g2 title cb xl yl sort kx ky =
      .ok (.image r c (fun i j => csd (shownPix sort g2 i) (shownPix sort g1 j)) (|g2.2 - g2.1| / r / (|g1.2 - g1.1| / c))
        (axisTicks fmt (shownLim sort g1) c kx) (axisTicks fmt (shownLim sort g2) r ky) xl yl cb title) := by
  rw [← shownLim_extent sort g1, ← shownLim_extent sort g2]
  unfold plot2d
  simp only [linList_nat]
  have hz : ∀ (p v : ℕ → ℝ) (k : ℕ), ((List.range k).map p).zip (((List.range k).map v).map fmt) =
      (List.range k).map fun i => (p i, fmt (v i)) := by
    intro p v k
    rw [List.map_map, List.zip_map', ]
    rfl
  have hd : (if sort = true ∧ g1.1 > g1.2 then fun i j => (if sort = true ∧ g2.1 > g2.2 then fun i j => csd i.rev j else csd) i j.rev
      else (if sort = true ∧ g2.1 > g2.2 then fun i j => csd i.rev j else csd)) =
      fun i j => csd (shownPix sort g2 i) (shownPix sort g1 j) := by
    unfold shownPix
    by_cases h1 : sort = true ∧ g1.1 > g1.2 <;> by_cases h2 : sort = true ∧ g2.1 > g2.2
    · simp only [if_pos h1, if_pos h2]; rfl
    · simp only [if_pos h1, if_neg h2]; rfl
    · simp only [if_neg h1, if_pos h2]; rfl
    · simp only [if_neg h1, if_neg h2]; rfl
  simp only [bind, Except.bind, pure, Except.pure, hz, axisTicks]
  congr 2

theorem shownPix_rev {g : ℝ × ℝ} (h : g.1 ≠ g.2) {n : ℕ} (i : Fin n) : (shownPix true (revLim g) i).rev = shownPix true g i := by
  unfold shownPix revLim
  rcases lt_or_gt_of_ne h with h | h
  · rw [if_pos ⟨rfl, h⟩, if_neg (by simpa using h.le)]
    exact Fin.rev_rev i
  · rw [if_neg (by simpa using h.le), if_pos ⟨rfl, h⟩]
    rfl

theorem minMax_run {n : ℕ} (hn : 1 ≤ n) (f : Fin n → ℝ) :
    ∃ m, minMax f = .ok m ∧ (∃ i, f i = m.1) ∧ (∃ i, f i = m.2) ∧ ∀ i, m.1 ≤ f i ∧ f i ≤ m.2 := by
  unfold minMax
  have h : ¬ n = 0 := by omega
  rw [dif_neg h]
  refine ⟨_, rfl, ?_, ?_, fun i => ⟨Finset.inf'_le _ (Finset.mem_univ i), Finset.le_sup' f (Finset.mem_univ i)⟩⟩
  · obtain ⟨i, -, hi⟩ := Finset.exists_mem_eq_inf' (s := (Finset.univ : Finset (Fin n)))
      ⟨⟨0, Nat.pos_of_ne_zero h⟩, Finset.mem_univ _⟩ f
    exact ⟨i, hi.symm⟩
  · obtain ⟨i, -, hi⟩ := Finset.exists_mem_eq_sup' (s := (Finset.univ : Finset (Fin n)))
      ⟨⟨0, Nat.pos_of_ne_zero h⟩, Finset.mem_univ _⟩ f
    exact ⟨i, hi.symm⟩

/-- The second gate of a line is shown in the direction of the first one. -/
noncomputable def shownWith (sort : Bool) (g1 g2 : ℝ × ℝ) : ℝ × ℝ := open Classical in if sort = true ∧ g1.1 > g1.2 then revLim g2 else g2

theorem shown_volt_with (sort : Bool) (g1 g2 : ℝ × ℝ) {n : ℕ} (hn : 2 ≤ n) (i : Fin n) :
    scaleAt (shownWith sort g1 g2).1 (shownWith sort g1 g2).2 n i = linspace g2.1 g2.2 n (shownPix sort g1 i) := by
  unfold shownWith shownPix linspace
  by_cases h : sort = true ∧ g1.1 > g1.2
  · rw [if_pos h, if_pos h, Fin.revPerm_apply, ← linAt_rev _ _ hn]; rfl
  · rw [if_neg h, if_neg h]; rfl

/-- The ticks of the axis of a line. -/
noncomputable def lineTicks (fmt : ℝ → String) (g1 g2 : ℝ × ℝ) (n k : ℕ) : List (ℝ × String) :=
  (List.range k).map fun i => (linAt 0 ((n : ℝ) - 1) k i, pairText fmt (linAt g1.1 g1.2 k i) (linAt g2.1 g2.2 k i))

theorem plot1d_run (fmt : ℝ → String) {n : ℕ} (csd : Fin n → ℝ) (g1 g2 : ℝ × ℝ) (title : Option String)
    (xl yl : String) (sort : Bool) (kx ky : ℕ) {m : ℝ × ℝ} (hm : minMax (fun i => csd (shownPix sort g1 i)) = .ok m) :
    plot1d fmt n csd g1 g2 title xl yl sort kx ky =
      .ok (.line n (fun i => csd (shownPix sort g1 i)) (lineTicks fmt (shownLim sort g1) (shownWith sort g1 g2) n kx)
        ((List.range ky).map (linAt m.1 m.2 ky)) xl yl title) := by
  unfold plot1d
  have hd : (if sort = true ∧ g1.1 > g1.2 then fun i => csd i.rev else csd) = fun i => csd (shownPix sort g1 i) := by
    unfold shownPix
    by_cases h1 : sort = true ∧ g1.1 > g1.2
    · simp only [if_pos h1]; rfl
    · simp only [if_neg h1]; rfl
  have hz : ∀ (p v w : ℕ → ℝ) (k : ℕ), ((List.range k).map p).zip
      (List.zipWith (fun a b => "(" ++ fmt a ++ ";" ++ fmt b ++ ")") ((List.range k).map v) ((List.range k).map w)) =
      (List.range k).map fun i => (p i, pairText fmt (v i) (w i)) := by
    intro p v w k
    rw [List.zipWith_map, List.zipWith_self, List.zip_map']
    rfl
  simp only [linList_nat, hd, hm, bind, Except.bind, pure, Except.pure, hz]
  rfl

theorem shownWith_rev {g1 : ℝ × ℝ} (h : g1.1 ≠ g1.2) (g2 : ℝ × ℝ) : shownWith true (revLim g1) (revLim g2) = shownWith true g1 g2 := by
  unfold shownWith revLim
  rcases lt_or_gt_of_ne h with h | h
  · rw [if_pos ⟨rfl, h⟩, if_neg (by simpa using h.le)]
  · rw [if_neg (by simpa using h.le), if_pos ⟨rfl, h⟩]

end SimCATS
