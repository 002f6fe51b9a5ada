import Verif.Props.Telegraph
import Verif.Spec.TelegraphLaw
import Mathlib.MeasureTheory.Constructions.BorelSpace.Basic
import Mathlib.MeasureTheory.Measure.Real
import Mathlib.Probability.Distributions.Geometric
import Mathlib.Probability.Independence.InfinitePi

/-!
Lemmas about the distribution of the states of telegraph noise.
-/

namespace SimCATS

open Spec MeasureTheory ProbabilityTheory

/-- Pixel `p` belongs to a block with an odd number. -/
def OddBlock (w : ℕ → ℕ) (p : ℕ) : Prop := ∃ b, blockStart w b ≤ p ∧ p < blockStart w (b + 1) ∧ Odd b

theorem blockStart_mono (w : ℕ → ℕ) {a b : ℕ} (h : a ≤ b) : blockStart w a ≤ blockStart w b := by
  induction b, h using Nat.le_induction with
  | base => exact le_rfl
  | succ b _ ih => simp only [blockStart]; omega

theorem block_unique {w : ℕ → ℕ} {p a b : ℕ} (ha : blockStart w a ≤ p) (ha' : p < blockStart w (a + 1)) (hb : blockStart w b ≤ p)
    (hb' : p < blockStart w (b + 1)) : a = b := by
  rcases lt_trichotomy a b with h | h | h
  · have := blockStart_mono w (show a + 1 ≤ b by omega); omega
  · exact h
  · have := blockStart_mono w (show b + 1 ≤ a by omega); omega

theorem oddBlock_iff {w : ℕ → ℕ} {p b : ℕ} (h : blockStart w b ≤ p) (h' : p < blockStart w (b + 1)) : OddBlock w p ↔ Odd b := by
  constructor
  · rintro ⟨a, h1, h2, h3⟩
    rwa [block_unique h h' h1 h2]
  · exact fun ho => ⟨b, h, h', ho⟩

/-- The lengths for which the first pixels have the colours `c`, with the block and the length of the part of it so far. -/
def lengthSets (c : ℕ → Bool) : ℕ → (ℕ → Set ℕ) × ℕ × ℕ
  | 0 => (fun _ => Set.Ici 1, 0, 1)
  | k + 1 =>
    let t := lengthSets c k
    if c (k + 1) = c k then (Function.update t.1 t.2.1 (Set.Ici (t.2.2 + 1)), t.2.1, t.2.2 + 1)
    else (Function.update t.1 t.2.1 {t.2.2}, t.2.1 + 1, 1)

theorem lengthSets_inv (c : ℕ → Bool) (h0 : c 0 = false) (k : ℕ) :
    let t := lengthSets c k
    t.2.1 ≤ k ∧ 1 ≤ t.2.2 ∧ (∀ i, t.2.1 < i → t.1 i = Set.Ici 1) ∧ t.1 t.2.1 = Set.Ici t.2.2 ∧ (Odd t.2.1 ↔ c k = true) := by
  induction k with
  | zero => simp [lengthSets, h0]
  | succ k ih =>
    obtain ⟨h1, h2, h3, h4, h5⟩ := ih
    simp only [lengthSets]
    split_ifs with hc
    · refine ⟨by simp only; omega, by simp only; omega, ?_, ?_, ?_⟩
      · intro i hi
        simp only at hi ⊢
        rw [Function.update_of_ne (by omega), h3 i hi]
      · simp
      · rw [hc]; exact h5
    · refine ⟨by simp only; omega, le_rfl, ?_, ?_, ?_⟩
      · intro i hi
        simp only at hi ⊢
        rw [Function.update_of_ne (by omega), h3 i (by omega)]
      · simp only
        rw [Function.update_of_ne (by omega), h3 _ (by omega)]
      · simp only
        rw [Nat.odd_add_one, h5]
        cases h : c k <;> cases h' : c (k + 1) <;> simp_all

/-- The lengths are in the sets iff the pixels have the colours. -/
theorem lengthSets_iff (c : ℕ → Bool) (h0 : c 0 = false) (n : ℕ) (w : ℕ → ℕ) (hw : ∀ i < n, 1 ≤ w i) (k : ℕ) (hk : k < n) :
    ((∀ i < n, w i ∈ (lengthSets c k).1 i) ↔ ∀ j ≤ k, (OddBlock w j ↔ c j = true)) ∧
    ((∀ j ≤ k, (OddBlock w j ↔ c j = true)) →
      blockStart w (lengthSets c k).2.1 + (lengthSets c k).2.2 = k + 1 ∧ (lengthSets c k).2.2 ≤ w (lengthSets c k).2.1) := by
  induction k with
  | zero =>
    have e : OddBlock w 0 ↔ Odd 0 := oddBlock_iff (b := 0) (by simp [blockStart]) (by simp only [blockStart]; have := hw 0 hk; omega)
    refine ⟨⟨fun _ j hj => ?_, fun _ i hi => ?_⟩, fun _ => ?_⟩
    · obtain rfl : j = 0 := by omega
      rw [e, h0]; simp
    · exact hw i hi
    · simp only [lengthSets, blockStart]
      exact ⟨trivial, hw 0 hk⟩
  | succ k ih =>
    obtain ⟨ih1, ih2⟩ := ih (by omega)
    obtain ⟨v1, v2, v3, v4, v5⟩ := lengthSets_inv c h0 k
    have hsplit : (∀ j ≤ k + 1, (OddBlock w j ↔ c j = true)) ↔
        (∀ j ≤ k, (OddBlock w j ↔ c j = true)) ∧ (OddBlock w (k + 1) ↔ c (k + 1) = true) := by
      constructor
      · exact fun h => ⟨fun j hj => h j (by omega), h _ le_rfl⟩
      · rintro ⟨h, h'⟩ j hj
        rcases Nat.lt_or_ge j (k + 1) with hl | hl
        · exact h j (by omega)
        · obtain rfl : j = k + 1 := by omega
          exact h'
    have hnext : (∀ j ≤ k, (OddBlock w j ↔ c j = true)) →
        ((OddBlock w (k + 1) ↔ c (k + 1) = true) ↔ (c (k + 1) = c k ↔ (lengthSets c k).2.2 + 1 ≤ w (lengthSets c k).2.1)) := by
      intro h
      obtain ⟨e1, e2⟩ := ih2 h
      by_cases hl : (lengthSets c k).2.2 + 1 ≤ w (lengthSets c k).2.1
      · rw [oddBlock_iff (b := (lengthSets c k).2.1) (by omega) (by simp only [blockStart]; omega), v5]
        cases h : c k <;> cases h' : c (k + 1) <;> simp [hl]
      · have hpos := hw ((lengthSets c k).2.1 + 1) (by omega)
        rw [oddBlock_iff (b := (lengthSets c k).2.1 + 1) (by simp only [blockStart]; omega) (by simp only [blockStart]; omega),
          Nat.odd_add_one, v5]
        cases h : c k <;> cases h' : c (k + 1) <;> simp [hl]
    rw [hsplit]
    simp only [lengthSets]
    by_cases hc : c (k + 1) = c k
    · rw [if_pos hc]
      simp only
      constructor
      · constructor
        · intro h
          have hm := h (lengthSets c k).2.1 (by omega)
          rw [Function.update_self, Set.mem_Ici] at hm
          have hA : ∀ j ≤ k, (OddBlock w j ↔ c j = true) := by
            refine ih1.1 fun i hi => ?_
            by_cases e : i = (lengthSets c k).2.1
            · subst e; rw [v4, Set.mem_Ici]; omega
            · have := h i hi; rwa [Function.update_of_ne e] at this
          exact ⟨hA, (hnext hA).2 ⟨fun _ => hm, fun _ => hc⟩⟩
        · rintro ⟨hA, hB⟩ i hi
          by_cases e : i = (lengthSets c k).2.1
          · subst e
            rw [Function.update_self, Set.mem_Ici]
            exact ((hnext hA).1 hB).1 hc
          · rw [Function.update_of_ne e]
            exact ih1.2 hA i hi
      · rintro ⟨hA, hB⟩
        have := ih2 hA
        exact ⟨by omega, ((hnext hA).1 hB).1 hc⟩
    · rw [if_neg hc]
      simp only
      constructor
      · constructor
        · intro h
          have hm := h (lengthSets c k).2.1 (by omega)
          rw [Function.update_self, Set.mem_singleton_iff] at hm
          have hA : ∀ j ≤ k, (OddBlock w j ↔ c j = true) := by
            refine ih1.1 fun i hi => ?_
            by_cases e : i = (lengthSets c k).2.1
            · subst e; rw [v4, Set.mem_Ici]; omega
            · have := h i hi; rwa [Function.update_of_ne e] at this
          exact ⟨hA, (hnext hA).2 ⟨fun h => absurd h hc, fun h => by omega⟩⟩
        · rintro ⟨hA, hB⟩ i hi
          by_cases e : i = (lengthSets c k).2.1
          · subst e
            rw [Function.update_self, Set.mem_singleton_iff]
            have h1 := (ih2 hA).2
            by_contra hne
            exact hc (((hnext hA).1 hB).2 (by omega))
          · rw [Function.update_of_ne e]
            exact ih1.2 hA i hi
      · rintro ⟨hA, hB⟩
        have h1 := ih2 hA
        have h2 : ¬ (lengthSets c k).2.2 + 1 ≤ w (lengthSets c k).2.1 := fun h => hc (((hnext hA).1 hB).2 h)
        have h3 := hw ((lengthSets c k).2.1 + 1) (by omega)
        refine ⟨?_, h3⟩
        simp only [blockStart]
        omega

section law

variable {Ω : Type} [MeasurableSpace Ω] {P : Measure Ω} [IsProbabilityMeasure P] {p : ℝ} {n : ℕ} {W : Fin n → Ω → ℕ}

theorem geometric_tail {X : Ω → ℕ} (hX : Measurable X) (h1 : ∀ ω, 1 ≤ X ω) (hg : ∀ g, P.real {ω | X ω = g + 1} = (1 - p) ^ g * p) (l : ℕ) :
    P.real (X ⁻¹' Set.Ici (l + 1)) = (1 - p) ^ l := by
  induction l with
  | zero =>
    have : X ⁻¹' Set.Ici (0 + 1) = Set.univ := Set.eq_univ_of_forall fun ω => h1 ω
    rw [this, probReal_univ, pow_zero]
  | succ l ih =>
    have hd : X ⁻¹' Set.Ici (l + 1) = {ω | X ω = l + 1} ∪ X ⁻¹' Set.Ici (l + 1 + 1) := by
      ext ω
      simp only [Set.mem_preimage, Set.mem_Ici, Set.mem_union, Set.mem_ofPred_eq]
      omega
    rw [hd, measureReal_union, hg] at ih
    · have : (1 - p) ^ (l + 1) = (1 - p) ^ l - (1 - p) ^ l * p := by ring
      linarith
    · rw [Set.disjoint_left]
      intro ω h h'
      simp only [Set.mem_preimage, Set.mem_Ici, Set.mem_ofPred_eq] at h h'
      omega
    · exact hX measurableSet_Ici

omit [IsProbabilityMeasure P] in
theorem lengths_measure (hi : iIndepFun W P) (B : ℕ → Set ℕ) :
    P.real {ω | ∀ i : Fin n, W i ω ∈ B i} = ∏ i : Fin n, P.real (W i ⁻¹' B i) := by
  have he : {ω | ∀ i : Fin n, W i ω ∈ B i} = ⋂ i ∈ (Finset.univ : Finset (Fin n)), W i ⁻¹' B i := by
    ext ω; simp
  rw [he, measureReal_def, hi.measure_inter_preimage_eq_mul _ (sets := fun i => B i) fun i _ => MeasurableSet.of_discrete, ENNReal.toReal_prod]
  rfl

theorem lengthSets_measure (hW : ∀ i, Measurable (W i)) (h1 : ∀ i ω, 1 ≤ W i ω) (hi : iIndepFun W P)
    (hg : ∀ i g, P.real {ω | W i ω = g + 1} = (1 - p) ^ g * p) (c : ℕ → Bool) (h0 : c 0 = false) (k : ℕ) (hk : k < n) :
    P.real {ω | ∀ i : Fin n, W i ω ∈ (lengthSets c k).1 i} = ∏ j ∈ Finset.range k, if c (j + 1) = c j then 1 - p else p := by
  rw [lengths_measure hi]
  induction k with
  | zero =>
    simp only [lengthSets, Finset.range_zero, Finset.prod_empty]
    refine Finset.prod_eq_one fun i _ => ?_
    have := geometric_tail (hW i) (h1 i) (hg i) 0
    simpa using this
  | succ k ih =>
    have ih := ih (by omega)
    obtain ⟨v1, v2, -, v4, -⟩ := lengthSets_inv c h0 k
    rw [Finset.prod_range_succ, ← ih]
    obtain ⟨l, hl⟩ : ∃ l, (lengthSets c k).2.2 = l + 1 := ⟨(lengthSets c k).2.2 - 1, by omega⟩
    let m : Fin n := ⟨(lengthSets c k).2.1, by omega⟩
    have key : ∀ (A : Set ℕ) (q : ℝ), P.real (W m ⁻¹' A) = (1 - p) ^ l * q →
        ∏ i : Fin n, P.real (W i ⁻¹' (Function.update (lengthSets c k).1 (lengthSets c k).2.1 A) i) =
          (∏ i : Fin n, P.real (W i ⁻¹' (lengthSets c k).1 i)) * q := by
      intro A q hA
      rw [← Finset.mul_prod_erase Finset.univ _ (Finset.mem_univ m), ← Finset.mul_prod_erase Finset.univ (fun i : Fin n => P.real (W i ⁻¹' (lengthSets c k).1 i)) (Finset.mem_univ m)]
      have e1 : Function.update (lengthSets c k).1 (lengthSets c k).2.1 A m = A := Function.update_self _ _ _
      have e2 : (lengthSets c k).1 m = Set.Ici (l + 1) := by rw [← hl]; exact v4
      rw [e1, hA, e2, geometric_tail (hW m) (h1 m) (hg m)]
      have e3 : ∀ i ∈ Finset.univ.erase m, P.real (W i ⁻¹' (Function.update (lengthSets c k).1 (lengthSets c k).2.1 A) i) =
          P.real (W i ⁻¹' (lengthSets c k).1 i) := by
        intro i hi
        have : (i : ℕ) ≠ (lengthSets c k).2.1 := fun h => (Finset.mem_erase.1 hi).1 (Fin.ext h)
        rw [Function.update_of_ne this]
      rw [Finset.prod_congr rfl e3]
      ring
    simp only [lengthSets]
    by_cases hc : c (k + 1) = c k
    · simp only [if_pos hc]
      refine key _ _ ?_
      rw [hl, geometric_tail (hW m) (h1 m) (hg m), pow_succ]
    · simp only [if_neg hc]
      refine key _ _ ?_
      rw [hl]
      exact hg m l

end law

section chain

variable {Ω : Type} [MeasurableSpace Ω] {P : Measure Ω} [IsProbabilityMeasure P]

/-- A sequence of `n` states that starts with `false` and changes the state with probability `p` after each step. -/
def IsChain (P : Measure Ω) (D : ℕ → Ω → Bool) (p : ℝ) (n : ℕ) : Prop :=
  (∀ k < n, Measurable (D k)) ∧ ∀ (c : ℕ → Bool) (k : ℕ), k < n → P.real {ω | ∀ j ≤ k, D j ω = c j} =
    if c 0 = true then 0 else ∏ j ∈ Finset.range k, if c (j + 1) = c j then 1 - p else p

variable {D : ℕ → Ω → Bool} {p : ℝ} {n : ℕ}

/-- One step of the chain, whatever is known about the past. -/
theorem IsChain.step (h : IsChain P D p n) (k : ℕ) (hk : k + 1 < n) (S : Set (Fin (k + 1) → Bool)) (f : Bool → Bool) :
    P.real {ω | (fun i : Fin (k + 1) => D i ω) ∈ S ∧ D (k + 1) ω = f (D k ω)} =
      ∑ c : Fin (k + 1) → Bool, open Classical in if c ∈ S then (if f (c (Fin.last k)) = c (Fin.last k) then 1 - p else p) * P.real {ω | (fun i : Fin (k + 1) => D i ω) = c} else 0 := by
  classical
  have hm : ∀ c : Fin (k + 1) → Bool, MeasurableSet {ω | (fun i : Fin (k + 1) => D i ω) = c} := by
    intro c
    have : Measurable fun ω => fun i : Fin (k + 1) => D i ω := measurable_pi_lambda _ fun i => h.1 i (by omega)
    exact this (MeasurableSet.of_discrete (s := {c}))
  have hm2 : ∀ b, MeasurableSet {ω | D (k + 1) ω = b} := fun b => h.1 (k + 1) hk (MeasurableSet.of_discrete (s := {b}))
  have hU : {ω | (fun i : Fin (k + 1) => D i ω) ∈ S ∧ D (k + 1) ω = f (D k ω)} =
      ⋃ c ∈ (Finset.univ.filter fun c => c ∈ S : Finset (Fin (k + 1) → Bool)),
        {ω | (fun i : Fin (k + 1) => D i ω) = c} ∩ {ω | D (k + 1) ω = f (c (Fin.last k))} := by
    ext ω
    simp only [Set.mem_ofPred_eq, Finset.mem_filter, Finset.mem_univ, true_and, Set.mem_iUnion, Set.mem_inter_iff, exists_prop]
    constructor
    · rintro ⟨h1, h2⟩
      exact ⟨_, h1, rfl, by simpa using h2⟩
    · rintro ⟨c, h1, rfl, h2⟩
      exact ⟨h1, by simpa using h2⟩
  rw [hU, measureReal_biUnion_finset, Finset.sum_filter]
  · refine Finset.sum_congr rfl fun c _ => ?_
    by_cases hS : c ∈ S
    · rw [if_pos hS, if_pos hS]
      let c' : ℕ → Bool := fun j => if hj : j < k + 1 then c ⟨j, hj⟩ else f (c (Fin.last k))
      have hc' : ∀ j (hj : j < k + 1), c' j = c ⟨j, hj⟩ := fun j hj => dif_pos hj
      have e1 : {ω | (fun i : Fin (k + 1) => D i ω) = c} = {ω | ∀ j ≤ k, D j ω = c' j} := by
        ext ω
        simp only [Set.mem_ofPred_eq, funext_iff]
        constructor
        · intro h j hj
          rw [hc' j (by omega)]; exact h ⟨j, by omega⟩
        · intro h i
          have := h i (by omega)
          rwa [hc' i i.2] at this
      have e2 : {ω | (fun i : Fin (k + 1) => D i ω) = c} ∩ {ω | D (k + 1) ω = f (c (Fin.last k))} = {ω | ∀ j ≤ k + 1, D j ω = c' j} := by
        rw [e1]
        ext ω
        simp only [Set.mem_inter_iff, Set.mem_ofPred_eq]
        have hlast : c' (k + 1) = f (c (Fin.last k)) := dif_neg (by omega)
        constructor
        · rintro ⟨h1, h2⟩ j hj
          rcases Nat.lt_or_ge j (k + 1) with hl | hl
          · exact h1 j (by omega)
          · obtain rfl : j = k + 1 := by omega
            rw [hlast, h2]
        · intro h
          exact ⟨fun j hj => h j (by omega), by rw [h _ le_rfl, hlast]⟩
      rw [e2, e1, h.2 c' (k + 1) hk, h.2 c' k (by omega)]
      have hlast : c' (k + 1) = f (c (Fin.last k)) := dif_neg (by omega)
      by_cases h0 : c' 0 = true
      · rw [if_pos h0, if_pos h0, mul_zero]
      · rw [if_neg h0, if_neg h0, Finset.prod_range_succ, mul_comm, hlast, hc' k (by omega)]
        rfl
    · rw [if_neg hS, if_neg hS]
  · intro c _ c' _ hne
    rw [Function.onFun, Set.disjoint_left]
    rintro ω ⟨h1, -⟩ ⟨h2, -⟩
    exact hne (h1.symm.trans h2)
  · intro c _
    exact (hm c).inter (hm2 _)

theorem IsChain.past (h : IsChain P D p n) (k : ℕ) (hk : k < n) (S : Set (Fin (k + 1) → Bool)) :
    P.real {ω | (fun i : Fin (k + 1) => D i ω) ∈ S} =
      ∑ c : Fin (k + 1) → Bool, open Classical in if c ∈ S then P.real {ω | (fun i : Fin (k + 1) => D i ω) = c} else 0 := by
  classical
  have hme : Measurable fun ω => fun i : Fin (k + 1) => D i ω := measurable_pi_lambda _ fun i => h.1 i (by omega)
  have hU : {ω | (fun i : Fin (k + 1) => D i ω) ∈ S} =
      ⋃ c ∈ (Finset.univ.filter fun c => c ∈ S : Finset (Fin (k + 1) → Bool)), {ω | (fun i : Fin (k + 1) => D i ω) = c} := by
    ext ω; simp
  rw [hU, measureReal_biUnion_finset, Finset.sum_filter]
  · intro c _ c' _ hne
    rw [Function.onFun, Set.disjoint_left]
    exact fun ω h1 h2 => hne (h1.symm.trans h2)
  · exact fun c _ => hme (MeasurableSet.of_discrete (s := {c}))

/-- The state stays the same with probability `1 - p`, whatever is known about the past. -/
theorem IsChain.stay (h : IsChain P D p n) (k : ℕ) (hk : k + 1 < n) (S : Set (Fin (k + 1) → Bool)) :
    P.real {ω | (fun i : Fin (k + 1) => D i ω) ∈ S ∧ D (k + 1) ω = D k ω} = (1 - p) * P.real {ω | (fun i : Fin (k + 1) => D i ω) ∈ S} := by
  have := h.step k hk S id
  simp only [id, if_true] at this
  rw [this, h.past k (by omega), Finset.mul_sum]
  refine Finset.sum_congr rfl fun c _ => ?_
  split_ifs <;> simp

theorem IsChain.change (h : IsChain P D p n) (k : ℕ) (hk : k + 1 < n) (S : Set (Fin (k + 1) → Bool)) :
    P.real {ω | (fun i : Fin (k + 1) => D i ω) ∈ S ∧ D (k + 1) ω = !D k ω} = p * P.real {ω | (fun i : Fin (k + 1) => D i ω) ∈ S} := by
  have := h.step k hk S (!·)
  simp only [Bool.not_eq_eq_eq_not, Bool.eq_not_self, if_false] at this
  rw [this, h.past k (by omega), Finset.mul_sum]
  refine Finset.sum_congr rfl fun c _ => ?_
  split_ifs <;> simp

theorem IsChain.state (h : IsChain P D p n) (k : ℕ) (hk : k < n) : P.real {ω | D k ω = true} = (1 - (1 - 2 * p) ^ k) / 2 := by
  induction k with
  | zero =>
    have := h.2 (fun _ => true) 0 hk
    simp only [if_true] at this
    have e : {ω | D 0 ω = true} = {ω | ∀ j ≤ 0, D j ω = (fun _ => true) j} := by ext ω; simp
    rw [e, this]; simp
  | succ k ih =>
    have ih := ih (by omega)
    have h1 := h.stay k hk {c | c (Fin.last k) = true}
    have h2 := h.change k hk {c | c (Fin.last k) = false}
    simp only [Set.mem_ofPred_eq, Fin.val_last] at h1 h2
    have hf : P.real {ω | D k ω = false} = 1 - P.real {ω | D k ω = true} := by
      have : {ω | D k ω = false} = {ω | D k ω = true}ᶜ := by ext ω; simp
      rw [this, probReal_compl_eq_one_sub]
      exact h.1 k (by omega) (MeasurableSet.of_discrete (s := {true}))
    have hU : {ω | D (k + 1) ω = true} = {ω | D k ω = true ∧ D (k + 1) ω = D k ω} ∪ {ω | D k ω = false ∧ D (k + 1) ω = !D k ω} := by
      ext ω
      simp only [Set.mem_ofPred_eq, Set.mem_union]
      cases h : D k ω <;> simp
    rw [hU, measureReal_union, h1, h2, hf, ih]
    · ring
    · rw [Set.disjoint_left]
      rintro ω ⟨h1, -⟩ ⟨h2, -⟩
      rw [h1] at h2
      exact Bool.noConfusion h2
    · have a := h.1 k (by omega) (MeasurableSet.of_discrete (s := {false}))
      have b : Measurable fun ω => (D (k + 1) ω, D k ω) := (h.1 (k + 1) hk).prodMk (h.1 k (by omega))
      have c := b (MeasurableSet.of_discrete (s := {q : Bool × Bool | q.1 = !q.2}))
      exact a.inter c

/-- The state stays the same for `m` steps with probability `(1 - p) ^ m`, whatever is known about the past. -/
theorem IsChain.stays (h : IsChain P D p n) (k m : ℕ) (hk : k + m < n) (S : Set (Fin (k + 1) → Bool)) :
    P.real {ω | (fun i : Fin (k + 1) => D i ω) ∈ S ∧ ∀ j ≤ m, D (k + j) ω = D k ω} =
      (1 - p) ^ m * P.real {ω | (fun i : Fin (k + 1) => D i ω) ∈ S} := by
  induction m with
  | zero => simp
  | succ m ih =>
    have h1 := h.stay (k + m) (by omega) {c | (fun i : Fin (k + 1) => c ⟨i, by omega⟩) ∈ S ∧ ∀ j (hj : j ≤ m), c ⟨k + j, by omega⟩ = c ⟨k, by omega⟩}
    simp only [Set.mem_ofPred_eq] at h1
    rw [pow_succ', mul_assoc, ← ih (by omega), ← h1]
    congr 1
    ext ω
    simp only [Set.mem_ofPred_eq]
    constructor
    · rintro ⟨a, b⟩
      refine ⟨⟨a, fun j hj => b j (by omega)⟩, ?_⟩
      have := b (m + 1) le_rfl
      rw [← add_assoc] at this
      rw [this, b m (by omega)]
    · rintro ⟨⟨a, b⟩, c⟩
      refine ⟨a, fun j hj => ?_⟩
      rcases Nat.lt_or_ge j (m + 1) with hl | hl
      · exact b j (by omega)
      · obtain rfl : j = m + 1 := by omega
        rw [← add_assoc, c]
        exact b m le_rfl

end chain

/-- The nonzero pixels of the noise are those in blocks with an odd number. -/
theorem burst_states {τ α : Type} [Semiring α] (amp : M τ α) (hP : ∀ s a s', amp s = (.ok a, s') → a ≠ 0)
    (size : ℕ) (w : ℕ → ℕ) (hw : ∀ i < size, 1 ≤ w i) (s s' : τ) (out : List α)
    (h : burstLoop amp size w size 0 0 [] s = (.ok out, s')) (k : ℕ) (hk : k < size) : (out.take size).getD k 0 ≠ 0 ↔ OddBlock w k := by
  have h0 : Blocks (fun a : α => a ≠ 0) w (fun _ => (0 : α)) 0 ([] : List α) :=
    ⟨rfl, fun p hp => absurd hp (by simp), fun b hb => absurd hb (by omega)⟩
  obtain ⟨amps, n, -, hb, hlen⟩ := burstLoop_ok _ amp hP size w hw size 0 0 [] _ s s' out (by omega) rfl h0 h
  obtain ⟨b, hbn, h1, h2, h3⟩ := hb.val k (by omega)
  have e : (out.take size).getD k 0 = out[k] := by
    have : k < (out.take size).length := by rw [List.length_take]; omega
    rw [List.getD_eq_getElem?_getD, List.getElem?_eq_getElem this, List.getElem_take]
    rfl
  rw [e, h3, oddBlock_iff h1 h2]
  split_ifs with he
  · simp [Nat.not_odd_iff_even.2 he]
  · simp only [ne_eq, hb.good b hbn, not_false_eq_true, true_iff]
    exact Nat.not_even_iff_odd.1 he

/-- The lengths as a function on all numbers. -/
def allLengths {Ω : Type} {n : ℕ} (W : Fin n → Ω → ℕ) (ω : Ω) (i : ℕ) : ℕ := if h : i < n then W ⟨i, h⟩ ω else 0

theorem blockStart_congr {w w' : ℕ → ℕ} {n : ℕ} (h : ∀ i < n, w i = w' i) : ∀ b ≤ n, blockStart w b = blockStart w' b := by
  intro b
  induction b with
  | zero => intro _; rfl
  | succ b ih =>
    intro hb
    simp only [blockStart]
    rw [ih (by omega), h b (by omega)]

theorem OddBlock.congr {w w' : ℕ → ℕ} {n : ℕ} (hw : ∀ i < n, 1 ≤ w i) (h : ∀ i < n, w i = w' i) {k : ℕ} (hk : k < n) :
    OddBlock w k → OddBlock w' k := by
  rintro ⟨b, h1, h2, h3⟩
  have hb : b < n := by
    by_contra hb
    have e1 := blockStart_mono w (show n ≤ b by omega)
    have e2 := blockStart_ge w n hw n le_rfl
    omega
  exact ⟨b, by rwa [← blockStart_congr h b (by omega)], by rwa [← blockStart_congr h (b + 1) (by omega)], h3⟩

/-- The states of the pixels for the given lengths. -/
noncomputable def colour {Ω : Type} {n : ℕ} (W : Fin n → Ω → ℕ) (k : ℕ) (ω : Ω) : Bool :=
  open Classical in decide (OddBlock (allLengths W ω) k)

theorem colour_iff {Ω : Type} {n : ℕ} {W : Fin n → Ω → ℕ} {k : ℕ} {ω : Ω} : colour W k ω = true ↔ OddBlock (allLengths W ω) k := by
  simp [colour]

theorem colour_chain {Ω : Type} [MeasurableSpace Ω] {P : Measure Ω} [IsProbabilityMeasure P] {p : ℝ} {n : ℕ} {W : Fin n → Ω → ℕ}
    (hW : ∀ i, Measurable (W i)) (h1 : ∀ i ω, 1 ≤ W i ω) (hi : iIndepFun W P)
    (hg : ∀ i g, P.real {ω | W i ω = g + 1} = (1 - p) ^ g * p) : IsChain P (colour W) p n := by
  have hpos : ∀ ω, ∀ i < n, 1 ≤ allLengths W ω i := by
    intro ω i hi
    rw [allLengths, dif_pos hi]
    exact h1 _ _
  constructor
  · intro k _
    have hf : Measurable fun ω => fun i : Fin n => W i ω := measurable_pi_lambda _ hW
    have : colour W k = (fun v : Fin n → ℕ => colour (Ω := Fin n → ℕ) (fun i v => v i) k v) ∘ fun ω => fun i : Fin n => W i ω := rfl
    rw [this]
    exact (measurable_of_countable _).comp hf
  · intro c k hk
    by_cases h0 : c 0 = true
    · rw [if_pos h0]
      have : {ω | ∀ j ≤ k, colour W j ω = c j} = ∅ := by
        refine Set.eq_empty_of_forall_notMem fun ω h => ?_
        have h2 := h 0 (by omega)
        rw [h0, colour_iff, oddBlock_iff (b := 0) (by simp [blockStart])] at h2
        · simp at h2
        · simp only [blockStart]
          have := hpos ω 0 (by omega)
          omega
      rw [this, measureReal_empty]
    · have h0' : c 0 = false := by simpa using h0
      rw [if_neg h0, ← lengthSets_measure hW h1 hi hg c h0' k hk]
      congr 1
      ext ω
      simp only [Set.mem_ofPred_eq]
      have := (lengthSets_iff c h0' n (allLengths W ω) (hpos ω) k hk).1
      have e : (∀ i : Fin n, W i ω ∈ (lengthSets c k).1 i) ↔ ∀ i < n, allLengths W ω i ∈ (lengthSets c k).1 i := by
        constructor
        · intro h i hi
          rw [allLengths, dif_pos hi]
          exact h ⟨i, hi⟩
        · intro h i
          have := h i i.2
          rwa [allLengths, dif_pos i.2] at this
      rw [e, this]
      refine forall₂_congr fun j _ => ?_
      rw [← colour_iff, Bool.eq_iff_iff]

theorem pixelAt_added {x y : Scan ℝ} {noise : List ℝ} (h : Added x noise y) {k : ℕ} (hk : k < x.size) :
    pixelAt y k = pixelAt x k + noise.getD k 0 := by
  obtain ⟨-, h⟩ := h
  cases x with
  | d0 v =>
    simp only at h
    subst h
    obtain rfl : k = 0 := by simp only [Scan.size] at hk; omega
    rfl
  | d1 n f =>
    simp only at h
    subst h
    simp only [Scan.size] at hk
    simp only [pixelAt, dif_pos hk]
  | d2 r c f =>
    simp only at h
    subst h
    simp only [Scan.size] at hk
    simp only [pixelAt, dif_pos hk]
    rw [Nat.div_add_mod']

/-- The pixels that telegraph noise changes. -/
theorem telegraph_colour {τ : Type} {rng : Rng τ} (hv : rng.Valid) {x : Scan ℝ} {scale std height : ℝ} (hs : 1 ≤ scale)
    (hn : ∀ s, ∃ a s', rng.normal height std s = (.ok a, s') ∧ a ≠ 0) {W : Fin x.size → τ → ℕ}
    (hW : ∀ s, ∃ w s', rng.geometric (1 / scale) x.size s = (.ok w, s') ∧ ∀ i : Fin x.size, w i = W i s) (s : τ) :
    ∃ y s', telegraphNoise rng x (some scale) std height s = (.ok y, s') ∧ ∀ k < x.size, (Disturbed x y k ↔ colour W k s = true) := by
  have hp : 0 < 1 / scale := by positivity
  have hp1 : 1 / scale ≤ 1 := by
    rw [div_le_one (by linarith)]
    exact hs
  obtain ⟨w, t, hw, hww⟩ := hW s
  have hw1 : ∀ i < x.size, 1 ≤ w i := by
    obtain ⟨w', t', e, h1⟩ := hv.geometric_ok (1 / scale) x.size s hp hp1
    rw [hw] at e
    cases e
    exact h1
  obtain ⟨out, t', ho⟩ := burstLoop_total (rng.normal height std) (fun s => (hn s).imp fun a h => h.imp fun _ h => h.1) x.size w x.size 0 0 [] t
  obtain ⟨hl, -⟩ := burst_take (fun _ => True) (rng.normal height std) (fun _ _ _ _ => trivial) x.size w hw1 t t' out ho
  obtain ⟨y, hy⟩ := addNoise_total x _ hl
  refine ⟨y, t', ?_, fun k hk => ?_⟩
  · unfold telegraphNoise
    simp only
    rw [if_neg (by linarith), M.bind_run, hw]
    simp only
    rw [M.bind_run, ho]
    simp only
    rw [ofPy_run, hy]
  · rw [Disturbed, pixelAt_added (addNoise_ok hy) hk, colour_iff]
    have hne : ∀ s a s', rng.normal height std s = (.ok a, s') → a ≠ 0 := by
      intro s a s' e
      obtain ⟨b, u, e', hb⟩ := hn s
      rw [e] at e'
      cases e'
      exact hb
    have := burst_states (rng.normal height std) hne x.size w hw1 t t' out ho k hk
    have hww' : ∀ i < x.size, w i = allLengths W s i := by
      intro i hi
      rw [allLengths, dif_pos hi]
      exact hww ⟨i, hi⟩
    have hc : OddBlock w k ↔ OddBlock (allLengths W s) k :=
      ⟨OddBlock.congr hw1 hww' hk, OddBlock.congr (fun i hi => hww' i hi ▸ hw1 i hi) (fun i hi => (hww' i hi).symm) hk⟩
    rw [← hc, ← this]
    simp

theorem lengths_pos {τ : Type} {rng : Rng τ} (hv : rng.Valid) {scale : ℝ} (hs : 1 ≤ scale) {n : ℕ} {W : Fin n → τ → ℕ}
    (hW : ∀ s, ∃ w s', rng.geometric (1 / scale) n s = (.ok w, s') ∧ ∀ i : Fin n, w i = W i s) (i : Fin n) (s : τ) : 1 ≤ W i s := by
  have hp : 0 < 1 / scale := by positivity
  have hp1 : 1 / scale ≤ 1 := by
    rw [div_le_one (by linarith)]
    exact hs
  obtain ⟨w, t, hw, hww⟩ := hW s
  obtain ⟨w', t', e, h1⟩ := hv.geometric_ok (1 / scale) n s hp hp1
  rw [hw] at e
  cases e
  rw [← hww i]
  exact h1 i i.2

/-- The event that the changed pixels have a property. -/
theorem returns_colour {τ : Type} {x : Scan ℝ} {m : M τ (Scan ℝ)} {D : ℕ → τ → Bool}
    (h : ∀ s, ∃ y s', m s = (.ok y, s') ∧ ∀ k < x.size, (Disturbed x y k ↔ D k s = true)) (Q : Scan ℝ → Prop) (R : τ → Prop)
    (hQ : ∀ s y, (∀ k < x.size, (Disturbed x y k ↔ D k s = true)) → (Q y ↔ R s)) : Returns m Q = {s | R s} := by
  ext s
  obtain ⟨y, s', e, hy⟩ := h s
  constructor
  · rintro ⟨z, t, e', hz⟩
    rw [e] at e'
    cases e'
    exact (hQ s y hy).1 hz
  · intro hR
    exact ⟨y, s', e, (hQ s y hy).2 hR⟩

/-! ### A generator whose lengths have the documented distribution -/

open Classical in
/-- The distribution of the lengths, minus one. -/
noncomputable def lengthLaw (p : ℝ) : Measure ℕ :=
  if h : 0 < p ∧ p ≤ 1 then geometricMeasure ⟨p, h.1.le, h.2⟩ else Measure.dirac 0

instance (p : ℝ) : IsProbabilityMeasure (lengthLaw p) := by
  unfold lengthLaw
  split_ifs <;> infer_instance

open Classical in
/-- A generator that reads the lengths from a stream; the other values are constant. -/
noncomputable def lengthRng : Rng (ℕ → ℝ → ℕ) where
  binomial := fun _ => pure true
  geometric := fun p n s => if 0 < p ∧ p ≤ 1 then (.ok fun i => s i p + 1, fun i => s (i + n)) else (.error .valueError, s)
  poisson := fun _ => pure 1
  normal := fun h _ => pure h

noncomputable def lengthStreams : Measure (ℕ → ℝ → ℕ) := Measure.infinitePi fun _ => Measure.infinitePi lengthLaw

instance : IsProbabilityMeasure lengthStreams := by unfold lengthStreams; infer_instance

theorem lengthRng_valid : lengthRng.Valid where
  geometric_error := fun p n s h => by unfold lengthRng; simp only; rw [if_neg h]
  geometric_ok := fun p n s h1 h2 => by
    unfold lengthRng
    simp only
    rw [if_pos ⟨h1, h2⟩]
    exact ⟨_, _, rfl, fun _ _ => Nat.le_add_left _ _⟩

theorem lengthRng_draws {p : ℝ} (h0 : 0 < p) (h1 : p ≤ 1) (n : ℕ) : GeometricDraws lengthStreams lengthRng p n := by
  refine ⟨fun i s => s i p + 1, fun s => ?_, fun i => by fun_prop, ?_, fun i g => ?_⟩
  · unfold lengthRng
    simp only
    rw [if_pos ⟨h0, h1⟩]
    exact ⟨_, _, rfl, fun _ => rfl⟩
  · have hind : iIndepFun (fun (i : ℕ) (s : ℕ → ℝ → ℕ) => s i p + 1) lengthStreams :=
      iIndepFun_infinitePi (P := fun _ : ℕ => Measure.infinitePi lengthLaw) (X := fun _ f => f p + 1) fun _ => by fun_prop
    exact hind.precomp Fin.val_injective
  · have e1 : lengthStreams.map (fun s => s i) = Measure.infinitePi lengthLaw := Measure.infinitePi_map_eval _ (i : ℕ)
    have e2 : (Measure.infinitePi lengthLaw).map (fun f => f p) = lengthLaw p := Measure.infinitePi_map_eval _ p
    have e3 : lengthStreams.map (fun s => s i p) = lengthLaw p := by
      rw [← e2, ← e1, Measure.map_map (by fun_prop) (by fun_prop)]
      rfl
    have e4 : {s : ℕ → ℝ → ℕ | s i p + 1 = g + 1} = (fun s => s i p) ⁻¹' {g} := by
      ext s; simp
    rw [e4, ← map_measureReal_apply (by fun_prop) MeasurableSet.of_discrete, e3, lengthLaw, dif_pos ⟨h0, h1⟩, geometricMeasure_real_singleton]
    intro h
    have := congrArg Subtype.val h
    simp only [Set.Icc.coe_zero] at this
    linarith

end SimCATS
