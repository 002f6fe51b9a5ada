import Verif.Model.Telegraph
import Verif.Lemmas.Monad
import Verif.Spec.Telegraph

/-!
Invariant of the block loop.
-/

namespace SimCATS

open Spec

theorem blockStart_ge (w : ℕ → ℕ) (n : ℕ) (hw : ∀ i < n, 1 ≤ w i) : ∀ b ≤ n, b ≤ blockStart w b := by
  intro b
  induction b with
  | zero => intro _; exact Nat.zero_le _
  | succ b ih =>
    intro hb
    have := ih (by omega)
    have := hw b (by omega)
    simp only [blockStart]
    omega

/-- The blocks before block `i` are complete. -/
structure Blocks {α : Type} [Zero α] (P : α → Prop) (w : ℕ → ℕ) (amp : ℕ → α) (i : ℕ) (noise : List α) : Prop where
  len : noise.length = blockStart w i
  val : ∀ (p : ℕ) (h : p < noise.length), ∃ b < i, blockStart w b ≤ p ∧ p < blockStart w (b + 1) ∧
    noise[p] = if Even b then 0 else amp b
  good : ∀ b < i, P (amp b)

theorem Blocks.snoc {α : Type} [Semiring α] {P : α → Prop} {w : ℕ → ℕ} {amp : ℕ → α} {i : ℕ} {noise : List α}
    (h : Blocks P w amp i noise) (bi : ℕ) (hbi : bi = i % 2) (a : α) (ha : P a) :
    Blocks P w (Function.update amp i a) (i + 1) (noise ++ List.replicate (w i) ((bi : α) * a)) := by
  constructor
  · rw [List.length_append, List.length_replicate, h.len]
    rfl
  · intro p hp
    rw [List.length_append, List.length_replicate] at hp
    by_cases hlt : p < noise.length
    · obtain ⟨b, hb, h1, h2, h3⟩ := h.val p hlt
      refine ⟨b, by omega, h1, h2, ?_⟩
      rw [List.getElem_append_left hlt, h3, Function.update_of_ne (by omega)]
    · refine ⟨i, by omega, ?_, ?_, ?_⟩
      · rw [← h.len]; omega
      · simp only [blockStart]; rw [← h.len]; omega
      · rw [List.getElem_append_right (by omega), List.getElem_replicate, Function.update_self]
        rcases Nat.even_or_odd i with he | ho
        · rw [if_pos he, hbi, Nat.even_iff.1 he]; simp
        · rw [if_neg (Nat.not_even_iff_odd.2 ho), hbi, Nat.odd_iff.1 ho]; simp
  · intro b hb
    by_cases hbi' : b = i
    · subst hbi'; rw [Function.update_self]; exact ha
    · rw [Function.update_of_ne hbi']; exact h.good b (by omega)

/-- The loop produces complete blocks, at least `size` entries. -/
theorem burstLoop_ok {τ α : Type} [Semiring α] (P : α → Prop) (amp : M τ α) (hP : ∀ s a s', amp s = (.ok a, s') → P a)
    (size : ℕ) (w : ℕ → ℕ) (hw : ∀ i < size, 1 ≤ w i) : ∀ (todo i bi : ℕ) (noise : List α) (amps : ℕ → α) (s s' : τ)
      (out : List α), todo + i = size → bi = i % 2 → Blocks P w amps i noise →
      burstLoop amp size w todo i bi noise s = (.ok out, s') →
      ∃ amps' n, n ≤ size ∧ Blocks P w amps' n out ∧ size ≤ out.length := by
  intro todo
  induction todo with
  | zero =>
    intro i bi noise amps s s' out hi hbi hb hrun
    simp only [burstLoop, M.pure_run, Prod.mk.injEq, Except.ok.injEq] at hrun
    obtain ⟨rfl, rfl⟩ := hrun
    refine ⟨amps, i, by omega, hb, ?_⟩
    rw [hb.len]
    have := blockStart_ge w size hw i (by omega)
    omega
  | succ todo ih =>
    intro i bi noise amps s s' out hi hbi hb hrun
    have hwi : 0 < w i := hw i (by omega)
    simp only [burstLoop, if_pos hwi] at hrun
    rw [M.bind_ok] at hrun
    obtain ⟨a, t, ha, hrun⟩ := hrun
    have hb' := hb.snoc bi hbi a (hP _ _ _ ha)
    split at hrun
    · rename_i hsz
      simp only [M.pure_run, Prod.mk.injEq, Except.ok.injEq] at hrun
      obtain ⟨rfl, rfl⟩ := hrun
      exact ⟨_, i + 1, by omega, hb', hsz⟩
    · refine ih (i + 1) _ _ _ _ _ _ (by omega) ?_ hb' hrun
      subst hbi
      split <;> omega

/-- The loop succeeds if the amplitudes can always be drawn. -/
theorem burstLoop_total {τ α : Type} [Semiring α] (amp : M τ α) (ht : ∀ s, ∃ a s', amp s = (.ok a, s')) (size : ℕ)
    (w : ℕ → ℕ) : ∀ (todo i bi : ℕ) (noise : List α) (s : τ), ∃ out s',
      burstLoop amp size w todo i bi noise s = (.ok out, s') := by
  intro todo
  induction todo with
  | zero => intro i bi noise s; exact ⟨_, _, rfl⟩
  | succ todo ih =>
    intro i bi noise s
    simp only [burstLoop]
    split
    · obtain ⟨a, t, ha⟩ := ht s
      rw [M.bind_run, ha]
      simp only
      split
      · exact ⟨_, _, rfl⟩
      · exact ih _ _ _ _
    · split
      · exact ⟨_, _, rfl⟩
      · exact ih _ _ _ _

/-- The truncated noise: the right length and two states. -/
theorem burst_take {τ α : Type} [Semiring α] (P : α → Prop) (amp : M τ α) (hP : ∀ s a s', amp s = (.ok a, s') → P a)
    (size : ℕ) (w : ℕ → ℕ) (hw : ∀ i < size, 1 ≤ w i) (s s' : τ) (out : List α)
    (h : burstLoop amp size w size 0 0 [] s = (.ok out, s')) :
    (out.take size).length = size ∧ ∃ amps, TwoState w amps (out.take size) ∧
      ∀ (p : ℕ) (h : p < (out.take size).length), (out.take size)[p] = 0 ∨ P (out.take size)[p] := by
  have h0 : Blocks P w (fun _ => (0 : α)) 0 ([] : List α) :=
    ⟨rfl, fun p hp => absurd hp (by simp), fun b hb => absurd hb (by omega)⟩
  obtain ⟨amps, n, -, hb, hlen⟩ := burstLoop_ok P amp hP size w hw size 0 0 [] _ s s' out (by omega) rfl h0 h
  refine ⟨by rw [List.length_take]; omega, amps, ?_, ?_⟩
  · intro p hp
    rw [List.length_take] at hp
    obtain ⟨b, -, h1, h2, h3⟩ := hb.val p (by omega)
    refine ⟨b, h1, h2, ?_⟩
    rw [List.getElem_take, h3]
  · intro p hp
    rw [List.length_take] at hp
    obtain ⟨b, hbn, h1, h2, h3⟩ := hb.val p (by omega)
    rw [List.getElem_take, h3]
    split
    · exact Or.inl rfl
    · exact Or.inr (hb.good b hbn)

theorem onRest_eq {D τ α : Type} {x : M τ α} {t t' : τ} {r : Py α} (h : x t = (r, t')) (d : D) :
    onRest x (d, t) = (r, (d, t')) := by
  unfold onRest
  simp only [h]

theorem setOwn_run {D τ : Type} (d d' : D) (t : τ) : (setOwn d : M (D × τ) Unit) (d', t) = (.ok (), (d, t)) := rfl

theorem getOwn_run {D τ : Type} (s : D × τ) : (getOwn : M (D × τ) D) s = (.ok s.1, s) := rfl

end SimCATS
