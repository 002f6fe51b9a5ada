import Verif.Spec.JumpsDirect
import Verif.Props.DotJumps

/-!
Helper lemmas about direct calls of the functions for dot jumps.
-/

namespace SimCATS

open Spec

/-- With signed arithmetic the loop over `k` is the one of the class. -/
lemma directInner_signed {α : Type} (n : ℕ) (orig : ℕ → Option α) (nj j : ℕ) : ∀ (todo k : ℕ) (s : ℕ → Option α),
    directInner false n orig nj j todo k s = .ok (jumpInner n orig nj j todo k s) := by
  intro todo
  induction todo with
  | zero => exact fun k s => rfl
  | succ todo ih =>
    intro k s
    unfold directInner jumpInner
    by_cases h : n ≤ j + k
    · rw [if_pos h, if_pos h]
    · rw [if_neg h, if_neg h]
      have hs : jumpSource false j nj k = .ok (max 0 ((j : ℤ) - nj + k)).toNat := rfl
      rw [hs]
      dsimp only
      rw [if_neg (by omega), ih]

lemma directLane_signed {α : Type} (n : ℕ) (orig : ℕ → Option α) (noise : ℕ → ℕ) (len : ℕ) :
    ∀ (todo j : ℕ) (s : ℕ → Option α), j + todo ≤ len →
      directLane false n orig noise len todo j s = .ok (jumpLane n orig noise todo j s) := by
  intro todo
  induction todo with
  | zero => exact fun j s _ => rfl
  | succ todo ih =>
    intro j s h
    unfold directLane jumpLane
    rw [if_neg (by omega), directInner_signed]
    dsimp only
    rw [if_neg (by simp)]
    have hc : jumpCount false (noise j) = noise j + 1 := rfl
    rw [hc]
    exact ih _ _ (by omega)

/-- Arithmetic modulo 256 agrees as long as no jump reaches over the border. -/
lemma directInner_wrap {α : Type} (n : ℕ) (orig : ℕ → Option α) (nj j : ℕ) (hj : j ≤ 255) (hn : nj ≤ j) :
    ∀ (todo k : ℕ) (s : ℕ → Option α), k + todo ≤ nj + 1 →
      directInner true n orig nj j todo k s = .ok (jumpInner n orig nj j todo k s) := by
  intro todo
  induction todo with
  | zero => exact fun k s _ => rfl
  | succ todo ih =>
    intro k s hk
    unfold directInner jumpInner
    by_cases h : n ≤ j + k
    · rw [if_pos h, if_pos h]
    · rw [if_neg h, if_neg h]
      have hs : jumpSource true j nj k = .ok (max 0 ((j : ℤ) - nj + k)).toNat := by
        unfold jumpSource
        rw [if_pos rfl, if_neg (by omega)]
        congr 1
        omega
      rw [hs]
      dsimp only
      rw [if_neg (by omega), ih _ _ (by omega)]

lemma directLane_wrap {α : Type} (n : ℕ) (orig : ℕ → Option α) (noise : ℕ → ℕ) (len : ℕ) :
    ∀ (todo j : ℕ) (s : ℕ → Option α), j + todo ≤ len → j + todo ≤ 256 →
      (∀ i, i < j + todo → noise i ≤ i ∧ noise i ≤ 254) →
      directLane true n orig noise len todo j s = .ok (jumpLane n orig noise todo j s) := by
  intro todo
  induction todo with
  | zero => exact fun j s _ _ _ => rfl
  | succ todo ih =>
    intro j s h h256 hn
    unfold directLane jumpLane
    have hc : jumpCount true (noise j) = noise j + 1 := by
      unfold jumpCount
      rw [if_pos rfl]
      have := (hn j (by omega)).2
      omega
    rw [if_neg (by omega), hc, directInner_wrap n orig (noise j) j (by omega) (hn j (by omega)).1 _ _ _ (by omega)]
    dsimp only
    rw [if_neg (by omega)]
    exact ih _ _ (by omega) (by omega) fun i hi => hn i (by omega)

/-- If position `p` always fails, so does the lane. -/
lemma directLane_fails {α : Type} (wrap : Bool) (n : ℕ) (orig : ℕ → Option α) (noise : ℕ → ℕ) (len p : ℕ)
    (hp : ∀ s, (∃ e, directInner wrap n orig (noise p) p (jumpCount wrap (noise p)) 0 s = .error e) ∨
      (wrap = true ∧ 255 < p)) :
    ∀ (todo j : ℕ) (s : ℕ → Option α), j ≤ p → p < j + todo →
      ∃ e, directLane wrap n orig noise len todo j s = .error e := by
  intro todo
  induction todo with
  | zero => exact fun j s h1 h2 => absurd h2 (by omega)
  | succ todo ih =>
    intro j s h1 h2
    unfold directLane
    by_cases hl : len ≤ j
    · exact ⟨_, by rw [if_pos hl]⟩
    · rw [if_neg hl]
      cases hd : directInner wrap n orig (noise j) j (jumpCount wrap (noise j)) 0 s with
      | error e => exact ⟨e, rfl⟩
      | ok s' =>
        dsimp only
        by_cases hw : wrap = true ∧ 255 < j
        · exact ⟨_, by rw [if_pos hw]⟩
        · rw [if_neg hw]
          by_cases hjp : j = p
          · subst hjp
            rcases hp s with ⟨e, he⟩ | h
            · rw [he] at hd
              cases hd
            · exact absurd h hw
          · exact ih _ _ (by omega) (by omega)

lemma directLanes_ok {α : Type} (lane : ℕ → Py (ℕ → Option α)) (res : ℕ → ℕ → Option α) :
    ∀ (todo i : ℕ) (s : ℕ → ℕ → Option α), (∀ a, i ≤ a → a < i + todo → lane a = .ok (res a)) →
      ∃ out, directLanes lane todo i s = .ok out ∧ (∀ a, i ≤ a → a < i + todo → out a = res a) ∧
        ∀ a, a < i → out a = s a := by
  intro todo
  induction todo with
  | zero => exact fun i s _ => ⟨s, rfl, fun a h1 h2 => absurd h2 (by omega), fun _ _ => rfl⟩
  | succ todo ih =>
    intro i s h
    unfold directLanes
    rw [h i (le_refl _) (by omega)]
    dsimp only
    obtain ⟨out, h1, h2, h3⟩ := ih (i + 1) (Function.update s i (res i)) fun a ha hb => h a (by omega) (by omega)
    refine ⟨out, h1, ?_, ?_⟩
    · intro a ha hb
      by_cases hai : a = i
      · subst hai
        rw [h3 a (by omega), Function.update_self]
      · exact h2 a (by omega) (by omega)
    · intro a ha
      rw [h3 a (by omega), Function.update_of_ne (by omega)]

lemma directLanes_fails {α : Type} (lane : ℕ → Py (ℕ → Option α)) (todo : ℕ) (s : ℕ → ℕ → Option α) (h0 : 0 < todo)
    (h : ∃ e, lane 0 = .error e) : ∃ e, directLanes lane todo 0 s = .error e := by
  obtain ⟨e, he⟩ := h
  obtain ⟨t, rfl⟩ : ∃ t, todo = t + 1 := ⟨todo - 1, by omega⟩
  refine ⟨e, ?_⟩
  unfold directLanes
  rw [he]

/-- Jumps that can be used with the given version of numpy in lanes of `n` pixels. -/
def Usable (np2 : Bool) (n : ℕ) (noise : JumpArr) : Prop :=
  noise.type = .signed ∨ noise.type = .u8 ∧ (np2 = false ∨ InsideImage n noise.vals)

lemma jumpLoops_ok {α : Type} (np2 : Bool) (lanes n : ℕ) (orig : ℕ → ℕ → Option α) (noise : JumpArr)
    (empty : ℕ → ℕ → Option α) (hl : n ≤ noise.vals.length) (hu : Usable np2 n noise) :
    ∃ out, jumpLoops np2 lanes n orig noise empty = .ok out ∧
      ∀ i < lanes, Shifted n (orig i) (fun j => noise.vals.getD j 0) (out i) := by
  unfold jumpLoops
  have hf : noise.type ≠ .float := by
    rcases hu with h | ⟨h, _⟩ <;> rw [h] <;> simp
  rw [if_neg (fun h => hf h.1)]
  obtain ⟨out, h1, h2, _⟩ := directLanes_ok
    (fun i => directLane (np2 && noise.type == .u8) n (orig i) (fun j => noise.vals.getD j 0) noise.vals.length n 0
      (empty i)) (fun i => jumpLane n (orig i) (fun j => noise.vals.getD j 0) n 0 (empty i)) lanes 0 empty (by
      intro i _ _
      rcases hu with h | ⟨h, hnp | ⟨h256, hsmall⟩⟩
      · rw [h]
        simp only [Bool.and_eq_true, beq_iff_eq, reduceCtorEq, and_false, Bool.and_false, beq_eq_false_iff_ne,
          ne_eq, not_false_eq_true, show (JumpType.signed == JumpType.u8) = false from rfl]
        exact directLane_signed _ _ _ _ _ _ _ (by omega)
      · rw [hnp]
        exact directLane_signed _ _ _ _ _ _ _ (by omega)
      · cases np2 with
        | false => exact directLane_signed _ _ _ _ _ _ _ (by omega)
        | true =>
          rw [h]
          exact directLane_wrap _ _ _ _ _ _ _ (by omega) (by omega) fun i hi => hsmall i (by omega))
  refine ⟨out, h1, fun i hi => ?_⟩
  rw [h2 i (by omega) (by omega)]
  exact jumpLane_shifted _ _ _ _

/-- `uint8` jumps with numpy >= 2 fail in lanes of more than 256 pixels. -/
lemma jumpLoops_large {α : Type} (lanes n : ℕ) (orig : ℕ → ℕ → Option α) (vals : List ℕ)
    (empty : ℕ → ℕ → Option α) (h0 : 0 < lanes) (hn : 256 < n) :
    ∃ e, jumpLoops true lanes n orig ⟨.u8, vals⟩ empty = .error e := by
  unfold jumpLoops
  rw [if_neg (by simp)]
  exact directLanes_fails _ lanes empty h0
    (directLane_fails true n (orig 0) _ _ 256 (fun s => Or.inr ⟨rfl, by omega⟩) n 0 _ (by omega) (by omega))

/-- `uint8` jumps with numpy >= 2 fail if a jump reaches over the border. -/
lemma jumpLoops_border {α : Type} (lanes n : ℕ) (orig : ℕ → ℕ → Option α) (vals : List ℕ)
    (empty : ℕ → ℕ → Option α) (h0 : 0 < lanes) (p : ℕ) (hp : p < n) (h1 : p < vals.getD p 0)
    (h2 : vals.getD p 0 ≤ 254) (h3 : n + vals.getD p 0 ≤ 256 + p) :
    ∃ e, jumpLoops true lanes n orig ⟨.u8, vals⟩ empty = .error e := by
  unfold jumpLoops
  rw [if_neg (by simp)]
  refine directLanes_fails _ lanes empty h0 (directLane_fails true n (orig 0) _ _ p (fun s => Or.inl ?_) n 0 _
    (by omega) (by omega))
  dsimp only
  refine ⟨.indexError, ?_⟩
  generalize vals.getD p 0 = v at *
  have hc : jumpCount true v = v + 1 := by
    unfold jumpCount
    rw [if_pos rfl]
    omega
  rw [hc]
  unfold directInner
  have hs : jumpSource true p v 0 = .ok (256 + p - v) := by
    unfold jumpSource
    rw [if_pos rfl, if_neg (by omega)]
    congr 1
    omega
  rw [if_neg (by omega), hs]
  dsimp only
  rw [if_pos (by omega)]

lemma jumpsDirect_some {τ α : Type} (np2 : Bool) (rng : Rng τ) (axis : Axis) (rows cols : ℕ) (orig : ℕ → ℕ → Option α)
    (scale lam : ℝ) (hs : scale ≠ 0) (a : JumpArr) (empty : ℕ → ℕ → Option α) (s : τ)
    (hl : axisLength axis rows cols ≤ a.vals.length) (hu : Usable np2 (axisLength axis rows cols) a) :
    ∃ res, jumpsDirect np2 rng axis rows cols orig scale lam (some a) empty s = (.ok (res, a), s) ∧
      ShiftedImage axis rows cols orig a.vals res := by
  unfold jumpsDirect
  rw [if_neg hs]
  cases axis with
  | g1 =>
    obtain ⟨out, h1, h2⟩ := jumpLoops_ok np2 rows cols orig a empty hl hu
    refine ⟨out, ?_, h2⟩
    simp only [M.bind_run, M.pure_run, ofPy_run, h1]
  | g2 =>
    obtain ⟨out, h1, h2⟩ := jumpLoops_ok np2 cols rows (fun i j => orig j i) a (fun i j => empty j i) hl hu
    refine ⟨fun j i => out i j, ?_, h2⟩
    simp only [M.bind_run, M.pure_run, ofPy_run, h1]

lemma jumpsDirect_none {τ α : Type} (np2 : Bool) (rng : Rng τ) (axis : Axis) (rows cols : ℕ) (orig : ℕ → ℕ → Option α)
    (scale lam : ℝ) (hs : scale ≠ 0) (empty : ℕ → ℕ → Option α) (s : τ) :
    jumpsDirect np2 rng axis rows cols orig scale lam none empty s =
      match generateJumps rng (axisLength axis rows cols) scale lam s with
      | (.error e, t) => (.error e, t)
      | (.ok l, t) => jumpsDirect np2 rng axis rows cols orig scale lam (some ⟨.u8, l⟩) empty t := by
  unfold jumpsDirect
  rw [if_neg hs]
  simp only [if_neg hs]
  cases axis <;> rcases hg : generateJumps rng _ scale lam s with ⟨e | l, t⟩ <;>
    (simp only [axisLength] at hg; simp only [axisLength, M.bind_run, M.pure_run, hg])

/-- The loops fail, so the call fails. -/
lemma jumpsDirect_fails {τ α : Type} (np2 : Bool) (rng : Rng τ) (axis : Axis) (rows cols : ℕ) (orig : ℕ → ℕ → Option α)
    (scale lam : ℝ) (hs : scale ≠ 0) (a : JumpArr) (empty : ℕ → ℕ → Option α) (s : τ)
    (h : ∀ (orig empty : ℕ → ℕ → Option α), ∃ e, jumpLoops np2 (axisLength axis cols rows) (axisLength axis rows cols) orig
      a empty = .error e) :
    ∃ e, jumpsDirect np2 rng axis rows cols orig scale lam (some a) empty s = (.error e, s) := by
  unfold jumpsDirect
  rw [if_neg hs]
  cases axis with
  | g1 =>
    obtain ⟨e, he⟩ := h orig empty
    refine ⟨e, ?_⟩
    simp only [axisLength] at he
    simp only [M.bind_run, M.pure_run, ofPy_run, he]
  | g2 =>
    obtain ⟨e, he⟩ := h (fun i j => orig j i) fun i j => empty j i
    refine ⟨e, ?_⟩
    simp only [axisLength] at he
    simp only [M.bind_run, M.pure_run, ofPy_run, he]

end SimCATS
