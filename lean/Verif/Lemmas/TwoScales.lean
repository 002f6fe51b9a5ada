import Verif.Model.TwoScales
import Verif.Spec.TwoScales
import Verif.Props.Telegraph

/-!
The loop of the telegraph noise with two scales.
-/

namespace SimCATS

open Spec

theorem geometric_pos {τ : Type} {rng : Rng τ} (hv : rng.Valid) {p : ℝ} {t t1 : τ} {w : ℕ → ℕ}
    (h : rng.geometric p 1 t = (.ok w, t1)) : 1 ≤ w 0 := by
  by_cases hp : 0 < p ∧ p ≤ 1
  · obtain ⟨w', t', e, h1⟩ := hv.geometric_ok p 1 t hp.1 hp.2
    rw [h] at e
    cases e
    exact h1 0 (by omega)
  · rw [hv.geometric_error p 1 t hp] at h
    cases h

theorem pixels_cons (b : ℕ × ℝ) (l : List (ℕ × ℝ)) : pixels (b :: l) = List.replicate b.1 b.2 ++ pixels l := rfl

theorem invScale_ok {σ : Type} {scale p : ℝ} {s t : σ} :
    (ofPy (invScale scale) : M σ ℝ) s = (.ok p, t) ↔ scale ≠ 0 ∧ p = 1 / scale ∧ t = s := by
  rw [ofPy_run]
  unfold invScale
  by_cases h : scale = 0
  · rw [if_pos h]
    constructor
    · intro h'; cases h'
    · intro h'; exact absurd h h'.1
  · rw [if_neg h]
    constructor
    · intro h'; cases h'; exact ⟨h, rfl, rfl⟩
    · rintro ⟨-, rfl, rfl⟩; rfl

/-- What the loop does from one region on. -/
theorem twoScaleLoop_iff {τ : Type} (rng : Rng τ) (hv : rng.Valid) (burst no std height : ℝ) (size : ℕ) :
    ∀ (todo i : ℕ) (b : Bool) (noise : List ℝ) (s s' : τ) (out : List ℝ), (b = true ↔ ¬ Even i) →
      size ≤ todo + noise.length → (todo = 0 ∨ noise.length < size) →
      (twoScaleLoop rng burst no std height size todo b noise s = (.ok out, s') ↔
        ∃ l, Regions rng burst no std height i l s s' ∧ out = noise ++ pixels l ∧ size ≤ out.length ∧
          ∀ k < l.length, noise.length + (pixels (l.take k)).length < size) := by
  intro todo
  induction todo with
  | zero =>
    intro i b noise s s' out hb hlen _
    have e : twoScaleLoop rng burst no std height size 0 b noise s = (.ok noise, s) := by
      cases b <;> rfl
    rw [e]
    constructor
    · intro h
      cases h
      exact ⟨[], .done, (List.append_nil _).symm, by omega, fun k hk => absurd hk (Nat.not_lt_zero _)⟩
    · rintro ⟨l, hl, rfl, h1, h2⟩
      cases l with
      | nil => cases hl; rw [show pixels [] = [] from rfl, List.append_nil]
      | cons c l => exact absurd (h2 0 (Nat.succ_pos _)) (by omega)
  | succ todo ih =>
    intro i b noise s s' out hb hlen hN
    have hN : noise.length < size := by omega
    -- one region and the rest
    have key : ∀ (n : ℕ) (a : ℝ) (t : τ) (b' : Bool), 1 ≤ n → (b' = true ↔ ¬ Even (i + 1)) →
        ((if size ≤ (noise ++ List.replicate n a).length then (pure (noise ++ List.replicate n a) : M τ (List ℝ))
          else twoScaleLoop rng burst no std height size todo b' (noise ++ List.replicate n a)) t = (.ok out, s') ↔
        ∃ l, Regions rng burst no std height (i + 1) l t s' ∧ out = noise ++ pixels ((n, a) :: l) ∧ size ≤ out.length ∧
          ∀ k < ((n, a) :: l).length, noise.length + (pixels (((n, a) :: l).take k)).length < size) := by
      intro n a t b' hn hb'
      have hl : (noise ++ List.replicate n a).length = noise.length + n := by
        rw [List.length_append, List.length_replicate]
      by_cases hs : size ≤ (noise ++ List.replicate n a).length
      · rw [if_pos hs]
        constructor
        · intro h
          cases h
          refine ⟨[], .done, by rw [pixels_cons]; simp [pixels], hs, ?_⟩
          intro k hk
          obtain rfl : k = 0 := by simpa using hk
          exact hN
        · rintro ⟨l, hl', rfl, h1, h2⟩
          cases l with
          | nil =>
            cases hl'
            rw [pixels_cons, show pixels [] = [] from rfl, List.append_nil]
            rfl
          | cons c l =>
            have := h2 1 (by simp)
            rw [List.take_succ_cons, List.take_zero, pixels_cons, show pixels [] = [] from rfl, List.append_nil,
              List.length_replicate] at this
            exact absurd hs (by omega)
      · rw [if_neg hs, ih (i + 1) b' _ t s' out hb' (by omega) (Or.inr (by omega))]
        constructor
        · rintro ⟨l, h1, h2, h3, h4⟩
          refine ⟨l, h1, by rw [h2, pixels_cons, List.append_assoc], h3, ?_⟩
          intro k hk
          cases k with
          | zero => exact hN
          | succ k =>
            have := h4 k (by simpa using hk)
            rw [List.take_succ_cons, pixels_cons, List.length_append, List.length_replicate]
            dsimp only at this ⊢
            omega
        · rintro ⟨l, h1, h2, h3, h4⟩
          refine ⟨l, h1, by rw [h2, pixels_cons, List.append_assoc], h3, ?_⟩
          intro k hk
          have := h4 (k + 1) (by simpa using hk)
          rw [List.take_succ_cons, pixels_cons, List.length_append, List.length_replicate] at this
          dsimp only at this
          omega
    cases b with
    | false =>
      have he : Even i := by
        by_contra h
        exact absurd (hb.2 h) (by simp)
      have hb' : true = true ↔ ¬ Even (i + 1) := by simp [Nat.even_add_one, he]
      unfold twoScaleLoop
      constructor
      · intro h
        obtain ⟨p, t, h1, h'⟩ := M.bind_ok.1 h
        obtain ⟨hno, rfl, rfl⟩ := invScale_ok.1 h1
        obtain ⟨w, t1, hw, h'⟩ := M.bind_ok.1 h'
        obtain ⟨l, h1, h2⟩ := (key (w 0) 0 t1 true (geometric_pos hv hw) hb').1 h'
        exact ⟨_, .quiet he hno hw h1, h2⟩
      · rintro ⟨l, hl, h2⟩
        cases hl with
        | done =>
          obtain ⟨rfl, h3, -⟩ := h2
          rw [show pixels [] = [] from rfl, List.append_nil] at h3
          omega
        | quiet _ hno hw hr =>
          refine M.bind_ok.2 ⟨_, _, invScale_ok.2 ⟨hno, rfl, rfl⟩, M.bind_ok.2 ⟨_, _, hw, ?_⟩⟩
          exact (key _ 0 _ true (geometric_pos hv hw) hb').2 ⟨_, hr, h2⟩
        | loud ho => exact absurd he ho
    | true =>
      have ho : ¬ Even i := hb.1 rfl
      have hb' : false = true ↔ ¬ Even (i + 1) := by simp [Nat.even_add_one, ho]
      unfold twoScaleLoop
      constructor
      · intro h
        obtain ⟨p, t, h1, h'⟩ := M.bind_ok.1 h
        obtain ⟨hno, rfl, rfl⟩ := invScale_ok.1 h1
        obtain ⟨w, t1, hw, h'⟩ := M.bind_ok.1 h'
        obtain ⟨a, t2, ha, h'⟩ := M.bind_ok.1 h'
        rw [one_mul] at h'
        obtain ⟨l, h1, h2⟩ := (key (w 0) a t2 false (geometric_pos hv hw) hb').1 h'
        exact ⟨_, .loud ho hno hw ha h1, h2⟩
      · rintro ⟨l, hl, h2⟩
        cases hl with
        | done =>
          obtain ⟨rfl, h3, -⟩ := h2
          rw [show pixels [] = [] from rfl, List.append_nil] at h3
          omega
        | quiet he => exact absurd he ho
        | loud _ hno hw ha hr =>
          refine M.bind_ok.2 ⟨_, _, invScale_ok.2 ⟨hno, rfl, rfl⟩, M.bind_ok.2 ⟨_, _, hw, M.bind_ok.2 ⟨_, _, ha, ?_⟩⟩⟩
          rw [one_mul]
          exact (key _ _ _ false (geometric_pos hv hw) hb').2 ⟨_, hr, h2⟩

/-- The loop ends without exception if both scales are at least one pixel. -/
theorem twoScaleLoop_total {τ : Type} (rng : Rng τ) (hv : rng.Valid) (burst no std height : ℝ) (hb : 1 ≤ burst) (hn : 1 ≤ no)
    (hnorm : ∀ s, ∃ a s', rng.normal height std s = (.ok a, s')) (size : ℕ) :
    ∀ (todo : ℕ) (b : Bool) (noise : List ℝ) (s : τ), ∃ out s',
      twoScaleLoop rng burst no std height size todo b noise s = (.ok out, s') := by
  have hg : ∀ scale : ℝ, 1 ≤ scale → ∀ s, ∃ w s', rng.geometric (1 / scale) 1 s = (.ok w, s') := by
    intro scale h s
    obtain ⟨w, s', e, -⟩ := hv.geometric_ok (1 / scale) 1 s (by positivity) (by rw [div_le_one (by linarith)]; exact h)
    exact ⟨w, s', e⟩
  intro todo
  induction todo with
  | zero => intro b noise s; exact ⟨noise, s, by cases b <;> rfl⟩
  | succ todo ih =>
    intro b noise s
    have fin : ∀ (l : List ℝ) (b' : Bool) (t : τ), ∃ out s', (if size ≤ l.length then (pure l : M τ (List ℝ))
        else twoScaleLoop rng burst no std height size todo b' l) t = (.ok out, s') := by
      intro l b' t
      by_cases h : size ≤ l.length
      · rw [if_pos h]; exact ⟨l, t, rfl⟩
      · rw [if_neg h]; exact ih b' l t
    cases b with
    | false =>
      obtain ⟨w, t, hw⟩ := hg no hn s
      obtain ⟨out, s', h⟩ := fin (noise ++ List.replicate (w 0) 0) true t
      refine ⟨out, s', ?_⟩
      unfold twoScaleLoop
      exact M.bind_ok.2 ⟨_, _, invScale_ok.2 ⟨by linarith, rfl, rfl⟩, M.bind_ok.2 ⟨_, _, hw, h⟩⟩
    | true =>
      obtain ⟨w, t, hw⟩ := hg burst hb s
      obtain ⟨a, t2, ha⟩ := hnorm t
      obtain ⟨out, s', h⟩ := fin (noise ++ List.replicate (w 0) (1 * a)) false t2
      refine ⟨out, s', ?_⟩
      unfold twoScaleLoop
      exact M.bind_ok.2 ⟨_, _, invScale_ok.2 ⟨by linarith, rfl, rfl⟩, M.bind_ok.2 ⟨_, _, hw, M.bind_ok.2 ⟨_, _, ha, h⟩⟩⟩

end SimCATS
