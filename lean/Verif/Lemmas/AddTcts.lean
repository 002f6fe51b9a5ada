import Verif.Lemmas.SampledCsd
import Verif.Lemmas.SampledFirst

/-! The loop that adds transitions to a sampled configuration. -/

namespace SimCATS

open Spec

variable {p : TctParams} {v : ℝ × ℝ}

theorem rotate_sampled (ps : List TctParams) (P : ℝ × ℝ) :
    rotatePoint (sampledIdeal ps).rotation P = (kap * P.1 + kap * P.2, kap * P.2 - kap * P.1) := rotate_neg P

theorem tctCoord_sampled (ps : List TctParams) (P : ℝ × ℝ) :
    tctCoord (sampledIdeal ps) P = (kap * P.1 - kap * P.2, kap * P.1 + kap * P.2) := by
  have : -(sampledIdeal ps).rotation = Real.pi / 4 := by simp only [sampledIdeal]; ring
  unfold tctCoord
  rw [this, rotate_pos]

/-- The last curve of a non-empty ladder. -/
theorem ladder_last (h : SampledFirst p v) {n : ℕ} {curves : List (ℝ → ℝ)}
    (hc : IsCurves (some 1000) 1 (ladder p v (n + 1)) curves) :
    ∃ pre f, curves = pre ++ [f] ∧ ∀ x, |f x - ladderCurve p v n x| ≤ 0.000003 := by
  have hl := hc.length
  rw [ladder_length] at hl
  have hne : curves ≠ [] := by intro h0; rw [h0] at hl; simp at hl
  refine ⟨curves.dropLast, curves.getLast hne, (List.dropLast_append_getLast hne).symm, ?_⟩
  have hf : curves[n]? = some (curves.getLast hne) := by
    rw [← List.getLast?_eq_some_getLast hne, List.getLast?_eq_getElem?, hl]
    rfl
  exact (ladder_near h hc hf).2

theorem ladder_curves (h : SampledFirst p v) (n : ℕ) : ∃ curves, IsCurves (some 1000) 1 (ladder p v n) curves :=
  C05_curves_exist _ (h.cfgOk n)

theorem testLim_sort : sortLim testLim = testLim := by unfold sortLim testLim; norm_num

/-- The test measurement succeeds if there are enough transitions. -/
theorem test_ok (h : SampledFirst p v) (lab : Labelling) {n : ℕ} (hn : 121 ≤ n) :
    ∃ o, ideal2d (sampledIdeal (ladder p v (n + 1))) lab testLim testLim 10 10 = .ok o := by
  obtain ⟨curves, hc⟩ := ladder_curves h (n + 1)
  obtain ⟨pre, f, hcv, hf⟩ := ladder_last h hc
  have hb : ∀ x, -0.0731 - 0.54688 * |x| ≤ f x := by
    intro x
    have h1 := ladderCurve_ge h n x
    have h2 := (abs_le.1 (hf x)).1
    have h3 : (121 : ℝ) ≤ n := by exact_mod_cast hn
    norm_num at h1 h2 ⊢
    linarith
  obtain ⟨k1, k2⟩ := kap_bounds
  norm_num at k1 k2
  refine ideal2d_below (h.cfgOk (n + 1)) hcv hc lab (by norm_num) (by norm_num) (by norm_num) (by norm_num) ?_ ?_
  · intro x hx
    rw [testLim_sort, rotate_sampled] at hx
    obtain ⟨-, h1, -, h2⟩ := hx
    have h3 := hb x
    unfold pixStep at h1 h2
    norm_num [testLim] at h1 h2 h3
    rcases abs_cases x with ⟨e, hs⟩ | ⟨e, hs⟩ <;> rw [e] at h3 <;> nlinarith
  · intro P a1 a2 b1 b2
    rw [testLim_sort] at a1 a2 b1 b2
    rw [tctCoord_sampled]
    refine lt_of_lt_of_le ?_ (hb _)
    norm_num [testLim] at a1 a2 b1 b2 ⊢
    rcases abs_cases (kap * P.1 - kap * P.2) with ⟨e, hs⟩ | ⟨e, hs⟩ <;> rw [e] <;> nlinarith

/-- The loop ends after finitely many steps with a family of transitions; all shorter families fail the test. -/
theorem addTcts_ladder (h : SampledFirst p v) (lab : Labelling) : ∀ (m n : ℕ), 122 ≤ n + 1 + m → n + 1 ≤ 122 →
    ∃ N, n ≤ N ∧ N + 1 ≤ 122 ∧ (∃ o, ideal2d (sampledIdeal (ladder p v (N + 1))) lab testLim testLim 10 10 = .ok o) ∧
      (∀ k, n ≤ k → k < N → ideal2d (sampledIdeal (ladder p v (k + 1))) lab testLim testLim 10 10 = .error .indexError) ∧
      ∀ r, AddTcts lab v (ladder p v (n + 1)) r ↔ r = .ok (ladder p v (N + 1)) := by
  have stop : ∀ n o, ideal2d (sampledIdeal (ladder p v (n + 1))) lab testLim testLim 10 10 = .ok o →
      ∀ r, AddTcts lab v (ladder p v (n + 1)) r ↔ r = .ok (ladder p v (n + 1)) := by
    intro n o ho r
    obtain ⟨x, hx⟩ := (measure_test lab (ladder p v (n + 1))).1 o ho
    constructor
    · intro ha
      cases ha with
      | stop _ => rfl
      | again he _ _ => rw [hx] at he; cases he
      | fail he _ => rw [hx] at he; cases he
      | other he _ => rw [hx] at he; cases he
    · rintro rfl
      exact .stop hx
  intro m
  induction m with
  | zero =>
    intro n h1 h2
    obtain ⟨o, ho⟩ := test_ok h lab (n := n) (by omega)
    exact ⟨n, le_rfl, h2, ⟨o, ho⟩, fun k hk1 hk2 => by omega, stop n o ho⟩
  | succ m ih =>
    intro n h1 h2
    rcases ideal2d_cases (h.cfgOk (n + 1)) lab (g1 := testLim) (g2 := testLim) (by norm_num) (by norm_num) (r := 10) (c := 10)
      (by norm_num) (by norm_num) with ⟨o, ho⟩ | he
    · exact ⟨n, le_rfl, h2, ⟨o, ho⟩, fun k hk1 hk2 => by omega, stop n o ho⟩
    · by_cases hn : n + 1 = 122
      · obtain ⟨o, ho⟩ := test_ok h lab (n := n) (by omega)
        rw [ho] at he; cases he
      obtain ⟨N, g1, g2, g3, g4, g5⟩ := ih (n + 1) (by omega) (by omega)
      refine ⟨N, by omega, g2, g3, ?_, ?_⟩
      · intro k hk1 hk2
        by_cases e : k = n
        · rw [e]; exact he
        · exact g4 k (by omega) hk2
      · intro r
        have hx := (measure_test lab (ladder p v (n + 1))).2 _ he
        rw [← g5]
        constructor
        · intro ha
          cases ha with
          | stop hs => rw [hx] at hs; cases hs
          | again _ hq hr =>
            rw [addOneTct_ladder] at hq
            cases hq
            exact hr
          | fail _ hq => rw [addOneTct_ladder] at hq; cases hq
          | other ho hne => rw [hx] at ho; cases ho; exact absurd rfl hne
        · intro ha
          exact .again hx (addOneTct_ladder p v n) ha

theorem ladder_one (p : TctParams) (v : ℝ × ℝ) : ladder p v 1 = [p] := by
  simp [ladder, moved]

end SimCATS
