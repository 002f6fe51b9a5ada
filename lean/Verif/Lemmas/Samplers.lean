import Verif.Lemmas.Monad
import Verif.Spec.Samplers
import Mathlib.Tactic.Linarith
import Mathlib.Tactic.NormNum

/-!
Lemmas about the ranges and executions of samplers.
-/

namespace SimCATS

open Spec

theorem narrow_spec {τ : Type} {rng : DrawRng τ} (hv : rng.Valid) {total : ℝ × ℝ} {width : Option ℝ} (ht : total.1 ≤ total.2)
    (hw : ∀ w ∈ width, 0 ≤ w) {s s' : τ} {r : ℝ × ℝ} (h : narrow rng total width s = (.ok r, s')) :
    Narrowed total width r ∧ r.1 ≤ r.2 := by
  cases width with
  | none => cases h; exact ⟨rfl, ht⟩
  | some w =>
    have hw0 := hw w rfl
    unfold narrow at h
    simp only at h
    unfold Narrowed
    simp only
    rw [abs_of_nonneg (sub_nonneg.2 ht)]
    split_ifs at h with hc
    · cases h
      exact ⟨⟨fun _ => rfl, fun h' => absurd hc (not_le.2 h')⟩, ht⟩
    · obtain ⟨c, t, hu, h⟩ := M.bind_ok.mp h
      cases h
      have hb := hv.uniform _ _ _ _ _ (by linarith [not_le.1 hc]) hu
      refine ⟨⟨fun h' => absurd h' hc, fun _ => ?_⟩, by simp only; linarith⟩
      unfold Inside
      rw [min_eq_left ht, max_eq_right ht]
      simp only
      refine ⟨⟨by linarith, by linarith⟩, ⟨by linarith, by linarith⟩, ?_, fun _ => by linarith, fun h' => by linarith⟩
      rw [show c + 0.5 * w - (c - 0.5 * w) = w by ring, abs_of_nonneg hw0]

theorem narrowExp_spec {τ : Type} {rng : DrawRng τ} (hv : rng.Valid) {total : ℝ × ℝ} {width : Option ℝ}
    (hw : ∀ w ∈ width, 0 ≤ w) {s s' : τ} {r : ℝ × ℝ} (h : narrowExp rng total width s = (.ok r, s')) :
    Narrowed total width r := by
  cases width with
  | none => cases h; exact rfl
  | some w =>
    have hw0 := hw w rfl
    unfold narrowExp at h
    simp only at h
    unfold Narrowed
    simp only
    rw [max_sub_min_eq_abs] at h
    by_cases hc : |total.2 - total.1| ≤ w
    · rw [if_pos hc] at h
      cases h
      exact ⟨fun _ => rfl, fun h' => absurd hc (not_le.2 h')⟩
    · rw [if_neg hc] at h
      obtain ⟨c, t, hu, h⟩ := M.bind_ok.mp h
      rw [← max_sub_min_eq_abs] at hc
      have hb := hv.uniform _ _ _ _ _ (by linarith [not_le.1 hc]) hu
      rw [max_sub_min_eq_abs] at hc
      refine ⟨fun h' => absurd h' hc, fun _ => ?_⟩
      unfold Inside
      split_ifs at h with ho
      · cases h
        simp only
        refine ⟨⟨by linarith, by linarith⟩, ⟨by linarith, by linarith⟩, ?_, fun _ => by linarith, fun h' => by linarith⟩
        rw [show c + 0.5 * w - (c - 0.5 * w) = w by ring, abs_of_nonneg hw0]
      · cases h
        simp only
        refine ⟨⟨by linarith, by linarith⟩, ⟨by linarith, by linarith⟩, ?_, fun h' => absurd h' ho, fun h' => by linarith⟩
        rw [show c - 0.5 * w - (c + 0.5 * w) = -w by ring, abs_neg, abs_of_nonneg hw0]

theorem redraw_ok {τ : Type} {draw : M τ ℝ} {accept : ℝ → Prop} {s : τ} {r : Py ℝ × τ} (h : Redraw draw accept s r) :
    ∀ v s', r = (.ok v, s') → accept v ∧ ∃ t, draw t = (.ok v, s') := by
  induction h with
  | stop hd ha => intro v s' e; cases e; exact ⟨ha, _, hd⟩
  | again hd ha h ih => exact ih
  | fail hd => intro v s' e; cases e

theorem call_ok {τ : Type} {d : Sampler τ} {s s' : Option ℝ × τ} {v : ℝ} (h : d.Call s (.ok v, s')) :
    d.accept v ∧ s'.1 = some v ∧ ∃ t t', d.draw t = (.ok v, t') := by
  cases h with
  | ok h =>
    obtain ⟨h1, t, h2⟩ := redraw_ok h _ _ rfl
    exact ⟨h1, rfl, t, _, h2⟩

/-- The executions of a sampler whose calls return only values of its range. -/
theorem run_spec {τ : Type} {d : Sampler τ} (hd : ∀ s v s', d.Call s (.ok v, s') → Inside d.range v) {s t : Option ℝ × τ}
    {es : List SamplerEvent} (h : d.Run s es t) :
    (∀ v, SamplerEvent.sampled v ∈ es → Inside d.range v) ∧
    ∀ pre o post, es = pre ++ .last o :: post → o = lastSample s.1 pre := by
  induction h with
  | nil =>
    refine ⟨fun v h => by simp at h, fun pre o post h => ?_⟩
    simp at h
  | @sampled s v s' es t hc _ ih =>
    refine ⟨fun w hw => ?_, fun pre o post e => ?_⟩
    · rcases List.mem_cons.1 hw with h | h
      · cases h
        exact hd _ _ _ hc
      · exact ih.1 w h
    · cases pre with
      | nil => simp at e
      | cons a pre =>
        simp only [List.cons_append, List.cons.injEq] at e
        obtain ⟨rfl, e⟩ := e
        rw [ih.2 pre o post e, (call_ok hc).2.1]
        rfl
  | @raised s e s' es t hc _ ih =>
    refine ⟨fun w hw => ?_, fun pre o post e => ?_⟩
    · rcases List.mem_cons.1 hw with h | h
      · cases h
      · exact ih.1 w h
    · cases pre with
      | nil => simp at e
      | cons a pre =>
        simp only [List.cons_append, List.cons.injEq] at e
        obtain ⟨rfl, e⟩ := e
        rw [ih.2 pre o post e]
        cases hc
        rfl
  | last _ ih =>
    refine ⟨fun w hw => ?_, fun pre o post e => ?_⟩
    · rcases List.mem_cons.1 hw with h | h
      · cases h
      · exact ih.1 w h
    · cases pre with
      | nil =>
        simp only [List.nil_append, List.cons.injEq, SamplerEvent.last.injEq] at e
        exact e.1.symm
      | cons a pre =>
        simp only [List.cons_append, List.cons.injEq] at e
        obtain ⟨rfl, e⟩ := e
        exact ih.2 pre o post e
  | other _ ih => exact ih

end SimCATS
