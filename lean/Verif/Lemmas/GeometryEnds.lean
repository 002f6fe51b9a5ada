import Verif.Lemmas.SensorRoom
import Verif.Lemmas.SamplerEnds

/-! The loops of the geometry sampler end for fair generators. -/

namespace SimCATS

open Spec

variable {τ α : Type}

theorem while_ends {draw : M τ α} {body : Proc τ α} (hb : ∀ s v s', draw s = (.ok v, s') → body s (.ok v, s')) {good : α → Prop}
    {A : Set α} (hA : ∀ v ∈ A, good v) {s : τ} (h : Reaches draw A s) (a : α) :
    ∃ r, Proc.While good (fun _ => body) a s r := by
  induction h generalizing a with
  | now e hv =>
    by_cases ha : good a
    · exact ⟨_, .stop ha⟩
    · exact ⟨_, .again ha (hb _ _ _ e) (.stop (hA _ hv))⟩
  | @later s v s' e _ ih =>
    by_cases ha : good a
    · exact ⟨_, .stop ha⟩
    · obtain ⟨r, hr⟩ := ih v
      exact ⟨r, .again ha (hb _ _ _ e) hr⟩

theorem until_ends {draw : M τ α} {body : Proc τ α} (hb : ∀ s v s', draw s = (.ok v, s') → body s (.ok v, s')) {good : α → Prop}
    {A : Set α} (hA : ∀ v ∈ A, good v) (h : ∀ s, Reaches draw A s) : (Proc.until good body).Ends := by
  intro s
  cases h s with
  | now e hv => exact ⟨_, Or.inl ⟨_, _, hb _ _ _ e, .stop (hA _ hv)⟩⟩
  | later e h' =>
    obtain ⟨r, hr⟩ := while_ends hb hA h' _
    exact ⟨r, Or.inl ⟨_, _, hb _ _ _ e, hr⟩⟩

theorem pair_call (rng : CfgRng τ) (a b a' b' : ℝ) (s : τ) (v : ℝ × ℝ) (s' : τ)
    (h : (do let x ← rng.uniform a b; let y ← rng.uniform a' b'; pure (x, y) : M τ (ℝ × ℝ)) s = (.ok v, s')) :
    (do
      let x ← Proc.call (rng.uniform a b)
      let y ← Proc.call (rng.uniform a' b')
      pure (x, y) : Proc τ (ℝ × ℝ)) s (.ok v, s') := by
  obtain ⟨x, t, e1, h⟩ := M.bind_ok.1 h
  obtain ⟨y, u, e2, h⟩ := M.bind_ok.1 h
  exact Or.inl ⟨x, t, e1, Or.inl ⟨y, u, e2, h.symm⟩⟩

theorem sampleSlopes_ends {rng : CfgRng τ} (hf : FairRng rng) : (sampleSlopes rng).Ends := by
  refine until_ends (A := Set.Ioo 0.53 0.54 ×ˢ Set.Ioo (-0.4) (-0.3)) (pair_call rng _ _ _ _) ?_
    fun s => hf.pair _ _ _ _ _ _ _ _ s (by norm_num) (by norm_num) (by norm_num) (by norm_num) (by norm_num) (by norm_num)
  rintro ⟨a, b⟩ ⟨⟨a1, a2⟩, ⟨b1, b2⟩⟩
  simp only at a1 a2 b1 b2
  norm_num at a1 a2 b1 b2
  rw [leadAngle_eq (by linarith) (by linarith), sub_eq_add_neg, ← Real.arctan_neg]
  have l1 : (0.413 : ℝ) ≤ Real.arctan a := by
    refine le_trans ?_ ((le_arctan (x := 0.53) (by norm_num)).trans (Real.arctan_mono (by norm_num; linarith)))
    norm_num
  have l2 : (0.27 : ℝ) ≤ Real.arctan (-b) := by
    refine le_trans ?_ ((le_arctan (x := 0.3) (by norm_num)).trans (Real.arctan_mono (by norm_num; linarith)))
    norm_num
  have u1 := arctan_le (x := a) (by linarith)
  have u2 := arctan_le (x := -b) (by linarith)
  rw [Real.arctan_neg] at u2
  norm_num at l1 l2 ⊢
  constructor <;> linarith

theorem sampleInterdotSize_ends {rng : CfgRng τ} (hv : rng.Valid) (hf : FairRng rng) : (sampleInterdotSize rng).Ends := by
  unfold sampleInterdotSize
  refine (Proc.ends_until (Proc.ends_call _) (ensures_uniform hv (by norm_num)) ?_).bind
    (Proc.ensures_until (ensures_uniform hv (by norm_num))) fun l _ => ?_
  · rintro a ⟨a1, a2⟩ (h | h)
    · exact absurd a1 (not_le.2 h)
    · exact absurd a2 (not_le.2 h)
  · refine (Proc.ends_call _).bind (ensures_uniform hv (by norm_num)) fun w _ => ?_
    intro s
    refine while_ends (A := Set.Ioo 0.005 0.006 ×ˢ Set.Ioo 0.002 0.003) (pair_call rng _ _ _ _) ?_
      (hf.pair _ _ _ _ _ _ _ _ s (by norm_num) (by norm_num) (by norm_num) (by norm_num) (by norm_num) (by norm_num)) _
    rintro ⟨a, b⟩ ⟨⟨a1, a2⟩, ⟨b1, b2⟩⟩
    simp only at a1 a2 b1 b2
    norm_num at a1 a2 b1 b2
    have hb : 0 < b := by linarith
    simp only
    rw [le_div_iff₀ hb, div_le_iff₀ hb]
    norm_num
    constructor <;> linarith

end SimCATS
