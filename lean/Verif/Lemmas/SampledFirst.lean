import Verif.Model.GeometrySampler
import Verif.Lemmas.Proc
import Verif.Spec.SampledGeometry
import Verif.Lemmas.Anchors
import Mathlib.Analysis.Real.Pi.Bounds

/-! The draws of `sample_IdealCSDGeometric` satisfy the documented ranges. -/

namespace SimCATS

open Spec

theorem dist_zero (u : ℝ × ℝ) : Spec.dist (0, 0) u = norm2 u := by
  unfold Spec.dist norm2
  congr 1
  ring

theorem norm2_one_pos (m : ℝ) : 0 < norm2 (1, m) := Real.sqrt_pos.2 (by positivity)

theorem norm2_one_sq (m : ℝ) : norm2 (1, m) ^ 2 = 1 + m ^ 2 := by
  unfold norm2
  rw [Real.sq_sqrt (by positivity)]
  ring

theorem cos_arctan' (m : ℝ) : Real.cos (Real.arctan m) = 1 / norm2 (1, m) := by
  rw [Real.cos_arctan]; unfold norm2; norm_num

theorem sin_arctan' (m : ℝ) : Real.sin (Real.arctan m) = m / norm2 (1, m) := by
  rw [Real.sin_arctan]; unfold norm2; norm_num

theorem norm2_nonneg (u : ℝ × ℝ) : 0 ≤ norm2 u := Real.sqrt_nonneg _

theorem norm2_rotate (t : ℝ) (u : ℝ × ℝ) : norm2 (rotatePoint t u) = norm2 u := by
  unfold norm2 rotatePoint
  congr 1
  simp only
  linear_combination (u.1 ^ 2 + u.2 ^ 2) * Real.sin_sq_add_cos_sq t

theorem norm2_smul {k : ℝ} (hk : 0 ≤ k) (u : ℝ × ℝ) : norm2 (k * u.1, k * u.2) = k * norm2 u := by
  unfold norm2
  simp only
  rw [show (k * u.1) ^ 2 + (k * u.2) ^ 2 = k ^ 2 * (u.1 ^ 2 + u.2 ^ 2) by ring, Real.sqrt_mul (by positivity),
    Real.sqrt_sq hk]

/-- The rotated slope direction. -/
theorem rotate_slope (t m : ℝ) : rotatePoint t (1, m) =
    (norm2 (1, m) * Real.cos (Real.arctan m + t), norm2 (1, m) * Real.sin (Real.arctan m + t)) := by
  have h := (norm2_one_pos m).ne'
  rw [Real.cos_add, Real.sin_add, cos_arctan', sin_arctan']
  unfold rotatePoint
  simp only [Prod.mk.injEq]
  constructor <;> field_simp <;> ring

theorem leadAngle_eq {a b : ℝ} (ha : 0 < a) (hb : b < 0) : leadAngle (a, b) = Real.arctan a - Real.arctan b := by
  have h1 := Real.arctan_pos.2 ha
  have h2 := Real.arctan_neg b ▸ Real.arctan_pos.2 (neg_pos.2 hb)
  have h3 := Real.arctan_lt_pi_div_two a
  have h4 := Real.neg_pi_div_two_lt_arctan b
  have e : (1 * 1 + a * b) / (norm2 (1, a) * norm2 (1, b)) = Real.cos (Real.arctan a - Real.arctan b) := by
    rw [Real.cos_sub, cos_arctan', cos_arctan', sin_arctan', sin_arctan']
    have := (norm2_one_pos a).ne'
    have := (norm2_one_pos b).ne'
    field_simp
  unfold leadAngle
  simp only
  rw [e, Real.arccos_cos] <;> linarith

theorem sampleSlopes_spec {τ : Type} {rng : CfgRng τ} (hv : rng.Valid) : (sampleSlopes rng).Ensures fun s =>
    (0.21429 ≤ s.1 ∧ s.1 ≤ 0.54688) ∧ (-0.44 ≤ s.2 ∧ s.2 ≤ -0.07692) ∧
    0.43760867228 ≤ Real.arctan s.1 - Real.arctan s.2 ∧ Real.arctan s.1 - Real.arctan s.2 ≤ 1.6789624091 := by
  have hb : Proc.Ensures (do
      let a ← Proc.call (rng.uniform 0.21429 0.54688)
      let b ← Proc.call (rng.uniform (-0.44) (-0.07692))
      pure (a, b)) fun s : ℝ × ℝ => (0.21429 ≤ s.1 ∧ s.1 ≤ 0.54688) ∧ (-0.44 ≤ s.2 ∧ s.2 ≤ -0.07692) :=
    (ensures_uniform hv (by norm_num)).bind fun a ha => (ensures_uniform hv (by norm_num)).bind fun b hb =>
      Proc.ensures_pure ⟨ha, hb⟩
  refine (Proc.ensures_until hb).mono ?_
  rintro ⟨a, b⟩ ⟨⟨h1, h2⟩, h3⟩
  simp only at *
  rw [leadAngle_eq (by norm_num at h1; linarith) (by norm_num at h2; linarith)] at h3
  exact ⟨h1, h2, h3⟩

theorem sampleInterdotDir_spec {τ : Type} {rng : CfgRng τ} (hv : rng.Valid) (m : ℝ) :
    (sampleInterdotDir rng m).Ensures fun d => (∃ t, 0.58153916891 ≤ t ∧ t ≤ 1.396938844 ∧
      d = (Real.cos (Real.arctan m + t), Real.sin (Real.arctan m + t))) ∧
      0 ≤ (rotatePoint (-Real.pi / 4) d).1 ∧ 0 ≤ (rotatePoint (-Real.pi / 4) d).2 := by
  have hb : Proc.Ensures (do
      let t ← Proc.call (rng.uniform 0.58153916891 1.396938844)
      pure (rotatePoint t (1, m))) fun v : ℝ × ℝ => ∃ t, 0.58153916891 ≤ t ∧ t ≤ 1.396938844 ∧ v = rotatePoint t (1, m) :=
    (ensures_uniform hv (by norm_num)).bind fun t ht => Proc.ensures_pure ⟨t, ht.1, ht.2, rfl⟩
  refine (Proc.ensures_until hb).bind ?_
  rintro v ⟨⟨t, h1, h2, rfl⟩, hg⟩
  apply Proc.ensures_pure
  rw [norm2_rotate]
  have hn := norm2_one_pos m
  push Not at hg
  have e : ((rotatePoint t (1, m)).1 / norm2 (1, m), (rotatePoint t (1, m)).2 / norm2 (1, m)) =
      (Real.cos (Real.arctan m + t), Real.sin (Real.arctan m + t)) := by
    rw [rotate_slope]
    simp only [Prod.mk.injEq]
    constructor <;> field_simp
  refine ⟨⟨t, h1, h2, e⟩, ?_⟩
  have e2 : rotatePoint (-Real.pi / 4) ((rotatePoint t (1, m)).1 / norm2 (1, m), (rotatePoint t (1, m)).2 / norm2 (1, m)) =
      ((rotatePoint (-Real.pi / 4) (rotatePoint t (1, m))).1 / norm2 (1, m),
        (rotatePoint (-Real.pi / 4) (rotatePoint t (1, m))).2 / norm2 (1, m)) := by
    generalize rotatePoint t (1, m) = u
    unfold rotatePoint
    simp only [Prod.mk.injEq]
    constructor <;> ring
  rw [e2]
  exact ⟨div_nonneg hg.1 hn.le, div_nonneg hg.2 hn.le⟩

theorem sampleInterdotSize_spec {τ : Type} {rng : CfgRng τ} (hv : rng.Valid) : (sampleInterdotSize rng).Ensures fun lw =>
    (0.00261 ≤ lw.1 ∧ lw.1 ≤ 0.00987) ∧ (0.00043 ≤ lw.2 ∧ lw.2 ≤ 0.00814) ∧
    0.8692269873603532 ≤ lw.1 / lw.2 ∧ lw.1 / lw.2 ≤ 9.055385138137407 := by
  refine (Proc.ensures_until (ensures_uniform hv (by norm_num))).bind fun l hl =>
    (ensures_uniform hv (by norm_num)).bind fun w hw => ?_
  refine (Proc.ensures_while (Q := fun lw : ℝ × ℝ => (0.00261 ≤ lw.1 ∧ lw.1 ≤ 0.00987) ∧ (0.00043 ≤ lw.2 ∧ lw.2 ≤ 0.00814))
    (fun a _ _ => ?_) ⟨hl.1, hw⟩).mono fun lw h => ⟨h.1.1, h.1.2, h.2⟩
  exact (ensures_uniform hv (by norm_num)).bind fun l hl => (ensures_uniform hv (by norm_num)).bind fun w hw =>
    Proc.ensures_pure ⟨hl, hw⟩

theorem rotate_back' (a : ℝ) (P : ℝ × ℝ) : rotatePoint (-a / 4) (rotatePoint (a / 4) P) = P := by
  rw [show -a / 4 = -(a / 4) by ring, rotate_back]

theorem sampleFirstTct_spec {τ : Type} {rng : CfgRng τ} (hv : rng.Valid) :
    (sampleFirstTct rng).Ensures fun f => SampledFirst f.1 f.2 := by
  refine (sampleSlopes_spec hv).bind ?_
  rintro ⟨a, b⟩ ⟨h1, h2, h3⟩
  refine (ensures_uniform hv (by norm_num)).bind fun l1 hl1 => (ensures_uniform hv (by norm_num)).bind fun l2 hl2 =>
    (sampleInterdotDir_spec hv a).bind ?_
  rintro d ⟨⟨t, ht1, ht2, rfl⟩, hu1, hu2⟩
  refine (sampleInterdotSize_spec hv).bind ?_
  rintro ⟨L, w⟩ ⟨hL, hw, hr⟩
  refine (ensures_uniform hv (by norm_num)).bind fun b1 hb1 => (ensures_uniform hv (by norm_num)).bind fun b2 hb2 =>
    Proc.ensures_pure ?_
  obtain rfl : b1 = -0.14 := le_antisymm hb1.2 hb1.1
  obtain rfl : b2 = -0.14 := le_antisymm hb2.2 hb2.1
  simp only at h1 h2 h3 hL hw hr ⊢
  have hL0 : 0 < L := by norm_num at hL; linarith
  have hw0 : 0 < w := by norm_num at hw; linarith
  set φ := Real.arctan a + t with hφ
  generalize hB : rotatePoint (Real.pi / 4) (-0.14, -0.14) = B
  set m := (a + b) / 2 with hm
  have hn := norm2_one_pos m
  have ei : interdot ⟨l1, l2, a, b, B.1, B.2, B.1 + w * (1 / norm2 (1, m)), B.2 + w * (m / norm2 (1, m))⟩
      (-l2 + Real.cos φ * L, Real.sin φ * L - l2 * b) = (L * Real.cos φ, L * Real.sin φ) := by
    unfold interdot
    simp only [Prod.mk.injEq]
    constructor <;> ring
  have en : norm2 (Real.cos φ, Real.sin φ) = 1 := by
    unfold norm2; simp [Real.cos_sq_add_sin_sq]
  have ed : Spec.dist (0, 0) (L * Real.cos φ, L * Real.sin φ) = L := by
    rw [dist_zero]
    have := norm2_smul hL0.le (Real.cos φ, Real.sin φ)
    simp only at this
    rw [this, en, mul_one]
  have ew : Spec.dist (B.1, B.2) (B.1 + w * (1 / norm2 (1, m)), B.2 + w * (m / norm2 (1, m))) = w := by
    unfold Spec.dist
    simp only
    rw [show (B.1 - (B.1 + w * (1 / norm2 (1, m)))) ^ 2 + (B.2 - (B.2 + w * (m / norm2 (1, m)))) ^ 2 =
      w ^ 2 * ((1 + m ^ 2) / norm2 (1, m) ^ 2) by field_simp; ring, norm2_one_sq, div_self (by positivity), mul_one,
      Real.sqrt_sq hw0.le]
  refine ⟨h1, h2, h3, hl1, hl2, ?_, ⟨?_, ?_⟩, ?_, ?_, ?_, ⟨t, ht1, ht2, ?_⟩, ?_⟩
  · simp only
    rw [← hB]
    exact rotate_back' _ _
  · have : 0 < w * (1 / norm2 (1, m)) := by positivity
    simp only; linarith
  · simp only; rw [← hm]; ring
  · simp only; rw [ew]; exact hw
  · rw [ei, ed]; exact hL
  · simp only
    rw [ei, ed, ew]; exact hr
  · rw [ei, ed]
  · rw [ei]
    have e2 : rotatePoint (-Real.pi / 4) (L * Real.cos φ, L * Real.sin φ) =
      (L * (rotatePoint (-Real.pi / 4) (Real.cos φ, Real.sin φ)).1, L * (rotatePoint (-Real.pi / 4) (Real.cos φ, Real.sin φ)).2) := by
      unfold rotatePoint
      simp only [Prod.mk.injEq]
      constructor <;> ring
    rw [e2]
    exact ⟨mul_nonneg hL0.le hu1, mul_nonneg hL0.le hu2⟩

end SimCATS
