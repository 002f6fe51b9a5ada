import Verif.Lemmas.Ladder

/-! Sampled families of transitions: order and position. -/

namespace SimCATS

open Spec

variable {p : TctParams} {v : ℝ × ℝ}

/-- The centre anchor of a sampled transition. -/
noncomputable def midAnchor (p : TctParams) : ℝ × ℝ := ((p.x0 + p.x2) / 2, p.y0 + p.gradL * ((p.x2 - p.x0) / 2))

/-- The factor of a rotation by 45 degrees. -/
noncomputable abbrev kap : ℝ := Real.sqrt 2 / 2

theorem kap_bounds : 0.7071 ≤ kap ∧ kap ≤ 0.70711 := by
  have h1 : (1.4142 : ℝ) ≤ Real.sqrt 2 := Real.le_sqrt_of_sq_le (by norm_num)
  have h2 : Real.sqrt 2 ≤ 1.41422 := (Real.sqrt_le_left (by norm_num)).2 (by norm_num)
  unfold kap
  constructor <;> linarith

theorem kap_sq : kap * kap = 1 / 2 := by
  unfold kap
  have : Real.sqrt 2 * Real.sqrt 2 = 2 := Real.mul_self_sqrt (by norm_num)
  linarith

theorem rotate_neg (P : ℝ × ℝ) : rotatePoint (-Real.pi / 4) P = (kap * P.1 + kap * P.2, kap * P.2 - kap * P.1) := by
  unfold rotatePoint
  rw [show -Real.pi / 4 = -(Real.pi / 4) by ring, Real.cos_neg, Real.sin_neg, Real.cos_pi_div_four, Real.sin_pi_div_four]
  simp only [Prod.mk.injEq]
  constructor <;> ring

theorem rotate_pos (P : ℝ × ℝ) : rotatePoint (Real.pi / 4) P = (kap * P.1 - kap * P.2, kap * P.1 + kap * P.2) := by
  unfold rotatePoint
  rw [Real.cos_pi_div_four, Real.sin_pi_div_four]
  simp only [Prod.mk.injEq, and_true]
  ring

theorem Spec.SampledFirst.width_le (h : SampledFirst p v) : p.x2 - p.x0 ≤ 0.00814 := by
  refine le_trans ?_ h.width.2
  unfold Spec.dist
  apply Real.le_sqrt_of_sq_le
  simp only
  nlinarith [sq_nonneg (p.y0 - p.y2)]

theorem Spec.SampledFirst.center (h : SampledFirst p v) : CenterOk p (midAnchor p) := by
  have h1 := h.chord.1
  have h2 := h.chord.2
  have h3 := h.width_le
  have h4 := h.lenL.1
  have h5 := h.lenR.1
  norm_num at h3 h4 h5
  constructor <;> simp only [midAnchor]
  · linarith
  · linarith
  · linarith
  · linarith
  · ring
  · linear_combination h2

theorem Spec.SampledFirst.grad (h : SampledFirst p v) : p.gradR < p.gradL := by
  have h1 := h.slopeL.1
  have h2 := h.slopeR.2
  norm_num at h1 h2; linarith

theorem Spec.SampledFirst.per (h : SampledFirst p v) : 0 < p.lenL + p.lenR := by
  have h1 := h.lenL.1
  have h2 := h.lenR.1
  norm_num at h1 h2; linarith

theorem Spec.SampledFirst.origin (h : SampledFirst p v) : p.x0 = 0 ∧ kap * p.y0 = -0.14 := by
  have := h.start
  rw [rotate_neg, Prod.mk.injEq] at this
  simp only at this
  have hk := kap_bounds.1
  have h0 : kap * p.x0 = 0 := by linarith [this.1, this.2]
  refine ⟨?_, by linarith [this.1]⟩
  rcases mul_eq_zero.1 h0 with h | h
  · rw [h] at hk; norm_num at hk
  · exact h

theorem Spec.SampledFirst.y0_bounds (h : SampledFirst p v) : -0.198 ≤ p.y0 ∧ p.y0 ≤ -0.1979 := by
  obtain ⟨-, h0⟩ := h.origin
  obtain ⟨h1, h2⟩ := kap_bounds
  norm_num at h1 h2 h0 ⊢
  constructor <;> nlinarith

theorem Spec.SampledFirst.interdot_bounds (h : SampledFirst p v) :
    -(interdot p v).2 ≤ (interdot p v).1 ∧ (interdot p v).1 ≤ (interdot p v).2 ∧ 0.001845 ≤ (interdot p v).2 ∧
      (interdot p v).2 ≤ 0.00987 := by
  have hk : 0 < kap := by have := kap_bounds.1; norm_num at this; linarith
  obtain ⟨u1, u2⟩ := h.upwards
  obtain ⟨l1, l2⟩ := h.length
  rw [rotate_neg] at u1 u2
  simp only at u1 u2
  generalize interdot p v = i at *
  have a1 : 0 ≤ i.1 + i.2 := by
    by_contra hn
    nlinarith [mul_pos hk (neg_pos.2 (not_le.1 hn))]
  have a2 : 0 ≤ i.2 - i.1 := by
    by_contra hn
    nlinarith [mul_pos hk (neg_pos.2 (not_le.1 hn))]
  have hs : Spec.dist (0, 0) i ^ 2 = i.1 ^ 2 + i.2 ^ 2 := by
    unfold Spec.dist
    rw [Real.sq_sqrt (by positivity)]; ring
  norm_num at l1 l2
  have hi2 : 0 ≤ i.2 := by linarith
  refine ⟨by linarith, by linarith, ?_, ?_⟩
  · by_contra hn
    rw [not_le] at hn
    norm_num at hn
    nlinarith [mul_nonneg a1 a2]
  · by_contra hn
    rw [not_le] at hn
    norm_num at hn
    nlinarith [sq_nonneg i.1]

/-- The `k`-th transition with exact arcs. -/
noncomputable def ladderCurve (p : TctParams) (v : ℝ × ℝ) (k : ℕ) (x : ℝ) : ℝ :=
  exactCurve (moved p v k) (midAnchor (moved p v k)) k x

theorem moved_eq (p : TctParams) (v : ℝ × ℝ) (k : ℕ) : moved p v k = p.shift (k * v.1, k * v.2) := rfl

theorem midAnchor_moved (p : TctParams) (v : ℝ × ℝ) (k : ℕ) :
    midAnchor (moved p v k) = ((midAnchor p).1 + k * v.1, (midAnchor p).2 + k * v.2) := by
  simp only [midAnchor, moved, Prod.mk.injEq]
  constructor <;> ring

theorem Spec.SampledFirst.center_moved (h : SampledFirst p v) (k : ℕ) : CenterOk (moved p v k) (midAnchor (moved p v k)) := by
  rw [midAnchor_moved, moved_eq]
  exact h.center.shift (k * v.1, k * v.2)

theorem Spec.SampledFirst.tctCenter_moved (h : SampledFirst p v) (k : ℕ) :
    tctCenter (moved p v k) = .ok (midAnchor (moved p v k)) :=
  tctCenter_of (ne_of_lt h.grad) (h.center_moved k)

theorem Spec.SampledFirst.tctOk (h : SampledFirst p v) (k : ℕ) : TctOk (moved p v k) :=
  ⟨⟨_, h.tctCenter_moved k⟩, h.grad, h.per⟩

theorem ladderCurve_eq (h : SampledFirst p v) (k : ℕ) (x : ℝ) :
    ladderCurve p v k x = exactCurve p (midAnchor p) k (x - k * v.1) + k * v.2 := by
  unfold ladderCurve
  rw [midAnchor_moved, moved_eq]
  have := exactCurve_shift h.center h.grad h.per k (k * v.1, k * v.2) (x - k * v.1)
  simp only [sub_add_cancel] at this
  exact this

theorem ladderCurve_slopes (h : SampledFirst p v) (k : ℕ) : SlopesBetween p.gradR p.gradL (ladderCurve p v k) :=
  exactCurve_slopes (h.center_moved k) (p := moved p v k) h.grad h.per k

/-- Both slopes are less than 0.54688. -/
theorem ladderCurve_lipschitz (h : SampledFirst p v) (k : ℕ) (x y : ℝ) :
    |ladderCurve p v k y - ladderCurve p v k x| ≤ 0.54688 * |y - x| := by
  have key : ∀ a b : ℝ, a ≤ b → |ladderCurve p v k b - ladderCurve p v k a| ≤ 0.54688 * (b - a) := by
    intro a b hab
    have h1 := (ladderCurve_slopes h k).le hab
    have h2 := (ladderCurve_slopes h k).ge hab
    have h3 := h.slopeL.2
    have h4 := h.slopeR.1
    have hd : 0 ≤ b - a := sub_nonneg.2 hab
    norm_num at h3 h4 ⊢
    rw [abs_le]
    constructor
    · nlinarith
    · nlinarith
  rcases le_total x y with hxy | hxy
  · rw [abs_of_nonneg (sub_nonneg.2 hxy)]; exact key x y hxy
  · rw [abs_sub_comm, abs_sub_comm y, abs_of_nonneg (sub_nonneg.2 hxy)]; exact key y x hxy

/-- Successive transitions have a vertical distance of at least one millivolt. -/
theorem ladderCurve_succ (h : SampledFirst p v) (k : ℕ) (x : ℝ) :
    ladderCurve p v k x + 0.001033 ≤ ladderCurve p v (k + 1) x := by
  rw [ladderCurve_eq h, ladderCurve_eq h]
  push_cast
  obtain ⟨i1, i2, i3, i4⟩ := h.interdot_bounds
  have hl := h.lenR.1
  have e1 : v.1 = (interdot p v).1 - p.lenR := by simp [interdot]
  have e2 : v.2 = (interdot p v).2 - p.lenR * p.gradR := by simp [interdot]
  generalize interdot p v = i at *
  have hv : v.1 ≤ 0 := by norm_num at hl i4; linarith
  have h1 := exactCurve_succ_ge h.center h.grad h.per k (x - (k + 1) * v.1)
  have h2 := (exactCurve_slopes h.center h.grad h.per k).le (x := x - k * v.1) (y := x - (k + 1) * v.1) (by linarith)
  have h3 : p.gradR * (x - (k + 1) * v.1 - (x - k * v.1)) = p.gradR * p.lenR - p.gradR * i.1 := by rw [e1]; ring
  rw [h3] at h2
  have h4 := h.slopeR
  norm_num at h4 i3 ⊢
  have h5 : -(0.44 * i.2) ≤ -(p.gradR * i.1) := by
    rcases le_total 0 i.1 with hi | hi <;> norm_num <;> nlinarith
  norm_num at h5
  nlinarith

theorem ladderCurve_mono (h : SampledFirst p v) (k m : ℕ) (x : ℝ) :
    ladderCurve p v k x + m * 0.001033 ≤ ladderCurve p v (k + m) x := by
  induction m with
  | zero => simp
  | succ m ih =>
    have := ladderCurve_succ h (k + m) x
    push_cast
    rw [← add_assoc]
    linarith

theorem ladderCurve_zero (h : SampledFirst p v) : ladderCurve p v 0 0 = p.y0 := by
  rw [ladderCurve_eq h]
  simp only [Nat.cast_zero, zero_mul, sub_zero, add_zero]
  rw [exactCurve_eq h.center h.grad h.per, h.origin.1, if_pos le_rfl]
  ring

theorem ladderCurve_ge (h : SampledFirst p v) (k : ℕ) (x : ℝ) :
    -0.198 - 0.54688 * |x| + k * 0.001033 ≤ ladderCurve p v k x := by
  have h1 := ladderCurve_mono h 0 k x
  have h2 := ladderCurve_lipschitz h 0 0 x
  rw [ladderCurve_zero h, sub_zero, abs_le] at h2
  have h3 := h.y0_bounds.1
  rw [zero_add] at h1
  linarith [h2.1]

/-- A lookup table with 1000 entries changes a transition by less than 3 microvolt. -/
theorem ladder_lut (h : SampledFirst p v) (k : ℕ) {x y : ℝ} (hy : tctBezierAt (moved p v k) (some 1000) (some (k + 1)) x = .ok y) :
    |y - ladderCurve p v k x| ≤ 0.000003 := by
  have hz : tctBezierAt (moved p v k) none (some (k + 1)) x = .ok (ladderCurve p v k x) :=
    tctBezierAt_eq (h.tctCenter_moved k) none _ x
  refine (C10_lut_error _ _ _ (h.tctCenter_moved k) h.grad h.per 1000 (by norm_num) x y _ hy hz).trans ?_
  have h1 := h.width_le
  have h2 := h.chord.1
  have a1 : |(moved p v k).gradL| ≤ 0.6 := by
    have := h.slopeL
    rw [abs_le]
    simp only [moved]
    norm_num at this ⊢
    constructor <;> linarith
  have a2 : |(moved p v k).gradR| ≤ 0.6 := by
    have := h.slopeR
    rw [abs_le]
    simp only [moved]
    norm_num at this ⊢
    constructor <;> linarith
  have a3 : (midAnchor (moved p v k)).1 - (moved p v k).x0 = (p.x2 - p.x0) / 2 := by simp only [midAnchor, moved]; ring
  have a4 : (moved p v k).x2 - (midAnchor (moved p v k)).1 = (p.x2 - p.x0) / 2 := by simp only [midAnchor, moved]; ring
  rw [a3, a4, max_self]
  have b1 := max_le a1 a2
  have b2 : (p.x2 - p.x0) / 2 / (((1000 : ℕ) : ℝ) - 1) ≤ 0.0000041 := by
    norm_num at h1 ⊢
    linarith
  have b3 : 0 ≤ (p.x2 - p.x0) / 2 / (((1000 : ℕ) : ℝ) - 1) := by
    apply div_nonneg <;> norm_num; linarith
  calc _ ≤ (0.6 : ℝ) * 0.0000041 := mul_le_mul b1 b2 b3 (by norm_num)
    _ ≤ _ := by norm_num

end SimCATS
