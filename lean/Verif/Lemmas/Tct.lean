import Verif.Model.Tct
import Verif.Spec.Tct
import Mathlib.Topology.Algebra.Order.Floor
import Mathlib.Topology.Order.IntermediateValue
import Mathlib.Topology.Instances.Real.Lemmas
import Mathlib.Topology.Order.Lattice
import Mathlib.Tactic.Linarith
import Mathlib.Tactic.Ring
import Mathlib.Tactic.FieldSimp
import Mathlib.Tactic.LinearCombination

/-! Helper lemmas for `tct_bezier`. -/

namespace SimCATS

/-- What the assertions of `tct_bezier` guarantee, with distances `u`, `v` of the anchors. -/
structure CenterOk (p : TctParams) (c : ℝ × ℝ) : Prop where
  left : p.x0 ≤ c.1
  right : c.1 ≤ p.x2
  lenL : 2 * (c.1 - p.x0) ≤ p.lenL
  lenR : 2 * (p.x2 - c.1) ≤ p.lenR
  yc : c.2 = p.y0 + p.gradL * (c.1 - p.x0)
  y2 : p.y2 = c.2 + p.gradR * (p.x2 - c.1)

theorem tctCenter_ok {p : TctParams} {c : ℝ × ℝ} (h : tctCenter p = .ok c) : CenterOk p c := by
  unfold tctCenter tctCenterRaw at h
  split at h
  · cases h
  · rename_i c' hc
    split_ifs at h with h1 h2
    · cases h
      split_ifs at hc with h3 h4
      · cases hc
        obtain ⟨hx, hy⟩ := h3
        exact ⟨h1.1, h1.2, h2.1, h2.2, by simp, by simp [hx, hy]⟩
      · cases hc
        refine ⟨h1.1, h1.2, h2.1, h2.2, rfl, ?_⟩
        dsimp only
        field_simp
        ring

/-- Conversely, the assertions pass in every such situation (with different slopes, or without interdot part). -/
theorem tctCenter_of {p : TctParams} {c : ℝ × ℝ} (hg : p.gradR ≠ p.gradL) (h : CenterOk p c) : tctCenter p = .ok c := by
  have hg' : p.gradR - p.gradL ≠ 0 := sub_ne_zero.2 hg
  have hraw : tctCenterRaw p = .ok c := by
    unfold tctCenterRaw
    split_ifs with h3
    · obtain ⟨hx, hy⟩ := h3
      have hc : c.1 = p.x0 := le_antisymm (hx ▸ h.right) h.left
      have hc2 : c.2 = p.y0 := by rw [h.yc, hc]; ring
      rw [← hc, ← hc2]
    · have hc : (p.y0 - p.y2 + p.x2 * p.gradR - p.x0 * p.gradL) / (p.gradR - p.gradL) = c.1 := by
        rw [div_eq_iff hg', h.y2, h.yc]; ring
      simp only [hc]
      rw [← h.yc]
  unfold tctCenter
  rw [hraw]
  simp only
  rw [if_neg (not_not.2 ⟨h.left, h.right⟩), if_neg (not_not.2 ⟨h.lenL, h.lenR⟩)]

theorem bezier_fst (P Q R : ℝ × ℝ) (s : ℝ) : (Spec.bezier P Q R s).1 = bezCoord P.1 Q.1 R.1 s := by
  simp only [Spec.bezier, Spec.between, bezCoord]; ring

theorem bezier_snd (P Q R : ℝ × ℝ) (s : ℝ) : (Spec.bezier P Q R s).2 = bezCoord P.2 Q.2 R.2 s := by
  simp only [Spec.bezier, Spec.between, bezCoord]; ring

variable {p : TctParams} {c : ℝ × ℝ}

/-- The derivative factor of the abscissa is non-negative. -/
theorem bezX_deriv_nonneg (h : CenterOk p c) {s : ℝ} (h0 : 0 ≤ s) (h1 : s ≤ 1) :
    0 ≤ (1 - s) * (c.1 - p.x0) + s * (p.x2 - c.1) := by
  have := mul_nonneg (sub_nonneg.2 h1) (sub_nonneg.2 h.left)
  have := mul_nonneg h0 (sub_nonneg.2 h.right)
  linarith

/-- Discriminant of the implicit equation at a curve point is a square. -/
theorem implicit_disc (h : CenterOk p c) (s : ℝ) :
    (implicitCoeffs p c (bezCoord p.x0 c.1 p.x2 s)).2.1 ^ 2 -
      4 * (implicitCoeffs p c (bezCoord p.x0 c.1 p.x2 s)).2.2 * (implicitCoeffs p c (bezCoord p.x0 c.1 p.x2 s)).1 =
    (2 * (c.1 - p.x0) * (p.x2 - c.1) * (p.gradL - p.gradR) *
      (2 * ((1 - s) * (c.1 - p.x0) + s * (p.x2 - c.1)))) ^ 2 := by
  obtain ⟨-, -, -, -, yc, y2⟩ := h
  simp only [implicitCoeffs, bezCoeffs, bezCoord]
  rw [y2, yc]
  ring

/-- `-B` of the implicit equation at a curve point. -/
theorem implicit_b (h : CenterOk p c) (s : ℝ) :
    -(implicitCoeffs p c (bezCoord p.x0 c.1 p.x2 s)).2.1 +
      2 * (c.1 - p.x0) * (p.x2 - c.1) * (p.gradL - p.gradR) * (2 * ((1 - s) * (c.1 - p.x0) + s * (p.x2 - c.1))) =
    2 * (implicitCoeffs p c (bezCoord p.x0 c.1 p.x2 s)).2.2 * bezCoord p.y0 c.2 p.y2 s := by
  obtain ⟨-, -, -, -, yc, y2⟩ := h
  simp only [implicitCoeffs, bezCoeffs, bezCoord]
  rw [y2, yc]
  ring

/-- The curve point satisfies the implicit equation. -/
theorem implicit_root (h : CenterOk p c) (s : ℝ) :
    (implicitCoeffs p c (bezCoord p.x0 c.1 p.x2 s)).1 +
      (implicitCoeffs p c (bezCoord p.x0 c.1 p.x2 s)).2.1 * bezCoord p.y0 c.2 p.y2 s +
      (implicitCoeffs p c (bezCoord p.x0 c.1 p.x2 s)).2.2 * bezCoord p.y0 c.2 p.y2 s ^ 2 = 0 := by
  obtain ⟨-, -, -, -, yc, y2⟩ := h
  simp only [implicitCoeffs, bezCoeffs, bezCoord]
  rw [y2, yc]
  ring

theorem implicit_lead (x : ℝ) : (implicitCoeffs p c x).2.2 = (p.x0 - 2 * c.1 + p.x2) ^ 2 := rfl

theorem explicitRoot_curve (h : CenterOk p c) (hg : p.gradR < p.gradL) (hbl : p.x0 < p.x2) {s : ℝ} (h0 : 0 ≤ s)
    (h1 : s ≤ 1) : explicitRoot p c (bezCoord p.x0 c.1 p.x2 s) = bezCoord p.y0 c.2 p.y2 s := by
  have hx' := bezX_deriv_nonneg h h0 h1
  have hd := implicit_disc h s
  have hb := implicit_b h s
  have hr := implicit_root h s
  have hl := implicit_lead (p := p) (c := c) (bezCoord p.x0 c.1 p.x2 s)
  have hB : (implicitCoeffs p c (bezCoord p.x0 c.1 p.x2 s)).2.2 = 0 →
      (implicitCoeffs p c (bezCoord p.x0 c.1 p.x2 s)).2.1 ≠ 0 := by
    intro hz
    rw [hl] at hz
    have ha : p.x0 - 2 * c.1 + p.x2 = 0 := pow_eq_zero_iff two_ne_zero |>.1 hz
    have hu : 0 < c.1 - p.x0 := by linarith
    have hv : p.x2 - c.1 = c.1 - p.x0 := by linarith
    simp only [implicitCoeffs, bezCoeffs]
    rw [ha]
    have : p.y0 - 2 * c.2 + p.y2 = (c.1 - p.x0) * (p.gradR - p.gradL) := by
      rw [h.y2, hv, h.yc]; ring
    rw [this]
    have h3 : (c.1 - p.x0) * (p.gradR - p.gradL) ≠ 0 := mul_ne_zero hu.ne' (by linarith)
    have h4 : (2 * (c.1 - p.x0)) ≠ 0 := by linarith
    have e : -(2 * 0 * (0 * p.y0 - (c.1 - p.x0) * (p.gradR - p.gradL) * (p.x0 - bezCoord p.x0 c.1 p.x2 s))) +
        (0 * (2 * (c.2 - p.y0)) - (c.1 - p.x0) * (p.gradR - p.gradL) * (2 * (c.1 - p.x0))) * (2 * (c.1 - p.x0)) =
        -((c.1 - p.x0) * (p.gradR - p.gradL) * (2 * (c.1 - p.x0)) * (2 * (c.1 - p.x0))) := by ring
    rw [e]
    exact neg_ne_zero.2 (mul_ne_zero (mul_ne_zero h3 h4) h4)
  unfold explicitRoot
  simp only
  rw [hd]
  generalize implicitCoeffs p c (bezCoord p.x0 c.1 p.x2 s) = f at *
  have hK : 0 ≤ 2 * (c.1 - p.x0) * (p.x2 - c.1) * (p.gradL - p.gradR) *
      (2 * ((1 - s) * (c.1 - p.x0) + s * (p.x2 - c.1))) := by
    have h2 := sub_nonneg.2 h.left
    have h3 := sub_nonneg.2 h.right
    have h4 := sub_nonneg.2 hg.le
    positivity
  rw [Real.sqrt_sq hK]
  generalize 2 * (c.1 - p.x0) * (p.x2 - c.1) * (p.gradL - p.gradR) *
      (2 * ((1 - s) * (c.1 - p.x0) + s * (p.x2 - c.1))) = K at *
  split_ifs with hz
  · have := hB hz
    rw [hz] at hr
    field_simp
    linarith
  · have hpos : 0 < f.2.2 := by
      rw [hl]; rw [hl] at hz
      exact lt_of_le_of_ne (sq_nonneg _) (Ne.symm hz)
    rw [max_eq_left]
    · rw [hb]; field_simp
    · apply div_le_div_of_nonneg_right _ (by positivity)
      linarith

/-- Every abscissa of the segment is met by the curve. -/
theorem bezX_surj {x : ℝ} (hx0 : p.x0 ≤ x) (hx2 : x ≤ p.x2) :
    ∃ s, 0 ≤ s ∧ s ≤ 1 ∧ bezCoord p.x0 c.1 p.x2 s = x := by
  have hc : ContinuousOn (bezCoord p.x0 c.1 p.x2) (Set.Icc 0 1) := by
    unfold bezCoord; fun_prop
  have := intermediate_value_Icc (zero_le_one (α := ℝ)) hc
  have e0 : bezCoord p.x0 c.1 p.x2 0 = p.x0 := by simp [bezCoord]
  have e1 : bezCoord p.x0 c.1 p.x2 1 = p.x2 := by simp [bezCoord]
  rw [e0, e1] at this
  obtain ⟨s, hs, e⟩ := this ⟨hx0, hx2⟩
  exact ⟨s, hs.1, hs.2, e⟩

theorem explicitRoot_continuous : Continuous (explicitRoot p c) := by
  have hlead : ∀ x, (implicitCoeffs p c x).2.2 = (p.x0 - 2 * c.1 + p.x2) ^ 2 := implicit_lead
  have h1 : Continuous fun x => (implicitCoeffs p c x).1 := by
    unfold implicitCoeffs bezCoeffs; simp only; fun_prop
  have h2 : Continuous fun x => (implicitCoeffs p c x).2.1 := by
    unfold implicitCoeffs bezCoeffs; simp only; fun_prop
  have hB : (p.x0 - 2 * c.1 + p.x2) ^ 2 = 0 → ∀ x y, (implicitCoeffs p c x).2.1 = (implicitCoeffs p c y).2.1 := by
    intro hz x y
    have ha : p.x0 - 2 * c.1 + p.x2 = 0 := pow_eq_zero_iff two_ne_zero |>.1 hz
    simp only [implicitCoeffs, bezCoeffs]
    rw [ha]; ring
  by_cases hz : (p.x0 - 2 * c.1 + p.x2) ^ 2 = 0
  · have : explicitRoot p c = fun x => -(implicitCoeffs p c x).1 / (implicitCoeffs p c 0).2.1 := by
      funext x
      unfold explicitRoot
      simp only
      rw [if_pos (by rw [hlead, hz]), hB hz x 0]
    rw [this]
    exact h1.neg.div_const _
  · have : explicitRoot p c = fun x =>
      max ((-(implicitCoeffs p c x).2.1 + Real.sqrt ((implicitCoeffs p c x).2.1 ^ 2 -
        4 * (p.x0 - 2 * c.1 + p.x2) ^ 2 * (implicitCoeffs p c x).1)) / (2 * (p.x0 - 2 * c.1 + p.x2) ^ 2))
        ((-(implicitCoeffs p c x).2.1 - Real.sqrt ((implicitCoeffs p c x).2.1 ^ 2 -
        4 * (p.x0 - 2 * c.1 + p.x2) ^ 2 * (implicitCoeffs p c x).1)) / (2 * (p.x0 - 2 * c.1 + p.x2) ^ 2)) := by
      funext x
      unfold explicitRoot
      simp only
      rw [if_neg (by rw [hlead]; exact hz), hlead]
    rw [this]
    fun_prop

theorem explicitRoot_left (h : CenterOk p c) (hg : p.gradR < p.gradL) (hbl : p.x0 < p.x2) :
    explicitRoot p c p.x0 = p.y0 := by
  have := explicitRoot_curve h hg hbl (s := 0) le_rfl zero_le_one
  simpa [bezCoord] using this

theorem explicitRoot_right (h : CenterOk p c) (hg : p.gradR < p.gradL) (hbl : p.x0 < p.x2) :
    explicitRoot p c p.x2 = p.y2 := by
  have := explicitRoot_curve h hg hbl (s := 1) zero_le_one le_rfl
  simpa [bezCoord] using this

/-- The offset per period is the documented one. -/
theorem yOffPeriod_eq (h : CenterOk p c) : -yOffPeriod p c = p.lenL * p.gradL + p.lenR * p.gradR := by
  unfold yOffPeriod yOffInv
  rw [h.y2, h.yc]; ring

/-- The periodic part in one period. -/
noncomputable def waveCell (p : TctParams) (c : ℝ × ℝ) (bez : ℝ → ℝ) (xm : ℝ) : ℝ :=
  let bl := p.x2 - p.x0
  let rl := p.lenR - 2 * (p.x2 - c.1)
  if xm < bl then bez (xm + p.x0)
  else if xm < bl + rl then p.y2 + (xm - bl) * p.gradR
  else if xm < bl * 2 + rl then -1 * bez (2 * bl + rl - xm + p.x0) + yOffInv p c
  else (yOffInv p c - p.y0) + (xm - (bl * 2 + rl)) * p.gradL

theorem waveValue_eq (bez : ℝ → ℝ) (x : ℝ) :
    waveValue p c bez x = waveCell p c bez ((p.lenL + p.lenR) * Int.fract ((x - p.x0) / (p.lenL + p.lenR)))
      - yOffPeriod p c * (⌊(x - p.x0) / (p.lenL + p.lenR)⌋ : ℤ) ∨ p.lenL + p.lenR = 0 := by
  by_cases hz : p.lenL + p.lenR = 0
  · right; exact hz
  · left
    unfold waveValue waveCell
    have e : x - p.x0 - (p.lenL + p.lenR) * (⌊(x - p.x0) / (p.lenL + p.lenR)⌋ : ℤ) =
        (p.lenL + p.lenR) * Int.fract ((x - p.x0) / (p.lenL + p.lenR)) := by
      rw [Int.fract, mul_sub, mul_div_cancel₀ _ hz]
    simp only [e]

/-- The cell as a sum of continuous clamped pieces. -/
theorem waveCell_eq_sum (h : CenterOk p c) {bez : ℝ → ℝ} (hb0 : p.x0 < p.x2 → bez p.x0 = p.y0)
    (hb2 : p.x0 < p.x2 → bez p.x2 = p.y2) {t : ℝ} (ht : 0 ≤ t) :
    waveCell p c bez t =
      (if p.x0 < p.x2 then bez (min t (p.x2 - p.x0) + p.x0) +
        (p.y2 - bez (p.x2 - max 0 (min (t - (p.x2 - p.x0) - (p.lenR - 2 * (p.x2 - c.1))) (p.x2 - p.x0)))) else p.y0) +
      p.gradR * max 0 (min (t - (p.x2 - p.x0)) (p.lenR - 2 * (p.x2 - c.1))) +
      p.gradL * max 0 (t - ((p.x2 - p.x0) * 2 + (p.lenR - 2 * (p.x2 - c.1)))) := by
  have hrl : 0 ≤ p.lenR - 2 * (p.x2 - c.1) := by linarith [h.lenR]
  have hinv : yOffInv p c = 2 * p.y2 + (p.lenR - 2 * (p.x2 - c.1)) * p.gradR := by unfold yOffInv; ring
  have hy : p.x0 = p.x2 → p.y2 = p.y0 := by
    intro e
    have hc : c.1 = p.x0 := le_antisymm (e ▸ h.right) h.left
    rw [h.y2, h.yc, hc, e]; ring
  unfold waveCell
  simp only
  rw [hinv]
  generalize p.lenR - 2 * (p.x2 - c.1) = rl at *
  have hble : 0 ≤ p.x2 - p.x0 := by linarith [h.left, h.right]
  by_cases hlt : p.x0 < p.x2
  · rw [if_pos hlt]
    have b0 := hb0 hlt
    have b2 := hb2 hlt
    have e2 : p.x2 - p.x0 + p.x0 = p.x2 := by ring
    split_ifs with h1 h2 h3
    · rw [min_eq_left h1.le, min_eq_left (by linarith), max_eq_left (by linarith), min_eq_left (by linarith),
        max_eq_left (by linarith), max_eq_left (by linarith), sub_zero, b2]; ring
    · rw [min_eq_right (by linarith), e2, min_eq_left (by linarith), max_eq_left (by linarith),
        min_eq_left (by linarith), max_eq_right (by linarith), max_eq_left (by linarith), sub_zero, b2]; ring
    · rw [min_eq_right (by linarith), e2, min_eq_left (by linarith), max_eq_right (by linarith),
        min_eq_right (by linarith), max_eq_right (by linarith), max_eq_left (by linarith), b2]
      rw [show 2 * (p.x2 - p.x0) + rl - t + p.x0 = p.x2 - (t - (p.x2 - p.x0) - rl) by ring]; ring
    · rw [min_eq_right (by linarith), e2, min_eq_right (by linarith), max_eq_right (by linarith),
        min_eq_right (by linarith), max_eq_right (by linarith), max_eq_right (by linarith), b2]
      rw [show p.x2 - (p.x2 - p.x0) = p.x0 by ring, b0]; ring
  · have hx : p.x0 = p.x2 := by linarith
    have hy' := hy hx
    rw [if_neg hlt]
    have hz : p.x2 - p.x0 = 0 := by linarith
    rw [hz]
    rw [if_neg (by linarith)]
    split_ifs with h2 h3
    · rw [min_eq_left (by linarith), max_eq_right (by linarith), max_eq_left (by linarith), hy']; ring
    · linarith
    · rw [min_eq_right (by linarith), max_eq_right (by linarith), max_eq_right (by linarith), hy']; ring

/-- Values of one period: the end of a period is the start of the next one. -/
theorem waveCell_end (h : CenterOk p c) (hper : 0 < p.lenL + p.lenR) {bez : ℝ → ℝ}
    (hb0 : p.x0 < p.x2 → bez p.x0 = p.y0) (hb2 : p.x0 < p.x2 → bez p.x2 = p.y2) :
    waveCell p c bez (p.lenL + p.lenR) + yOffPeriod p c = waveCell p c bez 0 := by
  set T := p.lenL + p.lenR with hT
  have hble : 0 ≤ p.x2 - p.x0 := by linarith [h.left, h.right]
  have hTbl : (p.x2 - p.x0) * 2 + (p.lenR - 2 * (p.x2 - c.1)) ≤ T := by linarith [h.lenL]
  rw [waveCell_eq_sum h hb0 hb2 hper.le, waveCell_eq_sum h hb0 hb2 le_rfl]
  have hrl : 0 ≤ p.lenR - 2 * (p.x2 - c.1) := by linarith [h.lenR]
  have hp := yOffPeriod_eq h
  rw [min_eq_right (show p.x2 - p.x0 ≤ T by linarith), min_eq_left (show 0 ≤ p.x2 - p.x0 from hble),
    min_eq_right (show p.x2 - p.x0 ≤ T - (p.x2 - p.x0) - (p.lenR - 2 * (p.x2 - c.1)) by linarith),
    max_eq_right hble, min_eq_right (show p.lenR - 2 * (p.x2 - c.1) ≤ T - (p.x2 - p.x0) by linarith),
    max_eq_right hrl, max_eq_right (show 0 ≤ T - ((p.x2 - p.x0) * 2 + (p.lenR - 2 * (p.x2 - c.1))) by linarith),
    min_eq_left (show 0 - (p.x2 - p.x0) - (p.lenR - 2 * (p.x2 - c.1)) ≤ p.x2 - p.x0 by linarith),
    max_eq_left (show 0 - (p.x2 - p.x0) - (p.lenR - 2 * (p.x2 - c.1)) ≤ 0 by linarith),
    min_eq_left (show 0 - (p.x2 - p.x0) ≤ p.lenR - 2 * (p.x2 - c.1) by linarith),
    max_eq_left (show 0 - (p.x2 - p.x0) ≤ 0 by linarith),
    max_eq_left (show 0 - ((p.x2 - p.x0) * 2 + (p.lenR - 2 * (p.x2 - c.1))) ≤ 0 by linarith)]
  have hyy : p.y2 = p.y0 + p.gradL * (c.1 - p.x0) + p.gradR * (p.x2 - c.1) := by rw [h.y2, h.yc]
  by_cases hlt : p.x0 < p.x2
  · simp only [if_pos hlt, sub_zero, zero_add, sub_add_cancel, sub_sub_cancel, hb0 hlt, hb2 hlt]
    rw [hT]; linear_combination 2 * hyy - hp
  · have hx : p.x2 = p.x0 := by linarith [h.left, h.right]
    have hc0 : c.1 = p.x0 := by linarith [h.left, h.right]
    simp only [if_neg hlt]
    rw [hT]
    rw [hx, hc0]
    linear_combination -hp

/-- Continuity of the periodic part for every continuous evaluation of the Bezier arc with the right end points. -/
theorem waveValue_continuous (h : CenterOk p c) (hper : 0 < p.lenL + p.lenR) {bez : ℝ → ℝ}
    (hc : ContinuousOn bez (Set.Icc p.x0 p.x2))
    (hb0 : p.x0 < p.x2 → bez p.x0 = p.y0) (hb2 : p.x0 < p.x2 → bez p.x2 = p.y2) :
    Continuous (waveValue p c bez) := by
  set T := p.lenL + p.lenR with hT
  have hble : 0 ≤ p.x2 - p.x0 := by linarith [h.left, h.right]
  have hTbl : (p.x2 - p.x0) * 2 + (p.lenR - 2 * (p.x2 - c.1)) ≤ T := by linarith [h.lenL]
  have hcell : ContinuousOn (waveCell p c bez) (Set.Icc 0 T) := by
    have hcl : ContinuousOn (fun t : ℝ =>
        (if p.x0 < p.x2 then bez (min t (p.x2 - p.x0) + p.x0) +
        (p.y2 - bez (p.x2 - max 0 (min (t - (p.x2 - p.x0) - (p.lenR - 2 * (p.x2 - c.1))) (p.x2 - p.x0)))) else p.y0) +
        p.gradR * max 0 (min (t - (p.x2 - p.x0)) (p.lenR - 2 * (p.x2 - c.1))) +
        p.gradL * max 0 (t - ((p.x2 - p.x0) * 2 + (p.lenR - 2 * (p.x2 - c.1))))) (Set.Icc 0 T) := by
      refine ContinuousOn.add (ContinuousOn.add ?_ (by fun_prop)) (by fun_prop)
      by_cases hlt : p.x0 < p.x2
      · simp only [if_pos hlt]
        refine ContinuousOn.add ?_ (continuousOn_const.sub ?_)
        · refine hc.comp (by fun_prop) ?_
          intro t ht
          have : 0 ≤ t := ht.1
          refine ⟨?_, ?_⟩
          · have : 0 ≤ min t (p.x2 - p.x0) := le_min ht.1 hble
            linarith
          · have := min_le_right t (p.x2 - p.x0)
            linarith
        · refine hc.comp (by fun_prop) ?_
          intro t ht
          refine ⟨?_, ?_⟩
          · have : max 0 (min (t - (p.x2 - p.x0) - (p.lenR - 2 * (p.x2 - c.1))) (p.x2 - p.x0)) ≤ p.x2 - p.x0 :=
              max_le hble (min_le_right _ _)
            linarith
          · have := le_max_left 0 (min (t - (p.x2 - p.x0) - (p.lenR - 2 * (p.x2 - c.1))) (p.x2 - p.x0))
            linarith
      · simp only [if_neg hlt]
        exact continuousOn_const
    exact hcl.congr fun t ht => waveCell_eq_sum h hb0 hb2 ht.1
  have hend : waveCell p c bez T + yOffPeriod p c = waveCell p c bez 0 := waveCell_end h hper hb0 hb2
  -- reduce to a function of the fractional part
  have hG : Continuous ((fun u => waveCell p c bez (T * u) + yOffPeriod p c * u) ∘ Int.fract) := by
    apply ContinuousOn.comp_fract''
    · refine ContinuousOn.add ?_ (by fun_prop)
      refine hcell.comp (by fun_prop) ?_
      intro u hu
      refine ⟨mul_nonneg hper.le hu.1, ?_⟩
      have := mul_le_mul_of_nonneg_left hu.2 hper.le
      simpa using this
    · simp only [mul_zero, mul_one, add_zero]
      exact hend.symm
  have hx : Continuous fun x : ℝ => (x - p.x0) / T := by fun_prop
  have hcomp := hG.comp hx
  have : waveValue p c bez = fun x => ((fun u => waveCell p c bez (T * u) + yOffPeriod p c * u) ∘ Int.fract)
      ((x - p.x0) / T) - yOffPeriod p c * ((x - p.x0) / T) := by
    funext x
    rcases waveValue_eq (p := p) (c := c) bez x with e | e
    · rw [e]
      simp only [Function.comp]
      have : ((⌊(x - p.x0) / T⌋ : ℤ) : ℝ) = (x - p.x0) / T - Int.fract ((x - p.x0) / T) := by
        rw [Int.fract]; ring
      rw [← hT, this]; ring
    · exact absurd e hper.ne'
  rw [this]
  exact hcomp.sub (by fun_prop)

/-- Advancing by one period subtracts the period offset, for every evaluation of the Bezier part. -/
theorem waveValue_add_period (hper : 0 < p.lenL + p.lenR) (bez : ℝ → ℝ) (x : ℝ) :
    waveValue p c bez (x + (p.lenL + p.lenR)) = waveValue p c bez x - yOffPeriod p c := by
  have e : (x + (p.lenL + p.lenR) - p.x0) / (p.lenL + p.lenR) = (x - p.x0) / (p.lenL + p.lenR) + 1 := by
    field_simp; ring
  rcases waveValue_eq (p := p) (c := c) bez (x + (p.lenL + p.lenR)) with e1 | e1
  · rcases waveValue_eq (p := p) (c := c) bez x with e2 | e2
    · rw [e1, e2, e, Int.fract_add_one, Int.floor_add_one]; push_cast; ring
    · exact absurd e2 hper.ne'
  · exact absurd e1 hper.ne'

/-- Value at position `t` of period `k`. -/
theorem waveValue_at (h : CenterOk p c) (hper : 0 < p.lenL + p.lenR) {bez : ℝ → ℝ}
    (hb0 : p.x0 < p.x2 → bez p.x0 = p.y0) (hb2 : p.x0 < p.x2 → bez p.x2 = p.y2) (k : ℤ) {t : ℝ} (h0 : 0 ≤ t)
    (h1 : t ≤ p.lenL + p.lenR) :
    waveValue p c bez (p.x0 + k * (p.lenL + p.lenR) + t) = waveCell p c bez t - yOffPeriod p c * k := by
  have key : ∀ (k : ℤ) (t : ℝ), 0 ≤ t → t < p.lenL + p.lenR →
      waveValue p c bez (p.x0 + k * (p.lenL + p.lenR) + t) = waveCell p c bez t - yOffPeriod p c * k := by
    intro k t h0 h1
    have e : (p.x0 + k * (p.lenL + p.lenR) + t - p.x0) / (p.lenL + p.lenR) = t / (p.lenL + p.lenR) + k := by
      field_simp; ring
    have hf0 : 0 ≤ t / (p.lenL + p.lenR) := by positivity
    have hf1 : t / (p.lenL + p.lenR) < 1 := (div_lt_one hper).2 h1
    have hfl : ⌊t / (p.lenL + p.lenR)⌋ = 0 := Int.floor_eq_iff.2 ⟨by simpa using hf0, by simpa using hf1⟩
    rcases waveValue_eq (p := p) (c := c) bez (p.x0 + k * (p.lenL + p.lenR) + t) with e1 | e1
    · rw [e1, e, Int.fract_add_intCast, Int.floor_add_intCast, hfl, Int.fract_eq_self.2 ⟨hf0, hf1⟩,
        mul_div_cancel₀ _ hper.ne']
      push_cast; ring
    · exact absurd e1 hper.ne'
  rcases lt_or_eq_of_le h1 with h1 | h1
  · exact key k t h0 h1
  · subst h1
    have := key (k + 1) 0 le_rfl hper
    rw [← waveCell_end h hper hb0 hb2] at this
    rw [show p.x0 + k * (p.lenL + p.lenR) + (p.lenL + p.lenR) =
      p.x0 + ((k + 1 : ℤ) : ℝ) * (p.lenL + p.lenR) + 0 by push_cast; ring, this]
    push_cast; ring

/-- The four distinguished values of a period. -/
theorem waveCell_points (h : CenterOk p c) {bez : ℝ → ℝ}
    (hb0 : p.x0 < p.x2 → bez p.x0 = p.y0) (hb2 : p.x0 < p.x2 → bez p.x2 = p.y2) :
    waveCell p c bez 0 = p.y0 ∧
    waveCell p c bez (p.x2 - p.x0) = p.y2 ∧
    waveCell p c bez ((p.x2 - p.x0) + (p.lenR - 2 * (p.x2 - c.1))) = p.y2 + (p.lenR - 2 * (p.x2 - c.1)) * p.gradR ∧
    waveCell p c bez ((p.x2 - p.x0) * 2 + (p.lenR - 2 * (p.x2 - c.1))) =
      2 * p.y2 - p.y0 + (p.lenR - 2 * (p.x2 - c.1)) * p.gradR := by
  have hrl : 0 ≤ p.lenR - 2 * (p.x2 - c.1) := by linarith [h.lenR]
  have hble : 0 ≤ p.x2 - p.x0 := by linarith [h.left, h.right]
  have hy : p.x2 = p.x0 → p.y2 = p.y0 := by
    intro e
    have hc : c.1 = p.x0 := le_antisymm (e ▸ h.right) h.left
    rw [h.y2, h.yc, hc, e]; ring
  have hn : ¬ p.x0 < p.x2 → p.x2 = p.x0 := fun hh => by linarith
  refine ⟨?_, ?_, ?_, ?_⟩
  · rw [waveCell_eq_sum h hb0 hb2 le_rfl]
    rw [min_eq_left hble, min_eq_left (by linarith), max_eq_left (by linarith), min_eq_left (by linarith),
      max_eq_left (by linarith), max_eq_left (by linarith)]
    split_ifs with hlt
    · rw [zero_add, sub_zero, hb0 hlt, hb2 hlt]; ring
    · ring
  · rw [waveCell_eq_sum h hb0 hb2 hble]
    rw [min_eq_left le_rfl, min_eq_left (by linarith), max_eq_left (by linarith), min_eq_left (by linarith),
      max_eq_left (by linarith), max_eq_left (by linarith)]
    split_ifs with hlt
    · rw [sub_add_cancel, sub_zero, hb2 hlt]; ring
    · rw [hy (hn hlt)]; ring
  · rw [waveCell_eq_sum h hb0 hb2 (by linarith)]
    rw [min_eq_right (by linarith), min_eq_left (by linarith), max_eq_left (by linarith), min_eq_left (by linarith),
      max_eq_right (by linarith), max_eq_left (by linarith)]
    split_ifs with hlt
    · rw [sub_add_cancel, sub_zero, hb2 hlt]; ring
    · rw [hy (hn hlt)]; ring
  · rw [waveCell_eq_sum h hb0 hb2 (by linarith)]
    rw [min_eq_right (by linarith), min_eq_right (by linarith), max_eq_right hble, min_eq_right (by linarith),
      max_eq_right (by linarith), max_eq_left (by linarith)]
    split_ifs with hlt
    · rw [sub_add_cancel, sub_sub_cancel, hb2 hlt, hb0 hlt]; ring
    · rw [hy (hn hlt)]; ring

theorem waveEnd_eq (p : TctParams) (n : ℕ) :
    waveEnd p (n + 1) = p.x0 + ((n : ℤ) : ℝ) * (p.lenL + p.lenR) + (p.x2 - p.x0) := by
  unfold waveEnd; push_cast; ring

/-- `tct_bezier` for one point: straight line, wave, straight line. -/
theorem tctEntry_eq (h : CenterOk p c) (hper : 0 < p.lenL + p.lenR) {bez : ℝ → ℝ}
    (hb0 : p.x0 < p.x2 → bez p.x0 = p.y0) (hb2 : p.x0 < p.x2 → bez p.x2 = p.y2) (n : ℕ) (x : ℝ) (outer : Prop)
    (ho : outsideWave p (some (n + 1)) x → outer) :
    tctEntry p c bez (some (n + 1)) outer x =
      if x ≤ p.x0 then p.y0 + (x - p.x0) * p.gradL
      else if waveEnd p (n + 1) ≤ x then p.y2 - n * yOffPeriod p c + (x - waveEnd p (n + 1)) * p.gradR
      else waveValue p c bez x := by
  obtain ⟨v0, v2, -, -⟩ := waveCell_points h hb0 hb2
  have hble : 0 ≤ p.x2 - p.x0 := by linarith [h.left, h.right]
  have hTbl : (p.x2 - p.x0) * 2 + (p.lenR - 2 * (p.x2 - c.1)) ≤ p.lenL + p.lenR := by linarith [h.lenL]
  have hbT : p.x2 - p.x0 ≤ p.lenL + p.lenR := by linarith [h.lenR]
  have w0 : waveValue p c bez p.x0 = p.y0 := by
    have := waveValue_at h hper hb0 hb2 0 le_rfl hper.le
    simpa [v0] using this
  have w2 : waveValue p c bez (waveEnd p (n + 1)) = p.y2 - n * yOffPeriod p c := by
    rw [waveEnd_eq, waveValue_at h hper hb0 hb2 n hble hbT, v2]; push_cast; ring
  have hlh : p.x0 ≤ waveEnd p (n + 1) := by
    rw [waveEnd_eq]
    have : (0 : ℝ) ≤ ((n : ℤ) : ℝ) * (p.lenL + p.lenR) := by positivity
    linarith
  unfold outsideWave at ho
  unfold tctEntry
  simp only [ge_iff_le]
  have en : ((n + 1 : ℕ) : ℝ) - 1 = n := by push_cast; ring
  rw [en]
  by_cases hout : outer
  · rw [if_pos hout]
    by_cases h1 : waveEnd p (n + 1) ≤ x
    · rw [if_pos h1]
      by_cases h2 : x ≤ p.x0
      · rw [if_pos h2]
        have hx : x = p.x0 := by linarith
        have hxe : waveEnd p (n + 1) = p.x0 := by linarith
        rw [hxe, w0] at w2
        rw [hx, hxe]
        linarith
      · rw [if_neg h2, if_pos h1]; ring
    · rw [if_neg h1]
      split_ifs with h2 h3
      · rfl
      · rfl
      · exact absurd ⟨(not_le.1 h2).le, (not_le.1 h1).le⟩ h3
  · rw [if_neg hout]
    have hin : p.x0 ≤ x ∧ x ≤ waveEnd p (n + 1) := by
      by_contra hc; exact hout (ho hc)
    rw [if_pos hin]
    split_ifs with h1 h2
    · have hx : x = p.x0 := le_antisymm h1 hin.1
      rw [hx, w0]; ring
    · have hx : x = waveEnd p (n + 1) := le_antisymm hin.2 h2
      rw [hx, w2]; ring
    · rfl

theorem tctBezierAt_eq (hc : tctCenter p = .ok c) (lut mp : Option ℕ) (x : ℝ) :
    tctBezierAt p lut mp x = .ok (tctEntry p c (bezierValue p c lut) mp (outsideWave p mp x) x) := by
  unfold tctBezierAt tctBezier
  rw [hc]
  simp

theorem tctBezier_eq {ι : Type} (hc : tctCenter p = .ok c) (lut mp : Option ℕ) (xs : ι → ℝ) :
    tctBezier p lut mp xs =
      .ok fun i => tctEntry p c (bezierValue p c lut) mp (∃ j, outsideWave p mp (xs j)) (xs i) := by
  unfold tctBezier
  rw [hc]

theorem tctEntry_in {bez : ℝ → ℝ} {m : ℕ} {x : ℝ} (h : p.x0 ≤ x ∧ x ≤ waveEnd p m) :
    tctEntry p c bez (some m) (outsideWave p (some m) x) x = waveValue p c bez x := by
  have ho : ¬ outsideWave p (some m) x := not_not.2 h
  simp only [tctEntry]
  rw [if_neg ho, if_pos h]

theorem tctEntry_left {bez : ℝ → ℝ} {m : ℕ} {x : ℝ} (h : x < p.x0) (hlh : p.x0 ≤ waveEnd p m) :
    tctEntry p c bez (some m) (outsideWave p (some m) x) x = p.y0 + (x - p.x0) * p.gradL := by
  have ho : outsideWave p (some m) x := fun hh => absurd hh.1 (not_le.2 h)
  simp only [tctEntry]
  rw [if_pos ho, if_neg (by simp only [ge_iff_le]; linarith), if_pos h.le]

theorem tctEntry_right {bez : ℝ → ℝ} {m : ℕ} {x : ℝ} (h : waveEnd p m < x) :
    tctEntry p c bez (some m) (outsideWave p (some m) x) x =
      (p.y0 - ((m : ℝ) - 1) * yOffPeriod p c + (p.y2 - p.y0)) + (x - waveEnd p m) * p.gradR := by
  have ho : outsideWave p (some m) x := fun hh => absurd hh.2 (not_le.2 h)
  simp only [tctEntry]
  rw [if_pos ho, if_pos h.le]

/-! ### Lookup table -/

theorem bezX_diff (h : CenterOk p c) (s t : ℝ) :
    bezCoord p.x0 c.1 p.x2 t - bezCoord p.x0 c.1 p.x2 s =
      (t - s) * ((2 - s - t) * (c.1 - p.x0) + (s + t) * (p.x2 - c.1)) ∧
    bezCoord p.y0 c.2 p.y2 t - bezCoord p.y0 c.2 p.y2 s =
      (t - s) * ((2 - s - t) * (c.1 - p.x0) * p.gradL + (s + t) * (p.x2 - c.1) * p.gradR) := by
  unfold bezCoord
  constructor
  · ring
  · rw [h.y2, h.yc]; ring

theorem bezY_lipschitz (h : CenterOk p c) {s t : ℝ} (hs0 : 0 ≤ s) (hs1 : s ≤ 1) (ht0 : 0 ≤ t) (ht1 : t ≤ 1) :
    |bezCoord p.y0 c.2 p.y2 t - bezCoord p.y0 c.2 p.y2 s| ≤
      max |p.gradL| |p.gradR| * |bezCoord p.x0 c.1 p.x2 t - bezCoord p.x0 c.1 p.x2 s| := by
  obtain ⟨e1, e2⟩ := bezX_diff h s t
  rw [e1, e2, abs_mul, abs_mul]
  have hu := sub_nonneg.2 h.left
  have hv := sub_nonneg.2 h.right
  have ha : 0 ≤ (2 - s - t) * (c.1 - p.x0) := mul_nonneg (by linarith) hu
  have hb : 0 ≤ (s + t) * (p.x2 - c.1) := mul_nonneg (by linarith) hv
  generalize (2 - s - t) * (c.1 - p.x0) = a at *
  generalize (s + t) * (p.x2 - c.1) = b at *
  have h1 : |a * p.gradL + b * p.gradR| ≤ max |p.gradL| |p.gradR| * |a + b| := by
    rw [abs_of_nonneg (add_nonneg ha hb)]
    calc |a * p.gradL + b * p.gradR| ≤ |a * p.gradL| + |b * p.gradR| := abs_add_le _ _
      _ = a * |p.gradL| + b * |p.gradR| := by rw [abs_mul, abs_mul, abs_of_nonneg ha, abs_of_nonneg hb]
      _ ≤ a * max |p.gradL| |p.gradR| + b * max |p.gradL| |p.gradR| :=
        add_le_add (mul_le_mul_of_nonneg_left (le_max_left _ _) ha) (mul_le_mul_of_nonneg_left (le_max_right _ _) hb)
      _ = _ := by ring
  calc |t - s| * |a * p.gradL + b * p.gradR| ≤ |t - s| * (max |p.gradL| |p.gradR| * |a + b|) :=
        mul_le_mul_of_nonneg_left h1 (abs_nonneg _)
    _ = _ := by ring

/-- Some table entry is close in abscissa. -/
theorem exists_close (h : CenterOk p c) {n : ℕ} (hn : 2 ≤ n) {s : ℝ} (hs0 : 0 ≤ s) (hs1 : s ≤ 1) :
    ∃ i < n, |bezCoord p.x0 c.1 p.x2 (linAt 0 1 n i) - bezCoord p.x0 c.1 p.x2 s| ≤
      max (c.1 - p.x0) (p.x2 - c.1) / ((n : ℝ) - 1) := by
  have hn1 : (0 : ℝ) < (n : ℝ) - 1 := by
    have : (2 : ℝ) ≤ n := by exact_mod_cast hn
    linarith
  set M := max (c.1 - p.x0) (p.x2 - c.1) with hM
  have hu := sub_nonneg.2 h.left
  have hv := sub_nonneg.2 h.right
  have hM0 : 0 ≤ M := hu.trans (le_max_left _ _)
  set j := ⌊s * ((n : ℝ) - 1)⌋₊ with hj
  have hj0 : (j : ℝ) ≤ s * ((n : ℝ) - 1) := Nat.floor_le (by positivity)
  have hj1 : s * ((n : ℝ) - 1) < j + 1 := Nat.lt_floor_add_one _
  have hjn : j < n := by
    have : (j : ℝ) ≤ (n : ℝ) - 1 := hj0.trans (by nlinarith)
    have : (j : ℝ) < n := by linarith
    exact_mod_cast this
  have hlin : ∀ i : ℕ, linAt 0 1 n i = i / ((n : ℝ) - 1) := by
    intro i; unfold linAt; rw [sub_zero, zero_add, mul_one_div]
  have hsj : linAt 0 1 n j ≤ s := by rw [hlin, div_le_iff₀ hn1]; exact hj0
  by_cases hlast : j + 1 < n
  · have hsj1 : s ≤ linAt 0 1 n (j + 1) := by
      rw [hlin, le_div_iff₀ hn1]; push_cast; exact hj1.le
    have hj1n : linAt 0 1 n (j + 1) ≤ 1 := by
      rw [hlin, div_le_one hn1]
      have : ((j + 1 : ℕ) : ℝ) + 1 ≤ n := by exact_mod_cast hlast
      linarith
    have hj0' : 0 ≤ linAt 0 1 n j := by rw [hlin]; positivity
    have hgap : linAt 0 1 n (j + 1) - linAt 0 1 n j = 1 / ((n : ℝ) - 1) := by
      rw [hlin, hlin]; push_cast; ring
    generalize linAt 0 1 n (j + 1) = b at *
    have d1 := (bezX_diff h (linAt 0 1 n j) s).1
    have d2 := (bezX_diff h s b).1
    have d3 := (bezX_diff h (linAt 0 1 n j) b).1
    by_cases hclose : bezCoord p.x0 c.1 p.x2 s - bezCoord p.x0 c.1 p.x2 (linAt 0 1 n j) ≤ M / ((n : ℝ) - 1)
    · refine ⟨j, hjn, ?_⟩
      rw [abs_sub_comm, abs_of_nonneg]
      · exact hclose
      · rw [d1]
        exact mul_nonneg (by linarith) (add_nonneg (mul_nonneg (by linarith) hu) (mul_nonneg (by linarith) hv))
    · refine ⟨j + 1, hlast, ?_⟩
      have hb : linAt 0 1 n (j + 1) = b := by
        rw [show linAt 0 1 n (j + 1) = b from by
          have := hgap
          rw [hlin] at this
          rw [hlin]; push_cast at *
          have e : (b : ℝ) = j / ((n : ℝ) - 1) + 1 / ((n : ℝ) - 1) := by linarith
          rw [e]; ring]
      rw [hb, abs_of_nonneg]
      · have hle : (b - linAt 0 1 n j) * ((2 - linAt 0 1 n j - b) * (c.1 - p.x0) + (linAt 0 1 n j + b) * (p.x2 - c.1))
            ≤ 1 / ((n : ℝ) - 1) * (2 * M) := by
          rw [hgap]
          apply mul_le_mul_of_nonneg_left _ (by positivity)
          have a1 : (2 - linAt 0 1 n j - b) * (c.1 - p.x0) ≤ (2 - linAt 0 1 n j - b) * M :=
            mul_le_mul_of_nonneg_left (le_max_left _ _) (by linarith)
          have a2 : (linAt 0 1 n j + b) * (p.x2 - c.1) ≤ (linAt 0 1 n j + b) * M :=
            mul_le_mul_of_nonneg_left (le_max_right _ _) (by linarith)
          linarith
        have e3 : 1 / ((n : ℝ) - 1) * (2 * M) = 2 * (M / ((n : ℝ) - 1)) := by ring
        rw [e3, ← d3] at hle
        linarith [not_le.1 hclose]
      · rw [d2]
        exact mul_nonneg (by linarith) (add_nonneg (mul_nonneg (by linarith) hu) (mul_nonneg (by linarith) hv))
  · have hjl : j + 1 = n := by omega
    have hs : linAt 0 1 n j = 1 := by
      rw [hlin, div_eq_one_iff_eq hn1.ne', ← hjl]; push_cast; ring
    refine ⟨j, hjn, ?_⟩
    rw [hs]
    rw [hs] at hsj
    have : s = 1 := le_antisymm hs1 hsj
    rw [this, sub_self, abs_zero]
    positivity

theorem linAt01_mem {n i : ℕ} (hn : 2 ≤ n) (hi : i < n) : 0 ≤ linAt 0 1 n i ∧ linAt 0 1 n i ≤ 1 := by
  have hn1 : (0 : ℝ) < (n : ℝ) - 1 := by
    have : (2 : ℝ) ≤ n := by exact_mod_cast hn
    linarith
  have e : linAt 0 1 n i = i / ((n : ℝ) - 1) := by unfold linAt; rw [sub_zero, zero_add, mul_one_div]
  rw [e]
  refine ⟨by positivity, ?_⟩
  rw [div_le_one hn1]
  have : (i : ℝ) + 1 ≤ n := by exact_mod_cast hi
  linarith

/-- The chosen table entry is at least as close as every other one. -/
theorem lutValue_spec (p : TctParams) (c : ℝ × ℝ) {n : ℕ} (hn : 0 < n) (x : ℝ) :
    ∃ i < n, lutValue p c n x = bezCoord p.y0 c.2 p.y2 (linAt 0 1 n i) ∧
      ∀ j < n, |bezCoord p.x0 c.1 p.x2 (linAt 0 1 n i) - x| ≤ |bezCoord p.x0 c.1 p.x2 (linAt 0 1 n j) - x| := by
  unfold lutValue
  rcases hm : (List.range n).argmin (fun i => |bezCoord p.x0 c.1 p.x2 (linAt 0 1 n i) - x|) with _ | i
  · rw [List.argmin_eq_none] at hm
    rw [List.range_eq_nil] at hm
    omega
  · have hmem : i ∈ (List.range n).argmin (fun i => |bezCoord p.x0 c.1 p.x2 (linAt 0 1 n i) - x|) := hm
    refine ⟨i, List.mem_range.1 (List.argmin_mem hmem), rfl, ?_⟩
    intro j hj
    exact List.le_of_mem_argmin (f := fun i => |bezCoord p.x0 c.1 p.x2 (linAt 0 1 n i) - x|)
      (List.mem_range.2 hj) hmem

theorem lut_error (h : CenterOk p c) {n : ℕ} (hn : 2 ≤ n) {s : ℝ} (hs0 : 0 ≤ s) (hs1 : s ≤ 1) :
    |lutValue p c n (bezCoord p.x0 c.1 p.x2 s) - bezCoord p.y0 c.2 p.y2 s| ≤
      max |p.gradL| |p.gradR| * (max (c.1 - p.x0) (p.x2 - c.1) / ((n : ℝ) - 1)) := by
  obtain ⟨i, hi, e, hmin⟩ := lutValue_spec p c (by omega : 0 < n) (bezCoord p.x0 c.1 p.x2 s)
  obtain ⟨j, hj, hc⟩ := exists_close h hn hs0 hs1
  obtain ⟨t0, t1⟩ := linAt01_mem hn hi
  rw [e]
  refine (bezY_lipschitz h hs0 hs1 t0 t1).trans ?_
  exact mul_le_mul_of_nonneg_left ((hmin j hj).trans hc) (le_max_of_le_left (abs_nonneg _))

/-- The abscissa increases strictly along the arc. -/
theorem bezX_injective (h : CenterOk p c) (hbl : p.x0 < p.x2) {s t : ℝ} (hs0 : 0 ≤ s) (hs1 : s ≤ 1) (ht0 : 0 ≤ t)
    (ht1 : t ≤ 1) (e : bezCoord p.x0 c.1 p.x2 s = bezCoord p.x0 c.1 p.x2 t) : s = t := by
  have d := (bezX_diff h s t).1
  rw [e, sub_self] at d
  rcases mul_eq_zero.1 d.symm with h1 | h1
  · linarith
  · have hu := sub_nonneg.2 h.left
    have hv := sub_nonneg.2 h.right
    have ha : 0 ≤ (2 - s - t) * (c.1 - p.x0) := mul_nonneg (by linarith) hu
    have hb : 0 ≤ (s + t) * (p.x2 - c.1) := mul_nonneg (by linarith) hv
    have ha0 : (2 - s - t) * (c.1 - p.x0) = 0 := by linarith
    have hb0 : (s + t) * (p.x2 - c.1) = 0 := by linarith
    rcases mul_eq_zero.1 ha0 with h2 | h2
    · linarith
    · rcases mul_eq_zero.1 hb0 with h3 | h3
      · linarith
      · linarith

theorem lut_exact (h : CenterOk p c) (hbl : p.x0 < p.x2) {n : ℕ} (hn : 2 ≤ n) :
    lutValue p c n p.x0 = p.y0 ∧ lutValue p c n p.x2 = p.y2 := by
  have hn1 : (0 : ℝ) < (n : ℝ) - 1 := by
    have : (2 : ℝ) ≤ n := by exact_mod_cast hn
    linarith
  have key : ∀ s, 0 ≤ s → s ≤ 1 → (∃ j < n, linAt 0 1 n j = s) →
      lutValue p c n (bezCoord p.x0 c.1 p.x2 s) = bezCoord p.y0 c.2 p.y2 s := by
    rintro s hs0 hs1 ⟨j, hj, rfl⟩
    obtain ⟨i, hi, e, hmin⟩ := lutValue_spec p c (by omega : 0 < n) (bezCoord p.x0 c.1 p.x2 (linAt 0 1 n j))
    have := hmin j hj
    rw [sub_self, abs_zero, abs_nonpos_iff, sub_eq_zero] at this
    obtain ⟨t0, t1⟩ := linAt01_mem hn hi
    rw [e, bezX_injective h hbl t0 t1 hs0 hs1 this]
  have k0 := key 0 le_rfl zero_le_one ⟨0, by omega, by simp [linAt]⟩
  have k1 := key 1 zero_le_one le_rfl ⟨n - 1, by omega, by
    unfold linAt
    rw [Nat.cast_sub (by omega)]
    rw [sub_zero, zero_add, Nat.cast_one, mul_one_div, div_self hn1.ne']⟩
  constructor
  · simpa [bezCoord] using k0
  · simpa [bezCoord] using k1

end SimCATS
