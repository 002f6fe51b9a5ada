import Verif.Lemmas.Tct

/-! Closed form of the anchor loop. -/

namespace SimCATS

/-- Row `i` in closed form: peak `i/2` for even, valley `i/2` for odd `i`. -/
noncomputable def rowAnchor (p : TctParams) (c : ℝ × ℝ) (i : ℕ) : Anchor :=
  let k : ℝ := ((i / 2 : ℕ) : ℝ)
  let dx := k * (p.lenL + p.lenR)
  let dy := k * (p.lenL * p.gradL + p.lenR * p.gradR)
  if i % 2 = 0 then
    ⟨(p.x0 + dx, p.y0 + dy), (c.1 + dx, c.2 + dy), (p.x2 + dx, p.y2 + dy)⟩
  else
    ⟨(c.1 + p.lenR + dx - (p.x2 - c.1), c.2 + p.lenR * p.gradR + dy - (p.x2 - c.1) * p.gradR),
      (c.1 + p.lenR + dx, c.2 + p.lenR * p.gradR + dy),
      (c.1 + p.lenR + dx + (c.1 - p.x0), c.2 + p.lenR * p.gradR + dy + (c.1 - p.x0) * p.gradL)⟩

variable {p : TctParams} {c : ℝ × ℝ}

theorem stepAnchor_row (h : CenterOk p c) (i : ℕ) :
    stepAnchor p (c.1 - p.x0) (p.x2 - c.1) i (rowAnchor p c i) = rowAnchor p c (i + 1) := by
  unfold stepAnchor rowAnchor
  rcases Nat.mod_two_eq_zero_or_one i with he | ho
  · have h1 : (i + 1) % 2 = 1 := by omega
    have h2 : (i + 1) / 2 = i / 2 := by omega
    simp only [he, h1, h2, ne_eq, not_true_eq_false, if_false, if_true, one_ne_zero]
    congr 2 <;> ring
  · have h1 : (i + 1) % 2 = 0 := by omega
    have h2 : (i + 1) / 2 = i / 2 + 1 := by omega
    simp only [ho, h1, h2, ne_eq, one_ne_zero, not_false_eq_true, if_false, if_true]
    have hy2 := h.y2
    have hyc := h.yc
    push_cast
    congr 2
    · ring
    · rw [hyc]; ring
    · ring
    · ring
    · ring
    · rw [hy2]; ring

theorem anchorLoop_row (h : CenterOk p c) (n i : ℕ) :
    anchorLoop p (c.1 - p.x0) (p.x2 - c.1) n i (rowAnchor p c i) =
      (List.range n).map fun j => rowAnchor p c (i + j) := by
  induction n generalizing i with
  | zero => rfl
  | succ n ih =>
    rw [anchorLoop, stepAnchor_row h, ih, List.range_succ_eq_map, List.map_cons, List.map_map]
    congr 1
    apply List.map_congr_left
    intro j _
    simp only [Function.comp]
    congr 1; omega

theorem firstAnchor_row (hg : p.gradR ≠ p.gradL) (h : CenterOk p c) : firstAnchor p = rowAnchor p c 0 := by
  have hg' : p.gradR - p.gradL ≠ 0 := sub_ne_zero.2 hg
  have hc : (p.y0 - p.y2 + p.x2 * p.gradR - p.x0 * p.gradL) / (p.gradR - p.gradL) = c.1 := by
    rw [div_eq_iff hg', h.y2, h.yc]; ring
  unfold firstAnchor rowAnchor
  simp only [hc]
  simp [h.yc]

theorem anchorsRaw_eq (hg : p.gradR ≠ p.gradL) (h : CenterOk p c) (mp : ℕ) :
    anchorsRaw p mp = (List.range (mp * 2 - 1)).map (rowAnchor p c) := by
  unfold anchorsRaw
  simp only [firstAnchor_row hg h]
  have e1 : (rowAnchor p c 0).center.1 - (rowAnchor p c 0).left.1 = c.1 - p.x0 := by simp [rowAnchor]
  have e2 : (rowAnchor p c 0).right.1 - (rowAnchor p c 0).center.1 = p.x2 - c.1 := by simp [rowAnchor]
  rw [e1, e2, anchorLoop_row h]
  simp

theorem rotate_back (a : ℝ) (P : ℝ × ℝ) : rotatePoint (-a) (rotatePoint a P) = P := by
  unfold rotatePoint
  have := Real.sin_sq_add_cos_sq a
  ext
  · simp only [Real.cos_neg, Real.sin_neg]
    linear_combination P.1 * this
  · simp only [Real.cos_neg, Real.sin_neg]
    linear_combination P.2 * this

/-- The anchors of all rows lie on the curve. -/
theorem row_on_curve (hc : tctCenter p = .ok c) (hg : p.gradR < p.gradL) (hper : 0 < p.lenL + p.lenR) (m i : ℕ)
    (hi : i < m * 2 - 1) :
    tctBezierAt p none (some m) (rowAnchor p c i).left.1 = .ok (rowAnchor p c i).left.2 ∧
    tctBezierAt p none (some m) (rowAnchor p c i).right.1 = .ok (rowAnchor p c i).right.2 := by
  have h := tctCenter_ok hc
  have hb0 : p.x0 < p.x2 → explicitRoot p c p.x0 = p.y0 := explicitRoot_left h hg
  have hb2 : p.x0 < p.x2 → explicitRoot p c p.x2 = p.y2 := explicitRoot_right h hg
  obtain ⟨v0, v1, v2, v3⟩ := waveCell_points h hb0 hb2
  have hp := yOffPeriod_eq h
  have hl := h.left
  have hr := h.right
  have hlL := h.lenL
  have hlR := h.lenR
  have hkm : ((i / 2 : ℕ) : ℝ) + (if i % 2 = 0 then 0 else 1) ≤ (m : ℝ) - 1 := by
    split_ifs with he
    · have : i / 2 + 1 ≤ m := by omega
      have : ((i / 2 : ℕ) : ℝ) + 1 ≤ m := by exact_mod_cast this
      linarith
    · have : i / 2 + 2 ≤ m := by omega
      have : ((i / 2 : ℕ) : ℝ) + 2 ≤ m := by exact_mod_cast this
      linarith
  have hk0 : (0 : ℝ) ≤ ((i / 2 : ℕ) : ℝ) := Nat.cast_nonneg _
  have val : ∀ (t y : ℝ), 0 ≤ t → t ≤ p.lenL + p.lenR →
      p.x0 + t + ((i / 2 : ℕ) : ℝ) * (p.lenL + p.lenR) ≤ waveEnd p m →
      waveCell p c (explicitRoot p c) t = y →
      tctBezierAt p none (some m) (p.x0 + t + ((i / 2 : ℕ) : ℝ) * (p.lenL + p.lenR)) =
        .ok (y + ((i / 2 : ℕ) : ℝ) * (p.lenL * p.gradL + p.lenR * p.gradR)) := by
    intro t y t0 t1 hend hy
    rw [tctBezierAt_eq hc]
    congr 1
    have hpos := mul_nonneg hk0 hper.le
    rw [tctEntry_in ⟨by linarith, hend⟩]
    have := waveValue_at h hper hb0 hb2 (i / 2 : ℕ) t0 t1
    rw [Int.cast_natCast] at this
    rw [show p.x0 + t + ((i / 2 : ℕ) : ℝ) * (p.lenL + p.lenR) =
      p.x0 + ((i / 2 : ℕ) : ℝ) * (p.lenL + p.lenR) + t by ring]
    show waveValue p c (explicitRoot p c) _ = _
    rw [this, hy]
    linear_combination ((i / 2 : ℕ) : ℝ) * hp
  unfold rowAnchor
  simp only
  have hmul := mul_le_mul_of_nonneg_right hkm hper.le
  unfold waveEnd at val
  split_ifs at hkm hmul ⊢ with he
  · constructor
    · have := val 0 p.y0 le_rfl hper.le (by linarith) v0
      rwa [add_zero] at this
    · have := val (p.x2 - p.x0) p.y2 (by linarith) (by linarith) (by linarith) v1
      rwa [add_sub_cancel] at this
  · constructor
    · have := val ((p.x2 - p.x0) + (p.lenR - 2 * (p.x2 - c.1))) _ (by linarith) (by linarith)
        (by linarith) v2
      rw [h.y2] at this
      convert this using 2 <;> ring
    · have := val ((p.x2 - p.x0) * 2 + (p.lenR - 2 * (p.x2 - c.1))) _ (by linarith) (by linarith)
        (by linarith) v3
      rw [h.y2, show p.y0 = c.2 - p.gradL * (c.1 - p.x0) by rw [h.yc]; ring] at this
      convert this using 2 <;> ring

end SimCATS
