import Verif.Lemmas.Anchors
import Verif.Spec.Geometry

/-! Properties C07 - C11: total charge transitions and their anchors. -/

namespace SimCATS

/-- A concrete asymmetric transition: peak from (0,0) over (1,1) to (3,-1), lengths 5 and 6, slopes 1 and -1. -/
def sampleTct : TctParams := ⟨5, 6, 1, -1, 0, 0, 3, -1⟩

theorem sampleTct_center : tctCenter sampleTct = .ok (1, 1) := by
  apply tctCenter_of (by norm_num [sampleTct])
  constructor <;> norm_num [sampleTct]

/-! ### C07 -/

theorem bezierValue_explicit (p : TctParams) (c : ℝ × ℝ) {lut : Option ℕ} (hl : lut = none ∨ lut = some 0) :
    bezierValue p c lut = explicitRoot p c := by
  funext x
  rcases hl with rfl | rfl <;> rfl

/-- C07: with explicit evaluation a TCT describing a maximum (left slope above right slope) is a continuous function
of the gate voltage, and the array interface returns the values of this function for every array of voltages; with or
without limited number of peaks. -/
theorem C07_continuous (p : TctParams) (lut mp : Option ℕ) (hl : lut = none ∨ lut = some 0)
    (hok : ∃ c, tctCenter p = .ok c) (hg : p.gradR < p.gradL) (hper : 0 < p.lenL + p.lenR) (hmp : mp ≠ some 0) :
    ∃ f : ℝ → ℝ, Continuous f ∧ (∀ x, tctBezierAt p lut mp x = .ok (f x)) ∧
      ∀ (ι : Type) (xs : ι → ℝ), tctBezier p lut mp xs = .ok fun i => f (xs i) := by
  obtain ⟨c, hc⟩ := hok
  have h := tctCenter_ok hc
  have hb := bezierValue_explicit p c hl
  have hb0 : p.x0 < p.x2 → explicitRoot p c p.x0 = p.y0 := explicitRoot_left h hg
  have hb2 : p.x0 < p.x2 → explicitRoot p c p.x2 = p.y2 := explicitRoot_right h hg
  have hw := waveValue_continuous h hper explicitRoot_continuous.continuousOn hb0 hb2
  rcases mp with _ | n
  · refine ⟨waveValue p c (explicitRoot p c), hw, ?_, ?_⟩
    · intro x; rw [tctBezierAt_eq hc, hb]; rfl
    · intro ι xs; rw [tctBezier_eq hc, hb]; rfl
  · rcases n with _ | n
    · exact absurd rfl hmp
    refine ⟨fun x => if x ≤ p.x0 then p.y0 + (x - p.x0) * p.gradL
      else if waveEnd p (n + 1) ≤ x then p.y2 - n * yOffPeriod p c + (x - waveEnd p (n + 1)) * p.gradR
      else waveValue p c (explicitRoot p c) x, ?_, ?_, ?_⟩
    · have hble : 0 ≤ p.x2 - p.x0 := by linarith [h.left, h.right]
      have hbT : p.x2 - p.x0 ≤ p.lenL + p.lenR := by linarith [h.lenR, h.lenL]
      obtain ⟨v0, v2, -, -⟩ := waveCell_points h hb0 hb2
      have w0 : waveValue p c (explicitRoot p c) p.x0 = p.y0 := by
        have := waveValue_at h hper hb0 hb2 0 le_rfl hper.le
        simpa [v0] using this
      have w2 : waveValue p c (explicitRoot p c) (waveEnd p (n + 1)) = p.y2 - n * yOffPeriod p c := by
        rw [waveEnd_eq, waveValue_at h hper hb0 hb2 n hble hbT, v2]; push_cast; ring
      have hlh : p.x0 ≤ waveEnd p (n + 1) := by
        rw [waveEnd_eq]
        have : (0 : ℝ) ≤ ((n : ℤ) : ℝ) * (p.lenL + p.lenR) := by positivity
        linarith
      refine Continuous.if_le (by fun_prop) ?_ continuous_id continuous_const ?_
      · refine Continuous.if_le (by fun_prop) hw continuous_const continuous_id ?_
        intro x hx
        rw [← hx, w2]; ring
      · intro x hx
        have hx : x = p.x0 := hx
        subst hx
        split_ifs with h2
        · have e : waveEnd p (n + 1) = p.x0 := le_antisymm h2 hlh
          rw [e] at w2 ⊢
          linarith
        · rw [w0]; ring
    · intro x
      rw [tctBezierAt_eq hc, hb, tctEntry_eq h hper hb0 hb2 n x _ id]
    · intro ι xs
      rw [tctBezier_eq hc, hb]
      congr 1
      funext i
      exact tctEntry_eq h hper hb0 hb2 n (xs i) _ fun ho => ⟨i, ho⟩

example : (∃ c, tctCenter sampleTct = .ok c) ∧ sampleTct.gradR < sampleTct.gradL ∧
    0 < sampleTct.lenL + sampleTct.lenR := ⟨⟨_, sampleTct_center⟩, by norm_num [sampleTct]⟩

/-- The condition on the slopes in C07 is needed: this parameter set describes a minimum and passes the assertions,
but the curve jumps by 16 at the left end of the first arc. -/
theorem C07_minimum_jumps :
    ∃ p : TctParams, (∃ c, tctCenter p = .ok c) ∧ 0 < p.lenL + p.lenR ∧
      (∀ x < 0, tctBezierAt p none (some 1) x = .ok (-x)) ∧ tctBezierAt p none (some 1) 0 = .ok 16 := by
  have hc : tctCenter ⟨2, 4, -1, 1, 0, 0, 3, 1⟩ = .ok (1, -1) := by
    apply tctCenter_of (by norm_num)
    constructor <;> norm_num
  refine ⟨⟨2, 4, -1, 1, 0, 0, 3, 1⟩, ⟨_, hc⟩, by norm_num, ?_, ?_⟩
  · intro x hx
    rw [tctBezierAt_eq hc]
    congr 1
    rw [tctEntry_left hx (by norm_num [waveEnd])]
    ring
  · rw [tctBezierAt_eq hc]
    congr 1
    rw [tctEntry_in (by norm_num [waveEnd])]
    simp only [waveValue, bezierValue, explicitRoot, implicitCoeffs, bezCoeffs]
    norm_num
    rw [show (256 : ℝ) = 16 ^ 2 by norm_num, Real.sqrt_sq (by norm_num)]
    norm_num

/-! ### C08 -/

/-- C08: advancing by one period inside of the wave range changes the value by
`length1*slope1 + length2*slope2`, for explicit and for lookup-table evaluation. -/
theorem C08_period (p : TctParams) (lut mp : Option ℕ) (hok : ∃ c, tctCenter p = .ok c) (hper : 0 < p.lenL + p.lenR)
    (x y : ℝ) (hin : ∀ m, mp = some m →
      p.x0 ≤ x ∧ x + (p.lenL + p.lenR) ≤ p.x2 + ((m : ℝ) - 1) * (p.lenL + p.lenR))
    (hy : tctBezierAt p lut mp x = .ok y) :
    tctBezierAt p lut mp (x + (p.lenL + p.lenR)) = .ok (y + (p.lenL * p.gradL + p.lenR * p.gradR)) := by
  obtain ⟨c, hc⟩ := hok
  have h := tctCenter_ok hc
  rw [tctBezierAt_eq hc] at hy ⊢
  have hp := yOffPeriod_eq h
  have hadd := waveValue_add_period (c := c) hper (bezierValue p c lut) x
  rcases mp with _ | m
  · simp only [tctEntry] at hy ⊢
    rw [Except.ok.injEq] at hy ⊢
    rw [hadd, hy]; linarith
  · obtain ⟨h1, h2⟩ := hin m rfl
    have h2' : x + (p.lenL + p.lenR) ≤ waveEnd p m := h2
    have i1 : x ≥ p.x0 ∧ x ≤ waveEnd p m := ⟨h1, by linarith⟩
    have i2 : x + (p.lenL + p.lenR) ≥ p.x0 ∧ x + (p.lenL + p.lenR) ≤ waveEnd p m := ⟨by linarith, h2'⟩
    rw [tctEntry_in i1] at hy
    rw [tctEntry_in i2]
    rw [Except.ok.injEq] at hy ⊢
    rw [hadd, hy]; linarith

/-- C08: left of the wave range the curve is the straight line with the left slope through the first anchor, right of
it the straight line with the right slope through the last right anchor. -/
theorem C08_outer_lines (p : TctParams) (lut : Option ℕ) (m : ℕ) (hm : 1 ≤ m) (hok : ∃ c, tctCenter p = .ok c)
    (hper : 0 < p.lenL + p.lenR) (x : ℝ) :
    (x < p.x0 → tctBezierAt p lut (some m) x = .ok (p.y0 + p.gradL * (x - p.x0))) ∧
    (p.x2 + ((m : ℝ) - 1) * (p.lenL + p.lenR) < x → tctBezierAt p lut (some m) x =
      .ok ((p.y2 + ((m : ℝ) - 1) * (p.lenL * p.gradL + p.lenR * p.gradR)) +
        p.gradR * (x - (p.x2 + ((m : ℝ) - 1) * (p.lenL + p.lenR))))) := by
  obtain ⟨c, hc⟩ := hok
  have h := tctCenter_ok hc
  have hp := yOffPeriod_eq h
  have hm' : (0 : ℝ) ≤ (m : ℝ) - 1 := by
    have : (1 : ℝ) ≤ m := by exact_mod_cast hm
    linarith
  have hlh : p.x0 ≤ waveEnd p m := by
    unfold waveEnd
    have := mul_nonneg hm' hper.le
    linarith [h.left, h.right]
  rw [tctBezierAt_eq hc]
  constructor
  · intro hx
    congr 1
    rw [tctEntry_left hx hlh]; ring
  · intro hx
    have hx' : waveEnd p m < x := hx
    congr 1
    rw [tctEntry_right hx']
    unfold waveEnd
    linear_combination ((m : ℝ) - 1) * hp

example := C08_outer_lines sampleTct (some 1000) 2 (by norm_num) ⟨_, sampleTct_center⟩ (by norm_num [sampleTct])

/-- C08: inside the wave range the explicit curve is exactly the rounded zigzag through the configured anchors. -/
theorem C08_rounded_zigzag (p : TctParams) (mp : Option ℕ) (c : ℝ × ℝ) (hc : tctCenter p = .ok c)
    (hg : p.gradR < p.gradL) (hper : 0 < p.lenL + p.lenR) (x y : ℝ)
    (hin : ∀ m, mp = some m → p.x0 ≤ x ∧ x ≤ p.x2 + ((m : ℝ) - 1) * (p.lenL + p.lenR))
    (hy : tctBezierAt p none mp x = .ok y) :
    Spec.OnZigzag (p.x0, p.y0) c (p.x2, p.y2) p.lenL p.lenR p.gradL p.gradR x y := by
  have h := tctCenter_ok hc
  have hp := yOffPeriod_eq h
  have hw : y = waveValue p c (explicitRoot p c) x := by
    rw [tctBezierAt_eq hc] at hy
    rcases mp with _ | m
    · simp only [tctEntry] at hy
      rw [Except.ok.injEq] at hy
      rw [← hy]; rfl
    · have i1 : x ≥ p.x0 ∧ x ≤ waveEnd p m := hin m rfl
      rw [tctEntry_in i1, Except.ok.injEq] at hy
      rw [← hy]; rfl
  refine ⟨⌊(x - p.x0) / (p.lenL + p.lenR)⌋, ?_⟩
  set k : ℤ := ⌊(x - p.x0) / (p.lenL + p.lenR)⌋ with hk
  set t := x - p.x0 - (p.lenL + p.lenR) * (k : ℝ) with ht
  have hy' : y - k * (p.lenL * p.gradL + p.lenR * p.gradR) = waveCell p c (explicitRoot p c) t := by
    rw [hw]
    unfold waveValue waveCell
    simp only
    rw [← hk, ← ht, ← hp]; ring
  have hx' : x - k * (p.lenL + p.lenR) = p.x0 + t := by rw [ht]; ring
  have ht0 : 0 ≤ t := by
    have h1 : (k : ℝ) ≤ (x - p.x0) / (p.lenL + p.lenR) := Int.floor_le _
    rw [le_div_iff₀ hper] at h1
    rw [ht]; linarith
  have ht1 : t < p.lenL + p.lenR := by
    have h1 : (x - p.x0) / (p.lenL + p.lenR) < k + 1 := Int.lt_floor_add_one _
    rw [div_lt_iff₀ hper] at h1
    rw [ht]; linarith
  simp only
  rw [hy', hx']
  have hbr : c.1 ≤ p.x2 := h.right
  have hbl : p.x0 ≤ c.1 := h.left
  have hlenL := h.lenL
  have hlenR := h.lenR
  have hyc := h.yc
  have hy2 := h.y2
  unfold waveCell
  simp only
  have arc : ∀ {z : ℝ}, p.x0 < p.x2 → p.x0 ≤ z → z ≤ p.x2 → ∃ s, 0 ≤ s ∧ s ≤ 1 ∧
      bezCoord p.x0 c.1 p.x2 s = z ∧ explicitRoot p c z = bezCoord p.y0 c.2 p.y2 s := by
    intro z hlt h1 h2
    obtain ⟨s, s0, s1, e⟩ := bezX_surj (c := c) h1 h2
    exact ⟨s, s0, s1, e, by rw [← e]; exact explicitRoot_curve h hg hlt s0 s1⟩
  split_ifs with c1 c2 c3
  · left
    obtain ⟨s, s0, s1, e1, e2⟩ := arc (z := t + p.x0) (by linarith) (by linarith) (by linarith)
    refine ⟨s, s0, s1, ?_⟩
    ext
    · rw [bezier_fst]; simp only; rw [e1]; ring
    · rw [bezier_snd]; simp only; rw [e2]
  · right; left
    have hrl : 0 < p.lenR - 2 * (p.x2 - c.1) := by linarith
    refine ⟨(t - (p.x2 - p.x0)) / (p.lenR - 2 * (p.x2 - c.1)), div_nonneg (by linarith) hrl.le,
      (div_le_one hrl).2 (by linarith), ?_⟩
    ext
    · simp only [Spec.between]
      rw [show c.1 + p.lenR + c.1 - p.x2 - p.x2 = p.lenR - 2 * (p.x2 - c.1) by ring, div_mul_cancel₀ _ hrl.ne']
      ring
    · simp only [Spec.between]
      rw [show c.2 + p.lenR * p.gradR + c.2 - p.y2 - p.y2 = (p.lenR - 2 * (p.x2 - c.1)) * p.gradR by
        rw [hy2]; ring, ← mul_assoc, div_mul_cancel₀ _ hrl.ne']
  · right; right; left
    obtain ⟨s, s0, s1, e1, e2⟩ := arc (z := 2 * (p.x2 - p.x0) + (p.lenR - 2 * (p.x2 - c.1)) - t + p.x0)
      (by linarith) (by linarith) (by linarith)
    refine ⟨1 - s, by linarith, by linarith, ?_⟩
    have hinv : yOffInv p c = 2 * c.2 + p.lenR * p.gradR := by unfold yOffInv; rw [hy2]; ring
    ext
    · rw [bezier_fst]; simp only
      have e1' := e1
      unfold bezCoord at e1' ⊢
      linear_combination -e1'
    · rw [bezier_snd]; simp only
      rw [e2, hinv]
      unfold bezCoord; ring
  · right; right; right
    have hll : 0 < p.lenL - 2 * (c.1 - p.x0) := by linarith
    have hinv : yOffInv p c = 2 * c.2 + p.lenR * p.gradR := by unfold yOffInv; rw [hy2]; ring
    refine ⟨(t - ((p.x2 - p.x0) * 2 + (p.lenR - 2 * (p.x2 - c.1)))) / (p.lenL - 2 * (c.1 - p.x0)),
      div_nonneg (by linarith) hll.le, (div_le_one hll).2 (by linarith), ?_⟩
    ext
    · simp only [Spec.between]
      rw [show p.x0 + (p.lenL + p.lenR) - (c.1 + p.lenR + c.1 - p.x0) = p.lenL - 2 * (c.1 - p.x0) by ring,
        div_mul_cancel₀ _ hll.ne']
      ring
    · simp only [Spec.between]
      rw [show p.y0 + (p.lenL * p.gradL + p.lenR * p.gradR) - (c.2 + p.lenR * p.gradR + c.2 - p.y0) =
        (p.lenL - 2 * (c.1 - p.x0)) * p.gradL by rw [hyc]; ring, ← mul_assoc, div_mul_cancel₀ _ hll.ne', hinv]
      ring

example : (1 : ℝ) ≤ 2 ∧ sampleTct.x0 ≤ 1 ∧
    (1 : ℝ) + (sampleTct.lenL + sampleTct.lenR) ≤ sampleTct.x2 + ((2 : ℕ) - 1 : ℝ) * (sampleTct.lenL + sampleTct.lenR) := by
  norm_num [sampleTct]

/-! ### C09 -/

/-- C09: in the segment, the explicit evaluation returns `y` exactly if `(x, y)` is a point of the quadratic Bezier
curve with the two configured anchors and their tangents' intersection as middle anchor. -/
theorem C09_explicit_is_bezier (p : TctParams) (mp : Option ℕ) (c : ℝ × ℝ) (hc : tctCenter p = .ok c)
    (hg : p.gradR < p.gradL) (hbl : p.x0 < p.x2) (hmp : mp ≠ some 0) (x y : ℝ) (hx0 : p.x0 ≤ x) (hx2 : x ≤ p.x2) :
    tctBezierAt p none mp x = .ok y ↔ Spec.OnBezier (p.x0, p.y0) c (p.x2, p.y2) x y := by
  have h := tctCenter_ok hc
  have hper : 0 < p.lenL + p.lenR := by linarith [h.lenL, h.lenR]
  have hb0 : p.x0 < p.x2 → explicitRoot p c p.x0 = p.y0 := explicitRoot_left h hg
  have hb2 : p.x0 < p.x2 → explicitRoot p c p.x2 = p.y2 := explicitRoot_right h hg
  have hwave : waveValue p c (explicitRoot p c) x = explicitRoot p c x := by
    have := waveValue_at h hper hb0 hb2 0 (t := x - p.x0) (by linarith) (by linarith [h.lenL, h.lenR])
    rw [Int.cast_zero, zero_mul, add_zero, mul_zero, sub_zero, add_sub_cancel] at this
    rw [this]
    rcases lt_or_eq_of_le hx2 with hlt | heq
    · unfold waveCell; simp only
      rw [if_pos (by linarith), sub_add_cancel]
    · subst heq
      rw [(waveCell_points h hb0 hb2).2.1, hb2 hbl]
  have hval : tctBezierAt p none mp x = .ok (explicitRoot p c x) := by
    rw [tctBezierAt_eq hc]
    congr 1
    rcases mp with _ | m
    · exact hwave
    · rcases m with _ | n
      · exact absurd rfl hmp
      have hend : p.x2 ≤ waveEnd p (n + 1) := by
        unfold waveEnd
        have : (0 : ℝ) ≤ ((n + 1 : ℕ) : ℝ) - 1 := by push_cast; linarith [n.cast_nonneg (α := ℝ)]
        have := mul_nonneg this hper.le
        linarith
      have i1 : x ≥ p.x0 ∧ x ≤ waveEnd p (n + 1) := ⟨hx0, hx2.trans hend⟩
      rw [tctEntry_in i1]
      exact hwave
  rw [hval, Except.ok.injEq]
  constructor
  · rintro rfl
    obtain ⟨s, s0, s1, e⟩ := bezX_surj (c := c) hx0 hx2
    refine ⟨s, s0, s1, ?_⟩
    ext
    · rw [bezier_fst]; exact e
    · rw [bezier_snd]
      simp only
      rw [← e]
      exact (explicitRoot_curve h hg hbl s0 s1).symm
  · rintro ⟨s, s0, s1, e⟩
    have e1 := congrArg Prod.fst e
    have e2 := congrArg Prod.snd e
    rw [bezier_fst] at e1
    rw [bezier_snd] at e2
    simp only at e1 e2
    rw [← e1, ← e2]
    exact explicitRoot_curve h hg hbl s0 s1

/-- C09: the middle anchor is the intersection of the two tangents (lead transitions). -/
theorem C09_center_is_intersection (p : TctParams) (c : ℝ × ℝ) (hc : tctCenter p = .ok c) :
    c.2 - p.y0 = p.gradL * (c.1 - p.x0) ∧ p.y2 - c.2 = p.gradR * (p.x2 - c.1) := by
  have h := tctCenter_ok hc
  constructor
  · rw [h.yc]; ring
  · rw [h.y2]; ring

/-- C09: the implicit equation always has real solutions in the segment, so the evaluation cannot fail. -/
theorem C09_discriminant_nonneg (p : TctParams) (c : ℝ × ℝ) (hc : tctCenter p = .ok c) (x : ℝ) (hx0 : p.x0 ≤ x)
    (hx2 : x ≤ p.x2) :
    0 ≤ (implicitCoeffs p c x).2.1 ^ 2 - 4 * (implicitCoeffs p c x).2.2 * (implicitCoeffs p c x).1 := by
  obtain ⟨s, s0, s1, rfl⟩ := bezX_surj (c := c) hx0 hx2
  rw [implicit_disc (tctCenter_ok hc)]
  positivity

/-- The condition on the slopes in C09 is needed: for a minimum with asymmetric anchors the chosen root is strictly
above the curve at every point of the segment. -/
theorem C09_minimum_wrong_root (p : TctParams) (c : ℝ × ℝ) (hc : tctCenter p = .ok c) (hg : p.gradL < p.gradR)
    (hu : p.x0 < c.1) (hv : c.1 < p.x2) (hne : c.1 - p.x0 ≠ p.x2 - c.1) (s : ℝ) (h0 : 0 ≤ s) (h1 : s ≤ 1) :
    (Spec.bezier (p.x0, p.y0) c (p.x2, p.y2) s).2 <
      explicitRoot p c (Spec.bezier (p.x0, p.y0) c (p.x2, p.y2) s).1 := by
  have h := tctCenter_ok hc
  rw [bezier_fst, bezier_snd]
  simp only
  have hx' : 0 < (1 - s) * (c.1 - p.x0) + s * (p.x2 - c.1) := by
    rcases eq_or_lt_of_le h0 with rfl | hs
    · simpa using hu
    · have a := mul_nonneg (sub_nonneg.2 h1) (sub_nonneg.2 hu.le)
      have b := mul_pos hs (sub_pos.2 hv)
      linarith
  have hd := implicit_disc h s
  have hb := implicit_b h s
  have hl := implicit_lead (p := p) (c := c) (bezCoord p.x0 c.1 p.x2 s)
  have hlne : p.x0 - 2 * c.1 + p.x2 ≠ 0 := fun hh => hne (by linarith)
  unfold explicitRoot
  simp only
  rw [hd]
  generalize implicitCoeffs p c (bezCoord p.x0 c.1 p.x2 s) = f at *
  have hpos : 0 < f.2.2 := by rw [hl]; positivity
  have hK : 2 * (c.1 - p.x0) * (p.x2 - c.1) * (p.gradL - p.gradR) *
      (2 * ((1 - s) * (c.1 - p.x0) + s * (p.x2 - c.1))) < 0 := by
    have a := mul_pos (mul_pos two_pos (sub_pos.2 hu)) (sub_pos.2 hv)
    have b := mul_neg_of_pos_of_neg a (sub_neg.2 hg)
    exact mul_neg_of_neg_of_pos b (by linarith)
  rw [Real.sqrt_sq_eq_abs, abs_of_neg hK]
  generalize 2 * (c.1 - p.x0) * (p.x2 - c.1) * (p.gradL - p.gradR) *
      (2 * ((1 - s) * (c.1 - p.x0) + s * (p.x2 - c.1))) = K at *
  rw [if_neg hpos.ne']
  refine lt_of_lt_of_le ?_ (le_max_left _ _)
  rw [lt_div_iff₀ (by positivity)]
  linarith

example := C09_minimum_wrong_root ⟨2, 4, -1, 1, 0, 0, 3, 1⟩ (1, -1) (by apply tctCenter_of (by norm_num); constructor <;> norm_num)
  (by norm_num) (by norm_num) (by norm_num) (by norm_num)

example : tctCenter sampleTct = .ok (1, 1) ∧ sampleTct.gradR < sampleTct.gradL ∧ sampleTct.x0 < sampleTct.x2 :=
  ⟨sampleTct_center, by norm_num [sampleTct]⟩

/-! ### C10 -/

/-- C10: with a table of `N ≥ 2` entries, every value (anywhere on the TCT) differs from the exact one by at most
`max(|slope1|, |slope2|) * (larger x distance of the anchors) / (N - 1)`. -/
theorem C10_lut_error (p : TctParams) (mp : Option ℕ) (c : ℝ × ℝ) (hc : tctCenter p = .ok c)
    (hg : p.gradR < p.gradL) (hper : 0 < p.lenL + p.lenR) (N : ℕ) (hN : 2 ≤ N) (x y z : ℝ)
    (hy : tctBezierAt p (some N) mp x = .ok y) (hz : tctBezierAt p none mp x = .ok z) :
    |y - z| ≤ max |p.gradL| |p.gradR| * (max (c.1 - p.x0) (p.x2 - c.1) / ((N : ℝ) - 1)) := by
  have h := tctCenter_ok hc
  obtain ⟨n, rfl⟩ : ∃ n, N = n + 1 := ⟨N - 1, by omega⟩
  have hN1 : (0 : ℝ) < ((n + 1 : ℕ) : ℝ) - 1 := by
    have : (2 : ℝ) ≤ ((n + 1 : ℕ) : ℝ) := by exact_mod_cast hN
    linarith
  set E := max |p.gradL| |p.gradR| * (max (c.1 - p.x0) (p.x2 - c.1) / (((n + 1 : ℕ) : ℝ) - 1)) with hE
  have hE0 : 0 ≤ E :=
    mul_nonneg (le_max_of_le_left (abs_nonneg _)) (div_nonneg (le_max_of_le_left (sub_nonneg.2 h.left)) hN1.le)
  have key : ∀ w, p.x0 < p.x2 → p.x0 ≤ w → w ≤ p.x2 → |lutValue p c (n + 1) w - explicitRoot p c w| ≤ E := by
    intro w hlt h0 h2
    obtain ⟨s, s0, s1, rfl⟩ := bezX_surj (c := c) h0 h2
    rw [explicitRoot_curve h hg hlt s0 s1]
    exact lut_error h hN s0 s1
  have hwave : |waveValue p c (lutValue p c (n + 1)) x - waveValue p c (explicitRoot p c) x| ≤ E := by
    rcases waveValue_eq (p := p) (c := c) (lutValue p c (n + 1)) x with e1 | e1
    · rcases waveValue_eq (p := p) (c := c) (explicitRoot p c) x with e2 | e2
      · rw [e1, e2]
        have ht0 : 0 ≤ (p.lenL + p.lenR) * Int.fract ((x - p.x0) / (p.lenL + p.lenR)) :=
          mul_nonneg hper.le (Int.fract_nonneg _)
        generalize (p.lenL + p.lenR) * Int.fract ((x - p.x0) / (p.lenL + p.lenR)) = t at *
        have hl := h.left
        have hr := h.right
        unfold waveCell
        simp only
        split_ifs with c1 c2 c3
        · rw [sub_sub_sub_cancel_right]
          exact key _ (by linarith) (by linarith) (by linarith)
        · rw [sub_self, abs_zero]; exact hE0
        · rw [sub_sub_sub_cancel_right, add_sub_add_right_eq_sub, ← mul_sub, abs_mul, abs_neg, abs_one, one_mul]
          exact key _ (by linarith) (by linarith) (by linarith)
        · rw [sub_self, abs_zero]; exact hE0
      · exact absurd e2 hper.ne'
    · exact absurd e1 hper.ne'
  rw [tctBezierAt_eq hc, Except.ok.injEq] at hy hz
  have b1 : bezierValue p c (some (n + 1)) = lutValue p c (n + 1) := rfl
  have b2 : bezierValue p c none = explicitRoot p c := rfl
  rw [b1] at hy
  rw [b2] at hz
  rcases mp with _ | m
  · simp only [tctEntry] at hy hz
    rw [← hy, ← hz]; exact hwave
  · simp only [tctEntry] at hy hz
    rw [← hy, ← hz]
    split_ifs
    all_goals first
      | (rw [sub_self, abs_zero]; exact hE0)
      | exact hwave

/-- C10: the table is exact at both ends of the Bezier segment. -/
theorem C10_lut_exact_at_ends (p : TctParams) (mp : Option ℕ) (c : ℝ × ℝ) (hc : tctCenter p = .ok c)
    (hbl : p.x0 < p.x2) (N : ℕ) (hN : 2 ≤ N) (hmp : mp ≠ some 0) :
    tctBezierAt p (some N) mp p.x0 = .ok p.y0 ∧ tctBezierAt p (some N) mp p.x2 = .ok p.y2 := by
  have h := tctCenter_ok hc
  have hper : 0 < p.lenL + p.lenR := by linarith [h.lenL, h.lenR]
  obtain ⟨l0, l2⟩ := lut_exact h hbl hN
  obtain ⟨n, rfl⟩ : ∃ n, N = n + 1 := ⟨N - 1, by omega⟩
  have hb0 : p.x0 < p.x2 → lutValue p c (n + 1) p.x0 = p.y0 := fun _ => l0
  have hb2 : p.x0 < p.x2 → lutValue p c (n + 1) p.x2 = p.y2 := fun _ => l2
  obtain ⟨v0, v2, -, -⟩ := waveCell_points h hb0 hb2
  have w0 := waveValue_at h hper hb0 hb2 0 le_rfl hper.le
  have w2 := waveValue_at h hper hb0 hb2 0 (t := p.x2 - p.x0) (by linarith) (by linarith [h.lenL, h.lenR])
  rw [v0, Int.cast_zero, zero_mul, add_zero, add_zero, mul_zero, sub_zero] at w0
  rw [v2, Int.cast_zero, zero_mul, add_zero, mul_zero, sub_zero, add_sub_cancel] at w2
  rw [tctBezierAt_eq hc, tctBezierAt_eq hc]
  have b1 : bezierValue p c (some (n + 1)) = lutValue p c (n + 1) := rfl
  rw [b1]
  rcases mp with _ | m
  · simp only [tctEntry]; rw [w0, w2]; exact ⟨rfl, rfl⟩
  · rcases m with _ | k
    · exact absurd rfl hmp
    have hend : p.x2 ≤ waveEnd p (k + 1) := by
      unfold waveEnd
      have : (0 : ℝ) ≤ ((k + 1 : ℕ) : ℝ) - 1 := by push_cast; linarith [k.cast_nonneg (α := ℝ)]
      have := mul_nonneg this hper.le
      linarith
    have i0 : p.x0 ≥ p.x0 ∧ p.x0 ≤ waveEnd p (k + 1) := ⟨le_rfl, by linarith⟩
    have i2 : p.x2 ≥ p.x0 ∧ p.x2 ≤ waveEnd p (k + 1) := ⟨hbl.le, hend⟩
    rw [tctEntry_in i0, tctEntry_in i2, w0, w2]
    exact ⟨rfl, rfl⟩

example := C10_lut_exact_at_ends sampleTct (some 3) (1, 1) sampleTct_center (by norm_num [sampleTct]) 1000 (by norm_num) (by simp)

example : tctCenter sampleTct = .ok (1, 1) ∧ (2 : ℕ) ≤ 1000 ∧ sampleTct.x0 < sampleTct.x2 ∧
    max |sampleTct.gradL| |sampleTct.gradR| * (max ((1 : ℝ) - sampleTct.x0) (sampleTct.x2 - 1) / ((1000 : ℝ) - 1)) =
      2 / 999 := ⟨sampleTct_center, by norm_num, by norm_num [sampleTct], by norm_num [sampleTct]⟩

/-! ### C11 -/

/-- C11: for the `j`-th configured transition, which has `k = maxPeaks + j` peaks, the returned table has `2k-1` rows.
Rotated back, in every row the left and the right anchor lie on the curve returned by `tct_bezier` for the same
parameters and `k` peaks, and the centre anchor is the intersection of the lead transitions on both sides: at a peak
(even row) the left one has the left slope and the right one the right slope, at a valley (odd row) vice versa. -/
theorem C11_anchors (params : List TctParams) (maxPeaks j : ℕ) (rotation : ℝ) (p : TctParams)
    (hp : params[j]? = some p) (hok : ∃ c, tctCenter p = .ok c) (hg : p.gradR < p.gradL)
    (hper : 0 < p.lenL + p.lenR) :
    ∃ rows, allAnchors params maxPeaks rotation (maxPeaks + j) = some rows ∧
      rows.length = 2 * (maxPeaks + j) - 1 ∧
      ∀ i (hi : i < rows.length),
        let L := rotatePoint (-rotation) rows[i].left
        let C := rotatePoint (-rotation) rows[i].center
        let R := rotatePoint (-rotation) rows[i].right
        tctBezierAt p none (some (maxPeaks + j)) L.1 = .ok L.2 ∧
        tctBezierAt p none (some (maxPeaks + j)) R.1 = .ok R.2 ∧
        (i % 2 = 0 → C.2 - L.2 = p.gradL * (C.1 - L.1) ∧ R.2 - C.2 = p.gradR * (R.1 - C.1)) ∧
        (i % 2 = 1 → C.2 - L.2 = p.gradR * (C.1 - L.1) ∧ R.2 - C.2 = p.gradL * (R.1 - C.1)) := by
  obtain ⟨c, hc⟩ := hok
  have h := tctCenter_ok hc
  refine ⟨(anchorsRaw p (maxPeaks + j)).map (Anchor.rotate rotation), ?_, ?_, ?_⟩
  · unfold allAnchors
    rw [if_pos (by omega), Nat.add_sub_cancel_left, hp]; rfl
  · rw [List.length_map, anchorsRaw_eq hg.ne h, List.length_map, List.length_range]; ring_nf
  · intro i hi
    have hrow : ((anchorsRaw p (maxPeaks + j)).map (Anchor.rotate rotation))[i] =
        (rowAnchor p c i).rotate rotation := by
      simp only [anchorsRaw_eq hg.ne h, List.getElem_map, List.getElem_range]
    have hi' : i < (maxPeaks + j) * 2 - 1 := by
      rw [List.length_map, anchorsRaw_eq hg.ne h, List.length_map, List.length_range] at hi; exact hi
    simp only [hrow, Anchor.rotate, rotate_back]
    obtain ⟨e1, e2⟩ := row_on_curve hc hg hper (maxPeaks + j) i hi'
    refine ⟨e1, e2, ?_, ?_⟩
    · intro he
      unfold rowAnchor
      simp only [he, if_true]
      rw [h.y2, h.yc]
      constructor <;> ring
    · intro ho
      unfold rowAnchor
      simp only [ho, one_ne_zero, if_false]
      constructor <;> ring

/-- C11: keys without configured transition are missing (this is what makes the electron occupation raise
`IndexError` when transitions are missing). -/
theorem C11_missing_keys (params : List TctParams) (maxPeaks : ℕ) (rotation : ℝ) (key : ℕ) :
    allAnchors params maxPeaks rotation key = none ↔ key < maxPeaks ∨ maxPeaks + params.length ≤ key := by
  unfold allAnchors
  split_ifs with hk
  · rw [Option.map_eq_none_iff, List.getElem?_eq_none_iff]
    omega
  · simp only [true_iff]; omega

example : [sampleTct][0]? = some sampleTct ∧ (∃ c, tctCenter sampleTct = .ok c) ∧
    sampleTct.gradR < sampleTct.gradL := ⟨rfl, ⟨_, sampleTct_center⟩, by norm_num [sampleTct]⟩

end SimCATS
