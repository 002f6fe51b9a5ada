import Verif.Lemmas.Tct
import Verif.Spec.Slopes

/-! Slopes of the charge transitions. -/

namespace SimCATS

open Spec

variable {p : TctParams} {c : ℝ × ℝ}

theorem Spec.SlopesBetween.le {a b : ℝ} {f : ℝ → ℝ} (h : SlopesBetween a b f) {x y : ℝ} (hxy : x ≤ y) :
    a * (y - x) ≤ f y - f x := (h x y hxy).1

theorem Spec.SlopesBetween.ge {a b : ℝ} {f : ℝ → ℝ} (h : SlopesBetween a b f) {x y : ℝ} (hxy : x ≤ y) :
    f y - f x ≤ b * (y - x) := (h x y hxy).2

/-- The exact Bezier arc has slopes between those of its tangents. -/
theorem explicitRoot_slopes (h : CenterOk p c) (hg : p.gradR < p.gradL) (hbl : p.x0 < p.x2) {x y : ℝ} (h0 : p.x0 ≤ x)
    (hxy : x ≤ y) (h2 : y ≤ p.x2) :
    p.gradR * (y - x) ≤ explicitRoot p c y - explicitRoot p c x ∧
      explicitRoot p c y - explicitRoot p c x ≤ p.gradL * (y - x) := by
  rcases eq_or_lt_of_le hxy with rfl | hlt
  · simp
  obtain ⟨s, s0, s1, es⟩ := bezX_surj (c := c) h0 (hxy.trans h2)
  obtain ⟨t, t0, t1, et⟩ := bezX_surj (c := c) (h0.trans hxy) h2
  have hs := explicitRoot_curve h hg hbl s0 s1
  have ht := explicitRoot_curve h hg hbl t0 t1
  rw [es] at hs
  rw [et] at ht
  obtain ⟨e1, e2⟩ := bezX_diff h s t
  rw [es, et] at e1
  rw [hs, ht, e2, e1]
  have hu := sub_nonneg.2 h.left
  have hv := sub_nonneg.2 h.right
  have ha : 0 ≤ (2 - s - t) * (c.1 - p.x0) := mul_nonneg (by linarith) hu
  have hb : 0 ≤ (s + t) * (p.x2 - c.1) := mul_nonneg (by linarith) hv
  have hst : 0 ≤ t - s := by
    by_contra hn
    have := mul_nonneg (neg_nonneg.2 (le_of_not_ge hn)) (add_nonneg ha hb)
    linarith
  generalize (2 - s - t) * (c.1 - p.x0) = a at *
  generalize (s + t) * (p.x2 - c.1) = b at *
  constructor
  · have : 0 ≤ (t - s) * (a * (p.gradL - p.gradR)) := mul_nonneg hst (mul_nonneg ha (by linarith))
    linarith
  · have : 0 ≤ (t - s) * (b * (p.gradL - p.gradR)) := mul_nonneg hst (mul_nonneg hb (by linarith))
    linarith

/-- Slopes within one period. -/
theorem waveCell_slopes (h : CenterOk p c) (hg : p.gradR < p.gradL) {s t : ℝ} (hs : 0 ≤ s) (hst : s ≤ t) :
    p.gradR * (t - s) ≤ waveCell p c (explicitRoot p c) t - waveCell p c (explicitRoot p c) s ∧
      waveCell p c (explicitRoot p c) t - waveCell p c (explicitRoot p c) s ≤ p.gradL * (t - s) := by
  have hb0 : p.x0 < p.x2 → explicitRoot p c p.x0 = p.y0 := explicitRoot_left h hg
  have hb2 : p.x0 < p.x2 → explicitRoot p c p.x2 = p.y2 := explicitRoot_right h hg
  rw [waveCell_eq_sum h hb0 hb2 hs, waveCell_eq_sum h hb0 hb2 (hs.trans hst)]
  have hrl : 0 ≤ p.lenR - 2 * (p.x2 - c.1) := by linarith [h.lenR]
  have hbl : 0 ≤ p.x2 - p.x0 := by linarith [h.left, h.right]
  generalize p.lenR - 2 * (p.x2 - c.1) = rl at *
  set bl := p.x2 - p.x0 with hbldef
  -- the four pieces add up to the identity
  have hid : ∀ u : ℝ, 0 ≤ u → min u bl + max 0 (min (u - bl - rl) bl) + max 0 (min (u - bl) rl) +
      max 0 (u - (bl * 2 + rl)) = u := by
    intro u hu
    rcases le_total u bl with h1 | h1
    · rw [min_eq_left h1, min_eq_left (by linarith), max_eq_left (by linarith), min_eq_left (by linarith),
        max_eq_left (by linarith), max_eq_left (by linarith)]; ring
    rcases le_total u (bl + rl) with h2 | h2
    · rw [min_eq_right h1, min_eq_left (by linarith), max_eq_left (by linarith), min_eq_left (by linarith),
        max_eq_right (by linarith), max_eq_left (by linarith)]; ring
    rcases le_total u (bl * 2 + rl) with h3 | h3
    · rw [min_eq_right h1, min_eq_left (by linarith), max_eq_right (by linarith), min_eq_right (by linarith),
        max_eq_right (by linarith), max_eq_left (by linarith)]; ring
    · rw [min_eq_right h1, min_eq_right (by linarith), max_eq_right (by linarith), min_eq_right (by linarith),
        max_eq_right (by linarith), max_eq_right (by linarith)]; ring
  have i1 := hid s hs
  have i2 := hid t (hs.trans hst)
  have d1 : min s bl ≤ min t bl := min_le_min_right _ hst
  have d2 : max 0 (min (s - bl - rl) bl) ≤ max 0 (min (t - bl - rl) bl) :=
    max_le_max_left _ (min_le_min_right _ (by linarith))
  have d3 : max 0 (min (s - bl) rl) ≤ max 0 (min (t - bl) rl) := max_le_max_left _ (min_le_min_right _ (by linarith))
  have d4 : max 0 (s - (bl * 2 + rl)) ≤ max 0 (t - (bl * 2 + rl)) := max_le_max_left _ (by linarith)
  have a1 : 0 ≤ min s bl := le_min hs hbl
  have a2 : min t bl ≤ bl := min_le_right _ _
  have a3 : 0 ≤ max 0 (min (s - bl - rl) bl) := le_max_left _ _
  have a4 : max 0 (min (t - bl - rl) bl) ≤ bl := max_le hbl (min_le_right _ _)
  generalize min s bl = m1 at *
  generalize min t bl = m1' at *
  generalize max 0 (min (s - bl - rl) bl) = m2 at *
  generalize max 0 (min (t - bl - rl) bl) = m2' at *
  generalize max 0 (min (s - bl) rl) = m3 at *
  generalize max 0 (min (t - bl) rl) = m3' at *
  generalize max 0 (s - (bl * 2 + rl)) = m4 at *
  generalize max 0 (t - (bl * 2 + rl)) = m4' at *
  have g3 : 0 ≤ (p.gradL - p.gradR) * (m3' - m3) := mul_nonneg (by linarith) (by linarith)
  have g4 : 0 ≤ (p.gradL - p.gradR) * (m4' - m4) := mul_nonneg (by linarith) (by linarith)
  have e : t - s = (m1' - m1) + (m2' - m2) + (m3' - m3) + (m4' - m4) := by linarith
  rw [e]
  by_cases hlt : p.x0 < p.x2
  · rw [if_pos hlt, if_pos hlt]
    obtain ⟨u1, u2⟩ := explicitRoot_slopes h hg hlt (x := m1 + p.x0) (y := m1' + p.x0) (by linarith) (by linarith)
      (by linarith)
    obtain ⟨v1, v2⟩ := explicitRoot_slopes h hg hlt (x := p.x2 - m2') (y := p.x2 - m2) (by linarith) (by linarith)
      (by linarith)
    constructor <;> linarith
  · rw [if_neg hlt, if_neg hlt]
    have hz : bl = 0 := by linarith
    have z1 : m1' = m1 := by linarith
    have z2 : m2' = m2 := by linarith
    rw [z1, z2]
    constructor <;> linarith

/-- Gluing at one point. -/
theorem slopes_glue {a b m : ℝ} {f : ℝ → ℝ}
    (hl : ∀ x y, x ≤ y → y ≤ m → a * (y - x) ≤ f y - f x ∧ f y - f x ≤ b * (y - x))
    (hr : ∀ x y, m ≤ x → x ≤ y → a * (y - x) ≤ f y - f x ∧ f y - f x ≤ b * (y - x)) : SlopesBetween a b f := by
  intro x y hxy
  rcases le_total y m with hy | hy
  · exact hl x y hxy hy
  · rcases le_total m x with hx | hx
    · exact hr x y hx hxy
    · obtain ⟨p1, p2⟩ := hl x m hx le_rfl
      obtain ⟨q1, q2⟩ := hr m y le_rfl hy
      constructor <;> linarith

/-- Slopes of the periodic part. -/
theorem waveValue_slopes (h : CenterOk p c) (hg : p.gradR < p.gradL) (hper : 0 < p.lenL + p.lenR) :
    SlopesBetween p.gradR p.gradL (waveValue p c (explicitRoot p c)) := by
  have hb0 : p.x0 < p.x2 → explicitRoot p c p.x0 = p.y0 := explicitRoot_left h hg
  have hb2 : p.x0 < p.x2 → explicitRoot p c p.x2 = p.y2 := explicitRoot_right h hg
  set f := waveValue p c (explicitRoot p c) with hf
  set T := p.lenL + p.lenR with hT
  -- within one period
  have hcell : ∀ (k : ℤ) (x y : ℝ), p.x0 + k * T ≤ x → x ≤ y → y ≤ p.x0 + (k + 1 : ℤ) * T →
      p.gradR * (y - x) ≤ f y - f x ∧ f y - f x ≤ p.gradL * (y - x) := by
    intro k x y h1 h2 h3
    push_cast at h3
    have ex := waveValue_at h hper hb0 hb2 k (t := x - p.x0 - k * T) (by linarith) (by linarith)
    have ey := waveValue_at h hper hb0 hb2 k (t := y - p.x0 - k * T) (by linarith) (by linarith)
    rw [← hT, show p.x0 + k * T + (x - p.x0 - k * T) = x by ring] at ex
    rw [← hT, show p.x0 + k * T + (y - p.x0 - k * T) = y by ring] at ey
    rw [← hf] at ex ey
    obtain ⟨u, v⟩ := waveCell_slopes h hg (s := x - p.x0 - k * T) (t := y - p.x0 - k * T) (by linarith) (by linarith)
    rw [ex, ey]
    rw [show y - p.x0 - k * T - (x - p.x0 - k * T) = y - x by ring] at u v
    constructor <;> linarith
  -- several periods
  have hmany : ∀ (n : ℕ) (k : ℤ) (x y : ℝ), p.x0 + k * T ≤ x → x ≤ y → y ≤ p.x0 + (k + n + 1 : ℤ) * T →
      p.gradR * (y - x) ≤ f y - f x ∧ f y - f x ≤ p.gradL * (y - x) := by
    intro n
    induction n with
    | zero => intro k x y h1 h2 h3; exact hcell k x y h1 h2 (by simpa using h3)
    | succ n ih =>
      intro k x y h1 h2 h3
      push_cast at h3
      rcases le_total y (p.x0 + (k + 1) * T) with hy | hy
      · exact hcell k x y h1 h2 (by push_cast; exact hy)
      · rcases le_total (p.x0 + (k + 1) * T) x with hx | hx
        · exact ih (k + 1) x y (by push_cast; exact hx) h2 (by push_cast; linarith)
        · obtain ⟨a1, a2⟩ := hcell k x (p.x0 + (k + 1) * T) h1 hx (by push_cast; exact le_rfl)
          obtain ⟨b1, b2⟩ := ih (k + 1) (p.x0 + (k + 1) * T) y (by push_cast; exact le_rfl) hy (by push_cast; linarith)
          constructor <;> linarith
  intro x y hxy
  set k := ⌊(x - p.x0) / T⌋ with hk
  set m := ⌊(y - p.x0) / T⌋ with hm
  have h1 : (k : ℝ) * T ≤ x - p.x0 := by
    have := Int.floor_le ((x - p.x0) / T); rwa [le_div_iff₀ hper] at this
  have h2 : y - p.x0 < (m + 1) * T := by
    have := Int.lt_floor_add_one ((y - p.x0) / T); rwa [div_lt_iff₀ hper] at this
  have hkm : k ≤ m := Int.floor_le_floor ((div_le_div_iff_of_pos_right hper).2 (by linarith))
  obtain ⟨n, hn⟩ := Int.eq_ofNat_of_zero_le (sub_nonneg.2 hkm)
  refine hmany n k x y (by linarith) hxy ?_
  have : ((k + n : ℤ) : ℝ) = m := by rw [← Int.cast_natCast n] ; exact_mod_cast (by omega : k + (n : ℤ) = m)
  push_cast at this ⊢
  rw [this]; linarith

/-- Slopes of a whole charge transition with exact Bezier arcs. -/
theorem tctEntry_slopes (h : CenterOk p c) (hg : p.gradR < p.gradL) (hper : 0 < p.lenL + p.lenR) (n : ℕ) :
    SlopesBetween p.gradR p.gradL fun x =>
      tctEntry p c (explicitRoot p c) (some (n + 1)) (outsideWave p (some (n + 1)) x) x := by
  have hb0 : p.x0 < p.x2 → explicitRoot p c p.x0 = p.y0 := explicitRoot_left h hg
  have hb2 : p.x0 < p.x2 → explicitRoot p c p.x2 = p.y2 := explicitRoot_right h hg
  have hw := waveValue_slopes h hg hper
  obtain ⟨v0, v2, -, -⟩ := waveCell_points h hb0 hb2
  have hble : 0 ≤ p.x2 - p.x0 := by linarith [h.left, h.right]
  have hbT : p.x2 - p.x0 ≤ p.lenL + p.lenR := by linarith [h.lenR, h.lenL]
  have w0 : waveValue p c (explicitRoot p c) p.x0 = p.y0 := by
    have := waveValue_at h hper hb0 hb2 0 le_rfl hper.le
    simpa [v0] using this
  have w2 : waveValue p c (explicitRoot p c) (waveEnd p (n + 1)) = p.y2 - n * yOffPeriod p c := by
    rw [waveEnd_eq, waveValue_at h hper hb0 hb2 n hble hbT, v2]; push_cast; ring
  have hlh : p.x0 ≤ waveEnd p (n + 1) := by
    rw [waveEnd_eq]
    have : (0 : ℝ) ≤ ((n : ℤ) : ℝ) * (p.lenL + p.lenR) := by positivity
    linarith
  have e : ∀ x, tctEntry p c (explicitRoot p c) (some (n + 1)) (outsideWave p (some (n + 1)) x) x =
      if x ≤ p.x0 then p.y0 + (x - p.x0) * p.gradL
      else if waveEnd p (n + 1) ≤ x then p.y2 - n * yOffPeriod p c + (x - waveEnd p (n + 1)) * p.gradR
      else waveValue p c (explicitRoot p c) x := fun x => tctEntry_eq h hper hb0 hb2 n x _ id
  have eL : ∀ x, x ≤ p.x0 → tctEntry p c (explicitRoot p c) (some (n + 1)) (outsideWave p (some (n + 1)) x) x =
      p.y0 + (x - p.x0) * p.gradL := fun x hx => by rw [e, if_pos hx]
  have eM : ∀ x, p.x0 ≤ x → x ≤ waveEnd p (n + 1) →
      tctEntry p c (explicitRoot p c) (some (n + 1)) (outsideWave p (some (n + 1)) x) x =
      waveValue p c (explicitRoot p c) x := fun x h1 h2 => by rw [tctEntry_in ⟨h1, h2⟩]
  have eR : ∀ x, waveEnd p (n + 1) ≤ x →
      tctEntry p c (explicitRoot p c) (some (n + 1)) (outsideWave p (some (n + 1)) x) x =
      p.y2 - n * yOffPeriod p c + (x - waveEnd p (n + 1)) * p.gradR := fun x hx => by
    rcases eq_or_lt_of_le hx with rfl | hlt
    · rw [eM _ hlh le_rfl, w2]; ring
    · rw [e, if_neg (by linarith), if_pos hx]
  have hwide : ∀ x y, x ≤ y → (p.gradR : ℝ) * (y - x) ≤ p.gradL * (y - x) := fun x y hxy =>
    mul_le_mul_of_nonneg_right hg.le (by linarith)
  refine slopes_glue (m := p.x0) ?_ ?_
  · intro x y hxy hy
    rw [eL x (hxy.trans hy), eL y hy]
    have := hwide x y hxy
    constructor <;> linarith
  · intro x y hx hxy
    rcases le_total y (waveEnd p (n + 1)) with hy | hy
    · rw [eM x hx (hxy.trans hy), eM y (hx.trans hxy) hy]
      exact hw x y hxy
    · have := hwide _ _ hy
      rcases le_total (waveEnd p (n + 1)) x with hx' | hx'
      · rw [eR x hx', eR y hy]
        have := hwide x y hxy
        constructor <;> linarith
      · rw [eM x hx hx', eR y hy, ← w2]
        obtain ⟨a1, a2⟩ := hw x _ hx'
        constructor <;> linarith

end SimCATS
