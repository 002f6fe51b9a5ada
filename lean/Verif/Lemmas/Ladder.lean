import Verif.Lemmas.Slopes
import Verif.Lemmas.SampledFirst
import Verif.Lemmas.Occupation
import Verif.Props.Tct

/-! Families of transitions that are moved copies of each other. -/

namespace SimCATS

open Spec

variable {p : TctParams} {c : ℝ × ℝ}

/-- The transition with `n + 1` peaks and exact arcs. -/
noncomputable def exactCurve (p : TctParams) (c : ℝ × ℝ) (n : ℕ) (x : ℝ) : ℝ :=
  tctEntry p c (explicitRoot p c) (some (n + 1)) (outsideWave p (some (n + 1)) x) x

theorem exactCurve_slopes (h : CenterOk p c) (hg : p.gradR < p.gradL) (hper : 0 < p.lenL + p.lenR) (n : ℕ) :
    SlopesBetween p.gradR p.gradL (exactCurve p c n) := tctEntry_slopes h hg hper n

theorem exactCurve_eq (h : CenterOk p c) (hg : p.gradR < p.gradL) (hper : 0 < p.lenL + p.lenR) (n : ℕ) (x : ℝ) :
    exactCurve p c n x =
      if x ≤ p.x0 then p.y0 + (x - p.x0) * p.gradL
      else if waveEnd p (n + 1) ≤ x then p.y2 - n * yOffPeriod p c + (x - waveEnd p (n + 1)) * p.gradR
      else waveValue p c (explicitRoot p c) x :=
  tctEntry_eq h hper (explicitRoot_left h hg) (explicitRoot_right h hg) n x _ id

/-! ### Moved transitions -/

theorem CenterOk.shift (h : CenterOk p c) (d : ℝ × ℝ) : CenterOk (p.shift d) (c.1 + d.1, c.2 + d.2) := by
  have h1 := h.left
  have h2 := h.right
  have h3 := h.lenL
  have h4 := h.lenR
  have h5 := h.yc
  have h6 := h.y2
  constructor <;> simp only [TctParams.shift]
  · linarith
  · linarith
  · linarith
  · linarith
  · rw [h5]; ring
  · rw [h6]; ring

theorem explicitRoot_shift (h : CenterOk p c) (hg : p.gradR < p.gradL) (d : ℝ × ℝ) (hlt : p.x0 < p.x2) {u : ℝ}
    (h0 : p.x0 ≤ u) (h2 : u ≤ p.x2) :
    explicitRoot (p.shift d) (c.1 + d.1, c.2 + d.2) (u + d.1) = explicitRoot p c u + d.2 := by
  obtain ⟨s, s0, s1, es⟩ := bezX_surj (c := c) h0 h2
  have e1 := explicitRoot_curve h hg hlt s0 s1
  have e2 := explicitRoot_curve (h.shift d) hg (by simp only [TctParams.shift]; linarith) s0 s1
  have ex : bezCoord (p.shift d).x0 (c.1 + d.1) (p.shift d).x2 s = u + d.1 := by
    rw [← es]; simp only [TctParams.shift, bezCoord]; ring
  have ey : bezCoord (p.shift d).y0 (c.2 + d.2) (p.shift d).y2 s = bezCoord p.y0 c.2 p.y2 s + d.2 := by
    simp only [TctParams.shift, bezCoord]; ring
  simp only at e2
  rw [ex, ey] at e2
  rw [es] at e1
  rw [e1, e2]

theorem waveEnd_shift (d : ℝ × ℝ) (m : ℕ) : waveEnd (p.shift d) m = waveEnd p m + d.1 := by
  simp only [waveEnd, TctParams.shift]; ring

theorem yOffPeriod_shift (d : ℝ × ℝ) : yOffPeriod (p.shift d) (c.1 + d.1, c.2 + d.2) = yOffPeriod p c := by
  simp only [yOffPeriod, yOffInv, TctParams.shift]; ring

theorem waveValue_shift (h : CenterOk p c) (hg : p.gradR < p.gradL) (hper : 0 < p.lenL + p.lenR) (d : ℝ × ℝ) (x : ℝ) :
    waveValue (p.shift d) (c.1 + d.1, c.2 + d.2) (explicitRoot (p.shift d) (c.1 + d.1, c.2 + d.2)) (x + d.1) =
      waveValue p c (explicitRoot p c) x + d.2 := by
  have hm0 : 0 ≤ x - p.x0 - (p.lenL + p.lenR) * (⌊(x - p.x0) / (p.lenL + p.lenR)⌋ : ℤ) := by
    have := Int.floor_le ((x - p.x0) / (p.lenL + p.lenR))
    rw [le_div_iff₀ hper] at this
    linarith
  have hro := explicitRoot_shift h hg d
  have eoi : yOffInv (p.shift d) (c.1 + d.1, c.2 + d.2) = yOffInv p c + 2 * d.2 := by
    simp only [yOffInv, TctParams.shift]; ring
  unfold waveValue
  rw [yOffPeriod_shift, eoi]
  generalize hE : explicitRoot (p.shift d) (c.1 + d.1, c.2 + d.2) = E at hro
  have e1 : p.x2 + d.1 - (p.x0 + d.1) = p.x2 - p.x0 := by ring
  have e2 : x + d.1 - (p.x0 + d.1) = x - p.x0 := by ring
  have e3 : p.x2 + d.1 - (c.1 + d.1) = p.x2 - c.1 := by ring
  simp only [TctParams.shift, e1, e2, e3]
  generalize x - p.x0 - (p.lenL + p.lenR) * (⌊(x - p.x0) / (p.lenL + p.lenR)⌋ : ℤ) = xm at *
  split_ifs with c1 c2 c3
  · rw [show xm + (p.x0 + d.1) = (xm + p.x0) + d.1 by ring, hro (by linarith) (by linarith) (by linarith)]; ring
  · ring
  · rw [show 2 * (p.x2 - p.x0) + (p.lenR - 2 * (p.x2 - c.1)) - xm + (p.x0 + d.1) =
      (2 * (p.x2 - p.x0) + (p.lenR - 2 * (p.x2 - c.1)) - xm + p.x0) + d.1 by ring,
      hro (by linarith) (by linarith) (by linarith)]
    ring
  · ring

theorem exactCurve_shift (h : CenterOk p c) (hg : p.gradR < p.gradL) (hper : 0 < p.lenL + p.lenR) (n : ℕ) (d : ℝ × ℝ) (x : ℝ) :
    exactCurve (p.shift d) (c.1 + d.1, c.2 + d.2) n (x + d.1) = exactCurve p c n x + d.2 := by
  rw [exactCurve_eq h hg hper, exactCurve_eq (h.shift d) (p := p.shift d) hg hper, waveEnd_shift, yOffPeriod_shift,
    waveValue_shift h hg hper]
  simp only [TctParams.shift, add_le_add_iff_right]
  split_ifs <;> ring

/-! ### More peaks -/

theorem waveEnd_mono (hper : 0 < p.lenL + p.lenR) (n : ℕ) : waveEnd p (n + 1) ≤ waveEnd p (n + 1 + 1) := by
  unfold waveEnd
  push_cast
  linarith

theorem x0_le_waveEnd (h : CenterOk p c) (hper : 0 < p.lenL + p.lenR) (n : ℕ) : p.x0 ≤ waveEnd p (n + 1) := by
  rw [waveEnd_eq]
  have : (0 : ℝ) ≤ (n : ℝ) * (p.lenL + p.lenR) := by positivity
  have := h.left
  have := h.right
  push_cast
  linarith

/-- Left of the last peak, another peak makes no difference. -/
theorem exactCurve_succ_left (h : CenterOk p c) (hper : 0 < p.lenL + p.lenR) (n : ℕ)
    {x : ℝ} (hx : x ≤ waveEnd p (n + 1)) : exactCurve p c (n + 1) x = exactCurve p c n x := by
  have hx' := hx.trans (waveEnd_mono hper n)
  unfold exactCurve
  rcases lt_or_ge x p.x0 with h0 | h0
  · rw [tctEntry_left h0 (x0_le_waveEnd h hper _), tctEntry_left h0 (x0_le_waveEnd h hper _)]
  · rw [tctEntry_in ⟨h0, hx⟩, tctEntry_in ⟨h0, hx'⟩]

theorem exactCurve_right (h : CenterOk p c) (hg : p.gradR < p.gradL) (hper : 0 < p.lenL + p.lenR) (n : ℕ)
    {x : ℝ} (hx : waveEnd p (n + 1) ≤ x) :
    exactCurve p c n x = exactCurve p c n (waveEnd p (n + 1)) + (x - waveEnd p (n + 1)) * p.gradR := by
  have hl := x0_le_waveEnd h hper n
  have key : ∀ y, waveEnd p (n + 1) ≤ y → p.x0 < y →
      exactCurve p c n y = p.y2 - n * yOffPeriod p c + (y - waveEnd p (n + 1)) * p.gradR := by
    intro y hy hy0
    rw [exactCurve_eq h hg hper, if_neg (not_le.2 hy0), if_pos hy]
  rcases eq_or_lt_of_le hl with he | hlt
  · rcases eq_or_lt_of_le hx with rfl | hx'
    · ring
    · rw [key x hx (by linarith), ← he, exactCurve_eq h hg hper n p.x0, if_pos le_rfl]
      have hn : (n : ℝ) * (p.lenL + p.lenR) = 0 ∧ p.x2 = p.x0 := by
        rw [waveEnd_eq] at he
        have a : (0 : ℝ) ≤ (n : ℝ) * (p.lenL + p.lenR) := by positivity
        have := h.left
        have := h.right
        push_cast at he
        constructor <;> linarith
      have hn0 : (n : ℝ) = 0 := by
        rcases mul_eq_zero.1 hn.1 with h0 | h0
        · exact h0
        · linarith
      have hy : p.y2 = p.y0 := by
        have hc : c.1 = p.x0 := le_antisymm (hn.2 ▸ h.right) h.left
        rw [h.y2, h.yc, hc, hn.2]; ring
      rw [hn0, hy]; ring
  · rw [key x hx (by linarith), key _ le_rfl hlt]
    ring

theorem exactCurve_succ_ge (h : CenterOk p c) (hg : p.gradR < p.gradL) (hper : 0 < p.lenL + p.lenR) (n : ℕ) (x : ℝ) :
    exactCurve p c n x ≤ exactCurve p c (n + 1) x := by
  rcases le_total x (waveEnd p (n + 1)) with hx | hx
  · rw [exactCurve_succ_left h hper n hx]
  · rw [exactCurve_right h hg hper n hx, ← exactCurve_succ_left h hper n le_rfl]
    have := (exactCurve_slopes h hg hper (n + 1)).le hx
    linarith

theorem exactCurve_succ_le (h : CenterOk p c) (hg : p.gradR < p.gradL) (hper : 0 < p.lenL + p.lenR) (n : ℕ) (x : ℝ) :
    exactCurve p c (n + 1) x ≤ exactCurve p c n x + (p.gradL - p.gradR) * max 0 (x - waveEnd p (n + 1)) := by
  rcases le_total x (waveEnd p (n + 1)) with hx | hx
  · rw [exactCurve_succ_left h hper n hx, max_eq_left (by linarith)]; linarith
  · rw [exactCurve_right h hg hper n hx, ← exactCurve_succ_left h hper n le_rfl, max_eq_right (by linarith)]
    have := (exactCurve_slopes h hg hper (n + 1)).ge hx
    linarith

end SimCATS
