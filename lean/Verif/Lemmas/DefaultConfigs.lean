import Mathlib.Tactic.IntervalCases
import Verif.Model.DefaultConfigs
import Verif.Lemmas.AddTcts

/-! The transitions of the default configurations. -/

namespace SimCATS

open Spec

/-- The intersection of the two lines of a transition. -/
noncomputable def lineCenter (p : TctParams) : ℝ × ℝ :=
  ((p.y0 - p.y2 + p.x2 * p.gradR - p.x0 * p.gradL) / (p.gradR - p.gradL),
    p.y0 + p.gradL * ((p.y0 - p.y2 + p.x2 * p.gradR - p.x0 * p.gradL) / (p.gradR - p.gradL) - p.x0))

/-- Anchors that the assertions of `tct_bezier` accept. -/
structure LineOk (p : TctParams) : Prop where
  grad : p.gradR < p.gradL
  per : 0 < p.lenL + p.lenR
  left : p.x0 ≤ (lineCenter p).1
  right : (lineCenter p).1 ≤ p.x2
  lenL : 2 * ((lineCenter p).1 - p.x0) ≤ p.lenL
  lenR : 2 * (p.x2 - (lineCenter p).1) ≤ p.lenR

theorem LineOk.center {p : TctParams} (h : LineOk p) : CenterOk p (lineCenter p) := by
  refine ⟨h.left, h.right, h.lenL, h.lenR, rfl, ?_⟩
  have hg : p.gradR - p.gradL ≠ 0 := by linarith [h.grad]
  unfold lineCenter
  field_simp
  ring

theorem LineOk.tctCenter {p : TctParams} (h : LineOk p) : tctCenter p = .ok (lineCenter p) := tctCenter_of h.grad.ne h.center

theorem default_lineOk : ∀ p ∈ defaultTcts, LineOk p := by
  unfold defaultTcts
  simp only [List.mem_cons, List.not_mem_nil, or_false, forall_eq_or_imp, forall_eq]
  refine ⟨?_, ?_, ?_, ?_, ?_, ?_, ?_, ?_, ?_, ?_, ?_, ?_, ?_, ?_⟩ <;> constructor <;> norm_num [lineCenter]

theorem default_bounds : ∀ p ∈ defaultTcts, p.gradL ≤ 0.43 ∧ -0.43 ≤ p.gradR ∧ p.x2 - p.x0 ≤ 0.006 := by
  unfold defaultTcts
  simp only [List.mem_cons, List.not_mem_nil, or_false, forall_eq_or_imp, forall_eq]
  refine ⟨?_, ?_, ?_, ?_, ?_, ?_, ?_, ?_, ?_, ?_, ?_, ?_, ?_, ?_⟩ <;> norm_num

theorem default_low : ∀ p ∈ defaultTcts, p.x0 ≤ -0.02 ∧ -0.19 ≤ p.y0 + 0.43 * p.x0 := by
  unfold defaultTcts
  simp only [List.mem_cons, List.not_mem_nil, or_false, forall_eq_or_imp, forall_eq]
  refine ⟨?_, ?_, ?_, ?_, ?_, ?_, ?_, ?_, ?_, ?_, ?_, ?_, ?_, ?_⟩ <;> norm_num

theorem default_refLine : ∀ k p q, defaultTcts[k + 1]? = some q → defaultTcts[k]? = some p →
    (lineCenter p).2 < (lineCenter q).2 + q.lenR * q.gradR := by
  intro k p q hq hp
  have hk : k + 1 < 14 := (List.getElem?_eq_some_iff.1 hq).1
  unfold defaultTcts at hq hp
  have hk' : k < 13 := by omega
  clear hk
  interval_cases k <;> simp only [List.getElem?_cons_succ, List.getElem?_cons_zero, Option.some.injEq, zero_add, Nat.reduceAdd] at hq hp <;> subst hq hp <;>
    norm_num [lineCenter]

theorem default_cfgOk : CfgOk defaultIdeal := by
  refine ⟨fun p hp => ?_, by simp [defaultIdeal], by simp [defaultIdeal], by simp [defaultIdeal], ?_⟩
  · have h := default_lineOk p hp
    exact ⟨⟨_, h.tctCenter⟩, h.grad, h.per⟩
  · intro k upper rows valley peak hu hr hv hp
    cases k with
    | zero => simp [allAnchors] at hr
    | succ k =>
      simp only [allAnchors, defaultIdeal, Nat.le_add_left, if_true, Nat.add_sub_cancel, Option.map_eq_some_iff] at hu hr
      obtain ⟨q, hq, rfl⟩ := hu
      obtain ⟨q', hq', rfl⟩ := hr
      have l1 := default_lineOk q (List.mem_of_getElem? hq)
      have l2 := default_lineOk q' (List.mem_of_getElem? hq')
      rw [anchorsRaw_eq l1.grad.ne l1.center, List.map_map, List.getElem?_map] at hv
      rw [anchorsRaw_eq l2.grad.ne l2.center, List.map_map, List.getElem?_map] at hp
      rw [List.getElem?_range (by omega)] at hv hp
      simp only [Option.map_some, Function.comp, Option.some.injEq] at hv hp
      subst hv hp
      intro he
      simp only [Anchor.rotate] at he
      have h1 := congrArg Prod.snd (rotatePoint_injective _ he)
      have h2 := default_refLine k q' q hq hq'
      simp [rowAnchor] at h1
      linarith

/-- The last transition. -/
noncomputable def defaultLast : TctParams :=
  ⟨0.01075474, 0.01549732, 0.01795249, -0.01608112, -0.21225816, -0.09116864, -0.20653105, -0.09108656⟩

theorem defaultLast_mem : defaultTcts[13]? = some defaultLast := by
  unfold defaultTcts defaultLast
  simp only [List.getElem?_cons_succ, List.getElem?_cons_zero]

theorem defaultLast_ok : LineOk defaultLast := default_lineOk _ (List.mem_of_getElem? defaultLast_mem)

/-- The value of the last transition next to the upper right corner of the voltage range. -/
theorem exactLast_point : exactCurve defaultLast (lineCenter defaultLast) 13 (-0.02849374) ≤ -0.0915616 ∧
    -0.0915617 ≤ exactCurve defaultLast (lineCenter defaultLast) 13 (-0.02849374) := by
  have ok := defaultLast_ok
  have hc := ok.center
  have e : (-0.02849374 : ℝ) = defaultLast.x0 + ((7 : ℤ) : ℝ) * (defaultLast.lenL + defaultLast.lenR) + 0 := by
    norm_num [defaultLast]
  have hb0 := explicitRoot_left hc ok.grad
  have hb2 := explicitRoot_right hc ok.grad
  rw [exactCurve_eq hc ok.grad ok.per, if_neg (by norm_num [defaultLast]), if_neg (by norm_num [defaultLast, waveEnd]), e,
    waveValue_at hc ok.per hb0 hb2 7 le_rfl ok.per.le, (waveCell_points hc hb0 hb2).1]
  have hy := yOffPeriod_eq hc
  have hy' : yOffPeriod defaultLast (lineCenter defaultLast) = -(defaultLast.lenL * defaultLast.gradL + defaultLast.lenR * defaultLast.gradR) := by
    linarith
  rw [hy']
  norm_num [defaultLast]

/-- The last transition as computed with the lookup table. -/
theorem default_last {curves : List (ℝ → ℝ)} (hc : IsCurves defaultIdeal.lut 1 defaultIdeal.params curves) :
    ∃ pre f, curves = pre ++ [f] ∧ ∀ x, f x ≤ -0.0915614 + 0.01796 * |x + 0.02849374| ∧ -0.0915619 - 0.01796 * |x + 0.02849374| ≤ f x := by
  have hl : curves.length = 14 := hc.length
  have hne : curves ≠ [] := by intro h0; rw [h0] at hl; simp at hl
  refine ⟨curves.dropLast, curves.getLast hne, (List.dropLast_append_getLast hne).symm, ?_⟩
  have hf : curves[13]? = some (curves.getLast hne) := by
    rw [← List.getLast?_eq_some_getLast hne, List.getLast?_eq_getElem?, hl]
  obtain ⟨q, hq, hx⟩ := hc.getElem? hf
  have hq' : defaultTcts[13]? = some q := hq
  rw [defaultLast_mem] at hq'
  cases hq'
  intro x
  have ok := defaultLast_ok
  have hz : tctBezierAt defaultLast none (some (13 + 1)) x = .ok (exactCurve defaultLast (lineCenter defaultLast) 13 x) :=
    tctBezierAt_eq ok.tctCenter none _ x
  have he := C10_lut_error _ _ _ ok.tctCenter ok.grad ok.per 1000 (by norm_num) x _ _ (hx x) hz
  have he' : |curves.getLast hne x - exactCurve defaultLast (lineCenter defaultLast) 13 x| ≤ 0.0000001 := by
    refine he.trans ?_
    have m1 : max |defaultLast.gradL| |defaultLast.gradR| ≤ 0.018 := by
      apply max_le <;> rw [abs_le] <;> norm_num [defaultLast]
    have m2 : max ((lineCenter defaultLast).1 - defaultLast.x0) (defaultLast.x2 - (lineCenter defaultLast).1) ≤ 0.0052 := by
      apply max_le <;> norm_num [defaultLast, lineCenter]
    have m3 : 0 ≤ max ((lineCenter defaultLast).1 - defaultLast.x0) (defaultLast.x2 - (lineCenter defaultLast).1) :=
      le_max_of_le_left (by linarith [ok.left])
    have m4 := mul_le_mul m1 m2 m3 (by norm_num)
    norm_num at m4 ⊢
    rw [← mul_div_assoc, div_le_iff₀ (by norm_num)]
    linarith
  obtain ⟨p1, p2⟩ := exactLast_point
  have hs := exactCurve_slopes ok.center ok.grad ok.per 13
  have g1 : defaultLast.gradR = -0.01608112 := rfl
  have g2 : defaultLast.gradL = 0.01795249 := rfl
  rw [g1, g2] at hs
  obtain ⟨e1, e2⟩ := abs_le.1 he'
  rcases le_total (-0.02849374) x with h | h
  · have a1 := hs.le h
    have a2 := hs.ge h
    rw [abs_of_nonneg (by linarith)]
    norm_num at a1 a2 p1 p2 e1 e2 h ⊢
    constructor <;> linarith
  · have a1 := hs.le h
    have a2 := hs.ge h
    rw [abs_of_nonpos (by linarith)]
    norm_num at a1 a2 p1 p2 e1 e2 h ⊢
    constructor <;> linarith

end SimCATS
