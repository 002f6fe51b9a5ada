import Verif.Props.Interdot
import Verif.Props.Geometry
import Verif.Props.GeometrySampler

/-! Property C63 for sampled configurations, in terms of gate voltages. -/

namespace SimCATS
open Spec

variable {p : TctParams} {v : ℝ × ℝ}

theorem rightOf_rotate (t : ℝ) (P V a : ℝ × ℝ) :
    rightOf (rotatePoint t P) (rotatePoint t V) (rotatePoint t a) = rightOf P V a := by
  unfold rightOf
  rw [C12_rotate_area, C12_rotate_isometry]

/-- Difference of two positions. -/
theorem rightOf_sub (M I a b : ℝ × ℝ) : rightOf M (M.1 + I.1, M.2 + I.2) b - rightOf M (M.1 + I.1, M.2 + I.2) a =
    (I.2 * (b.1 - a.1) - I.1 * (b.2 - a.2)) / Spec.dist (0, 0) I := by
  unfold rightOf
  have e : Spec.dist (M.1 + I.1, M.2 + I.2) M = Spec.dist (0, 0) I := by
    unfold Spec.dist
    congr 1
    ring
  rw [e]
  unfold area2
  ring

theorem ladder_interdots (h : SampledFirst p v) {n k : ℕ} (h0 : 0 < k) {rot : ℝ} {P V : ℝ × ℝ} {T : Fin k → Anchor}
    (hI : Interdots (allAnchors (ladder p v n) 1 rot) k P V T) :
    ∃ M, P = rotatePoint rot M ∧ V = rotatePoint rot (M.1 + (interdot p v).1, M.2 + (interdot p v).2) ∧
      ∀ j, ∃ L, (T j).left = rotatePoint rot L ∧ (T j).right = rotatePoint rot (L.1 + (p.x2 - p.x0), L.2 + (p.y2 - p.y0)) := by
  obtain ⟨⟨up, a, hu, hv, rfl⟩, ⟨rows, b, hr, hp, rfl⟩, rows', hr', ht⟩ := hI
  obtain rfl : rows = rows' := by rw [hr] at hr'; exact Option.some.inj hr'
  obtain ⟨k, rfl⟩ : ∃ m, k = m + 1 := ⟨k - 1, by omega⟩
  simp only [allAnchors, Nat.le_add_left, if_true, Nat.add_sub_cancel, Option.map_eq_some_iff] at hu hr
  obtain ⟨q, hq, rfl⟩ := hu
  obtain ⟨q', hq', rfl⟩ := hr
  have hk : k + 1 < n := by
    have := (List.getElem?_eq_some_iff.1 hq).1
    rwa [ladder_length] at this
  rw [ladder_getElem? p v hk] at hq
  rw [ladder_getElem? p v (by omega)] at hq'
  cases hq
  cases hq'
  rw [anchorsRaw_eq (p := moved p v (k + 1)) (ne_of_lt h.grad) (h.center_moved (k + 1)), List.map_map,
    List.getElem?_map] at hv
  simp only [anchorsRaw_eq (p := moved p v k) (ne_of_lt h.grad) (h.center_moved k), List.map_map,
    List.getElem?_map] at hp ht
  rw [List.getElem?_range (by omega)] at hv hp
  simp only [Option.map_some, Option.some.injEq] at hv hp
  subst hv hp
  refine ⟨midAnchor (moved p v k), ?_, ?_, fun j => ?_⟩
  · simp [Anchor.rotate, rowAnchor]
  · simp only [Function.comp, Anchor.rotate, rowAnchor]
    norm_num
    congr 1
    simp only [midAnchor, moved, interdot, Prod.mk.injEq]
    push_cast
    constructor <;> ring
  · have hj := ht j
    rw [List.getElem?_range (by have := j.2; omega)] at hj
    simp only [Option.map_some, Option.some.injEq, Function.comp, Anchor.rotate, rowAnchor] at hj
    rw [if_pos (by omega)] at hj
    rw [← hj]
    refine ⟨_, rfl, ?_⟩
    simp only [moved]
    congr 1
    simp only [Prod.mk.injEq]
    constructor <;> ring

/-- In sampled configurations every interdot transition is rounded over at least 0.0001 V, from left to right. -/
theorem sampled_coupling (h : SampledFirst p v) {n k : ℕ} (h0 : 0 < k) {rot : ℝ} {P V : ℝ × ℝ} {T : Fin k → Anchor}
    (hI : Interdots (allAnchors (ladder p v n) 1 rot) k P V T) (j : Fin k) : 0.0001 ≤ coupling P V (T j) := by
  obtain ⟨M, rfl, rfl, hT⟩ := ladder_interdots h h0 hI
  obtain ⟨L, e1, e2⟩ := hT j
  unfold coupling
  rw [e1, e2, rightOf_rotate, rightOf_rotate, rightOf_sub]
  obtain ⟨i1, i2, i3, -⟩ := h.interdot_bounds
  set I := interdot p v
  obtain ⟨c1, c2⟩ := h.chord
  have w := h.width.1
  have sL := h.slopeL
  have sR := h.slopeR
  set m := (p.gradL + p.gradR) / 2 with hm
  norm_num at i3 w sL sR
  have m1 : -1 / 4 ≤ m := by linarith
  have m2 : m ≤ 1 / 4 := by linarith
  have hd : Spec.dist (p.x0, p.y0) (p.x2, p.y2) ≤ 1.25 * (p.x2 - p.x0) := by
    unfold Spec.dist
    apply (Real.sqrt_le_left (by norm_num; linarith)).2
    simp only
    have : p.y0 - p.y2 = -(m * (p.x2 - p.x0)) := by linarith
    rw [this]
    norm_num
    nlinarith [sq_nonneg (p.x2 - p.x0), sq_nonneg m, mul_self_nonneg (p.x2 - p.x0),
      mul_nonneg (by linarith : 0 ≤ 1 / 4 - m) (by linarith : 0 ≤ 1 / 4 + m)]
  have hI0 : 0 < Spec.dist (0, 0) I := by
    have := h.length.1
    norm_num at this
    linarith
  have hI1 : Spec.dist (0, 0) I ≤ 1.5 * I.2 := by
    unfold Spec.dist
    apply (Real.sqrt_le_left (by norm_num; linarith)).2
    simp only
    norm_num
    nlinarith [mul_nonneg (by linarith : 0 ≤ I.2 - I.1) (by linarith : 0 ≤ I.2 + I.1)]
  rw [le_div_iff₀ hI0]
  have e : I.2 * (L.1 + (p.x2 - p.x0) - L.1) - I.1 * (L.2 + (p.y2 - p.y0) - L.2) = (I.2 - I.1 * m) * (p.x2 - p.x0) := by
    rw [c2]; ring
  simp only [e]
  have k1 : 3 / 4 * I.2 ≤ I.2 - I.1 * m := by
    rcases le_total 0 m with h | h
    · nlinarith
    · nlinarith
  have k2 : 0.0003 ≤ p.x2 - p.x0 := by norm_num at hd ⊢; linarith
  norm_num at hI1 k2 ⊢
  have k3 : 3 / 4 * I.2 * (3 / 10000) ≤ (I.2 - I.1 * m) * (p.x2 - p.x0) :=
    mul_le_mul k1 k2 (by norm_num) (by linarith)
  linarith

/-- In a sampled configuration, of two points assigned to the same charge region, the one
with the higher voltage at gate 1 and the lower voltage at gate 2 has at least as many electrons in the first dot and at
most as many in the second one. -/
theorem sampled_monotone {τ : Type} (rng : CfgRng τ) (hv : rng.Valid) (lab : Labelling) (s s' : τ) (cfg : IdealCfg)
    (h : sampleIdealCSD rng lab s (.ok cfg, s')) {k : ℕ} (hk : k < cfg.params.length) {a b o q : ℝ × ℝ}
    (ha : regionOcc (allAnchors cfg.params 1 cfg.rotation) cfg.cdf (gammaOf cfg.cdf cfg.gf) k a = .ok o)
    (hb : regionOcc (allAnchors cfg.params 1 cfg.rotation) cfg.cdf (gammaOf cfg.cdf cfg.gf) k b = .ok q)
    (h1 : a.1 ≤ b.1) (h2 : b.2 ≤ a.2) : o.1 ≤ q.1 ∧ q.2 ≤ o.2 := by
  obtain ⟨_, _, e, p, v, m, ⟨hs, -⟩, rfl⟩ := sampleIdealCSD_tested hv lab s _ h
  cases e
  rcases Nat.eq_zero_or_pos k with rfl | h0
  · simp only [regionOcc, if_true] at ha hb
    rw [← Except.ok.inj ha, ← Except.ok.inj hb]
    exact ⟨le_rfl, le_rfl⟩
  obtain ⟨P, V, T, hI⟩ := interdots_exist (params := (sampledIdeal (ladder p v (m + 1))).params)
    (rot := (sampledIdeal (ladder p v (m + 1))).rotation) h0 hk
  have hw : ∀ j, 1e-8 < coupling P V (T j) / gammaOf (sampledIdeal (ladder p v (m + 1))).cdf
      (sampledIdeal (ladder p v (m + 1))).gf := by
    intro j
    have := sampled_coupling hs h0 hI j
    simp only [sampledIdeal, gammaOf]
    rw [lt_div_iff₀ (by norm_num)]
    norm_num at this ⊢
    linarith
  have hpos : rightOf P V a ≤ rightOf P V b := by
    obtain ⟨M, rfl, rfl, -⟩ := ladder_interdots hs h0 hI
    obtain ⟨u1, u2⟩ := hs.upwards
    simp only [sampledIdeal]
    rw [show rotatePoint (-Real.pi / 4) (M.1 + (interdot p v).1, M.2 + (interdot p v).2) =
      ((rotatePoint (-Real.pi / 4) M).1 + (rotatePoint (-Real.pi / 4) (interdot p v)).1,
        (rotatePoint (-Real.pi / 4) M).2 + (rotatePoint (-Real.pi / 4) (interdot p v)).2) by
      simp only [rotatePoint, Prod.mk.injEq]; constructor <;> ring]
    rw [← sub_nonneg, rightOf_sub]
    apply div_nonneg _ (Real.sqrt_nonneg _)
    nlinarith [mul_nonneg u2 (sub_nonneg.2 h1), mul_nonneg u1 (sub_nonneg.2 h2)]
  rcases hpos.lt_or_eq with hlt | heq
  · have := C63_monotone_partial h0 hI hk (hs.cfgOk (m + 1)).cdf hw ha hb hlt
    exact ⟨this.1.le, this.2.le⟩
  · have hw' := fun j => (hw j).trans_le (le_abs_self _)
    have h1 : o.1 = q.1 := by rw [C63_sum_partial h0 hI hw' ha, C63_sum_partial h0 hI hw' hb, heq]
    obtain ⟨o', ho', d1⟩ := regionOcc_ok (rot := (sampledIdeal (ladder p v (m + 1))).rotation)
      (hs.cfgOk (m + 1)).cdf (gammaOf (sampledIdeal (ladder p v (m + 1))).cdf (sampledIdeal (ladder p v (m + 1))).gf)
      (reg := k) (Or.inr hk) a
    obtain ⟨q', hq', d2⟩ := regionOcc_ok (rot := (sampledIdeal (ladder p v (m + 1))).rotation)
      (hs.cfgOk (m + 1)).cdf (gammaOf (sampledIdeal (ladder p v (m + 1))).cdf (sampledIdeal (ladder p v (m + 1))).gf)
      (reg := k) (Or.inr hk) b
    rw [ha] at ho'; rw [hb] at hq'
    rw [← Except.ok.inj ho'] at d1; rw [← Except.ok.inj hq'] at d2
    exact ⟨h1.le, by linarith [d1.2.2, d2.2.2]⟩

theorem regionOcc_lt {params : List TctParams} {rot : ℝ} {cdf : CdfType} {gf : ℝ} {k : ℕ} {a o : ℝ × ℝ}
    (h : regionOcc (allAnchors params 1 rot) cdf gf k a = .ok o) (h0 : 0 < params.length) : k < params.length := by
  by_contra hk
  rw [regionOcc_error cdf gf (by omega) (by omega)] at h
  cases h

theorem sampled_params_pos {τ : Type} {rng : CfgRng τ} (hv : rng.Valid) {lab : Labelling} {s s' : τ} {cfg : IdealCfg}
    (h : sampleIdealCSD rng lab s (.ok cfg, s')) : 0 < cfg.params.length := by
  obtain ⟨_, _, e, p, v, m, -, rfl⟩ := sampleIdealCSD_tested hv lab s _ h
  cases e
  simp [sampledIdeal, ladder]

/-- C63 (1D scans of sampled configurations): of two pixels in the same charge region, the one with the higher voltage at
gate 1 and the lower voltage at gate 2 has at least as many electrons in the first dot and at most as many in the second
one. -/
theorem C63_sampled_1d {τ : Type} (rng : CfgRng τ) (hv : rng.Valid) (lab : Labelling) (s s' : τ) (cfg : IdealCfg)
    (h : sampleIdealCSD rng lab s (.ok cfg, s')) (curves : List (ℝ → ℝ)) (hc : IsCurves cfg.lut 1 cfg.params curves)
    {n : ℕ} (pts : Fin n → ℝ × ℝ)
    (hb : ∀ i, ∃ f ∈ curves, (tctCoord cfg (pts i)).2 < f (tctCoord cfg (pts i)).1) :
    ∃ occ, occupation1d cfg n pts = .ok occ ∧ ∀ i j,
      Spec.region curves (tctCoord cfg (pts i)) = Spec.region curves (tctCoord cfg (pts j)) →
      (pts i).1 ≤ (pts j).1 → (pts j).2 ≤ (pts i).2 → (occ i).1 ≤ (occ j).1 ∧ (occ j).2 ≤ (occ i).2 := by
  obtain ⟨cfg', s2, e, ok, -⟩ := C46_geometry rng hv lab s _ h
  cases e
  obtain ⟨occ, ho, hr⟩ := occupation1d_region cfg ok (gammaFactor_spec ok.cdf cfg.gf) curves hc pts hb
  refine ⟨occ, ho, fun i j hij h1 h2 => ?_⟩
  have hi := hr i
  rw [hij] at hi
  exact sampled_monotone rng hv lab s s' cfg h (regionOcc_lt hi (sampled_params_pos hv h)) hi (hr j) h1 h2

/-- C63 (2D scans of sampled configurations): the same for pixels with the same label of the region mask. -/
theorem C63_sampled_2d {τ : Type} (rng : CfgRng τ) (hv : rng.Valid) (lab : Labelling) (s s' : τ) (cfg : IdealCfg)
    (h : sampleIdealCSD rng lab s (.ok cfg, s')) (curves : List (ℝ → ℝ)) (hc : IsCurves cfg.lut 1 cfg.params curves)
    {r c : ℕ} (pts : Fin r × Fin c → ℝ × ℝ) (lead : Fin r × Fin c → ℕ) (rep : Fin r × Fin c → Fin r × Fin c)
    {occ : Fin r × Fin c → ℝ × ℝ} (ho : occupation2d cfg pts lead rep = .ok occ) (i j : Fin r × Fin c)
    (hij : (if lead i ≠ 0 then lead i else Spec.region curves (tctCoord cfg (pts (rep i)))) =
      if lead j ≠ 0 then lead j else Spec.region curves (tctCoord cfg (pts (rep j))))
    (h1 : (pts i).1 ≤ (pts j).1) (h2 : (pts j).2 ≤ (pts i).2) :
    (occ i).1 ≤ (occ j).1 ∧ (occ j).2 ≤ (occ i).2 := by
  obtain ⟨cfg', s2, e, ok, -⟩ := C46_geometry rng hv lab s _ h
  cases e
  have hi := occupation2d_region cfg (gammaFactor_spec ok.cdf cfg.gf) curves hc pts lead rep ho i
  have hj := occupation2d_region cfg (gammaFactor_spec ok.cdf cfg.gf) curves hc pts lead rep ho j
  rw [hij] at hi
  exact sampled_monotone rng hv lab s s' cfg h (regionOcc_lt hi (sampled_params_pos hv h)) hi hj h1 h2

/-- Sampled configurations with curves exist. -/
example (lab : Labelling) : ∃ cfg curves, sampleIdealCSD midRng lab () (.ok cfg, ()) ∧
    IsCurves cfg.lut 1 cfg.params curves := by
  obtain ⟨cfg, hcfg⟩ := mid_returns lab
  obtain ⟨_, _, e, ok, -⟩ := C46_geometry midRng midRng_valid lab () _ hcfg
  cases e
  obtain ⟨curves, hc⟩ := C05_curves_exist cfg ok
  exact ⟨cfg, curves, hcfg, hc⟩

end SimCATS
