import Verif.Lemmas.Occupation
import Verif.Props.Tct

/-! Properties C04 - C06: electron occupations and charge regions. -/

namespace SimCATS

/-- Configurations the properties are about: valid transitions, explicit evaluation or a lookup table with at least two
entries, a supported CDF type, a non-zero gamma factor, and no region whose reference line degenerates to a point
(the code would divide by zero). -/
structure CfgOk (cfg : IdealCfg) : Prop where
  tct : ∀ p ∈ cfg.params, TctOk p
  lut : cfg.lut ≠ some 1
  cdf : cfg.cdf ≠ .other
  gf : cfg.gf ≠ some 0
  refLine : ∀ k upper rows valley peak, allAnchors cfg.params 1 cfg.rotation (k + 1) = some upper →
    allAnchors cfg.params 1 cfg.rotation k = some rows → upper[1]? = some valley → rows[0]? = some peak →
    valley.center ≠ peak.center

/-- The transitions of a valid configuration are graphs of functions (the hypothesis of the following theorems). -/
theorem C05_curves_exist (cfg : IdealCfg) (ok : CfgOk cfg) : ∃ curves, IsCurves cfg.lut 1 cfg.params curves :=
  exists_curves ok.lut 0 cfg.params ok.tct

/-- A pixel voltage in the coordinates of the transitions. -/
noncomputable abbrev tctCoord (cfg : IdealCfg) (v : ℝ × ℝ) : ℝ × ℝ := rotatePoint (-cfg.rotation) v

/-! ### Concrete configuration -/

/-- Two transitions, the second one is the sample transition moved up by 10. -/
def sampleCfg : IdealCfg := ⟨[sampleTct, ⟨5, 6, 1, -1, 0, 10, 3, 9⟩], 0, none, .sigmoid, none⟩

theorem sampleTct2_center : tctCenter ⟨5, 6, 1, -1, 0, 10, 3, 9⟩ = .ok (1, 11) := by
  apply tctCenter_of (by norm_num)
  constructor <;> norm_num

theorem sampleCfg_ok : CfgOk sampleCfg := by
  constructor
  · intro p hp
    simp only [sampleCfg, List.mem_cons, List.not_mem_nil, or_false] at hp
    rcases hp with rfl | rfl
    · exact ⟨⟨_, sampleTct_center⟩, by norm_num [sampleTct], by norm_num [sampleTct]⟩
    · exact ⟨⟨_, sampleTct2_center⟩, by norm_num, by norm_num⟩
  · simp [sampleCfg]
  · simp [sampleCfg]
  · simp [sampleCfg]
  · intro k upper rows valley peak h1 h2 h3 h4
    have hk : k = 1 := by
      rcases Nat.lt_or_ge 1 k with h | h
      · rw [allAnchors_none (by simp [sampleCfg]; omega)] at h1; cases h1
      · rcases Nat.eq_zero_or_pos k with rfl | h'
        · simp [allAnchors] at h2
        · omega
    subst hk
    simp only [allAnchors, sampleCfg] at h1 h2
    norm_num at h1 h2
    subst h1 h2
    simp [anchorsRaw, anchorLoop] at h3 h4
    subst h3 h4
    norm_num [Anchor.rotate, stepAnchor, firstAnchor, sampleTct, rotatePoint]

/-- The curves of the sample configuration left of the first peak: straight lines of slope 1. -/
theorem sampleCfg_curves {curves : List (ℝ → ℝ)} (h : IsCurves sampleCfg.lut 1 sampleCfg.params curves) :
    ∃ f g, curves = [f, g] ∧ (∀ x < 0, f x = x) ∧ ∀ x < 0, g x = x + 10 := by
  rcases curves with _ | ⟨f, _ | ⟨g, _ | ⟨a, l⟩⟩⟩
  · simp [IsCurves, sampleCfg] at h
  · simp [IsCurves, sampleCfg] at h
  · refine ⟨f, g, rfl, fun x hx => ?_, fun x hx => ?_⟩
    · have := h.1 x
      rw [show sampleCfg.lut = none from rfl,
        (C08_outer_lines sampleTct none 1 le_rfl ⟨_, sampleTct_center⟩ (by norm_num [sampleTct]) x).1 hx] at this
      rw [← Except.ok.inj this]; norm_num [sampleTct]
    · have := h.2.2.1 x
      rw [show sampleCfg.lut = none from rfl,
        (C08_outer_lines _ none 2 (by norm_num) ⟨_, sampleTct2_center⟩ (by norm_num) x).1 hx] at this
      rw [← Except.ok.inj this]; norm_num; ring
  · simp [IsCurves, sampleCfg] at h

theorem sampleCfg_point (y : ℝ) : tctCoord sampleCfg (-1, y) = (-1, y) := by
  simp [tctCoord, rotatePoint, sampleCfg]

/-! ### C05 -/

/-- C05 (2D): the region of a representative point is the number of leading transitions at or below it. -/
theorem C05_region_2d (cfg : IdealCfg) (curves : List (ℝ → ℝ)) (h : IsCurves cfg.lut 1 cfg.params curves) (v : ℝ × ℝ) :
    regionLoop2d cfg.lut (tctCoord cfg v) (tctDict cfg.params 1) 0 = .ok (Spec.region curves (tctCoord cfg v)) := by
  have := regionLoop2d_eq (tctCoord cfg v) h
  simpa using this

/-- C05 (1D): every pixel below some transition gets the number of leading transitions at or below it. -/
theorem C05_region_1d (cfg : IdealCfg) (curves : List (ℝ → ℝ)) (h : IsCurves cfg.lut 1 cfg.params curves) {n : ℕ}
    (v : Fin n → ℝ × ℝ) :
    ∃ mask, regionLoop1d cfg.lut (fun i => tctCoord cfg (v i)) (tctDict cfg.params 1).reverse (fun _ => 0) = .ok mask ∧
      ∀ i, (∃ f ∈ curves, (tctCoord cfg (v i)).2 < f (tctCoord cfg (v i)).1) →
        mask i = Spec.region curves (tctCoord cfg (v i)) := by
  have := regionLoop1d_eq (fun i => tctCoord cfg (v i)) (fun _ => 0) h
  refine ⟨_, this, fun i hi => ?_⟩
  have hlt := region_lt.2 hi
  simp only [if_neg hlt.ne, zero_add]

/-- C05: the 1D and the 2D evaluation assign the same region to the same voltage point below some transition. -/
theorem C05_same (cfg : IdealCfg) (ok : CfgOk cfg) {n : ℕ} (v : Fin n → ℝ × ℝ) (i : Fin n)
    (hb : ∃ p ∈ tctDict cfg.params 1, ∃ y, tctBezierAt p.2 cfg.lut (some p.1) (tctCoord cfg (v i)).1 = .ok y ∧
      (tctCoord cfg (v i)).2 < y) :
    ∃ mask, regionLoop1d cfg.lut (fun i => tctCoord cfg (v i)) (tctDict cfg.params 1).reverse (fun _ => 0) = .ok mask ∧
      regionLoop2d cfg.lut (tctCoord cfg (v i)) (tctDict cfg.params 1) 0 = .ok (mask i) := by
  obtain ⟨curves, hc⟩ := C05_curves_exist cfg ok
  obtain ⟨mask, h1, h2⟩ := C05_region_1d cfg curves hc v
  refine ⟨mask, h1, ?_⟩
  rw [C05_region_2d cfg curves hc, h2 i]
  obtain ⟨p, hp, y, hy, hlt⟩ := hb
  have key : ∀ (k : ℕ) (ps : List TctParams) (fs : List (ℝ → ℝ)), IsCurves cfg.lut k ps fs → p ∈ tctDict ps k →
      ∃ f ∈ fs, ∀ x, tctBezierAt p.2 cfg.lut (some p.1) x = .ok (f x) := by
    intro k ps
    induction ps generalizing k with
    | nil => intro fs _ hp; simp [tctDict] at hp
    | cons q ps ih =>
      intro fs hfs hp
      rcases fs with _ | ⟨f, fs⟩
      · exact absurd hfs (by simp [IsCurves])
      rw [tctDict_cons] at hp
      rcases List.mem_cons.1 hp with rfl | hp
      · exact ⟨f, by simp, hfs.1⟩
      · obtain ⟨g, hg, hg'⟩ := ih (k + 1) fs hfs.2.2 hp
        exact ⟨g, List.mem_cons_of_mem _ hg, hg'⟩
  obtain ⟨f, hf, hf'⟩ := key 1 cfg.params curves hc hp
  refine ⟨f, hf, ?_⟩
  rw [hf'] at hy
  rw [Except.ok.inj hy]; exact hlt

/-- Non-vacuity: the point (-1, 3) lies between the two transitions of the sample configuration. -/
example : ∃ curves, IsCurves sampleCfg.lut 1 sampleCfg.params curves ∧
    Spec.region curves (tctCoord sampleCfg (-1, 3)) = 1 ∧ ∃ f ∈ curves,
      (tctCoord sampleCfg (-1, 3)).2 < f (tctCoord sampleCfg (-1, 3)).1 := by
  obtain ⟨curves, hc⟩ := C05_curves_exist _ sampleCfg_ok
  obtain ⟨f, g, rfl, hf, hg⟩ := sampleCfg_curves hc
  refine ⟨_, hc, ?_, g, by simp, ?_⟩
  · rw [sampleCfg_point, region_cons, region_cons]
    norm_num [hf, hg]
  · rw [sampleCfg_point]; norm_num [hg]

/-! ### C04 -/

/-- C04 (1D): if every pixel lies below some transition, occupations are returned for all of them, and the occupations of
a pixel in charge region `n` are non-negative and add up to exactly `n`. -/
theorem C04_1d (cfg : IdealCfg) (ok : CfgOk cfg) (curves : List (ℝ → ℝ)) (h : IsCurves cfg.lut 1 cfg.params curves)
    {n : ℕ} (v : Fin n → ℝ × ℝ)
    (hb : ∀ i, ∃ f ∈ curves, (tctCoord cfg (v i)).2 < f (tctCoord cfg (v i)).1) :
    ∃ occ, occupation1d cfg n v = .ok occ ∧
      ∀ i, Spec.Distributes (Spec.region curves (tctCoord cfg (v i))) (occ i) := by
  obtain ⟨gf, hgf⟩ := gammaFactor_ok ok.cdf cfg.gf
  obtain ⟨mask, hm, hm'⟩ := C05_region_1d cfg curves h v
  have hr : ∀ i, mask i = 0 ∨ mask i + 1 ≤ cfg.params.length := by
    intro i
    right
    rw [hm' i (hb i), ← h.length]
    exact region_lt.2 (hb i)
  choose o ho hd using fun i => regionOcc_ok (rot := cfg.rotation) ok.cdf gf (hr i) (v i)
  refine ⟨o, ?_, fun i => ?_⟩
  · unfold occupation1d
    rw [hgf]
    simp only
    rw [hm]
    exact occupationsOfMask_ok.2 ho
  · rw [← hm' i (hb i)]; exact hd i

/-- C04 (2D): the same for a 2D scan; a pixel labelled with transition `k` belongs to region `k`, every other pixel to the
region of the representative of its connected component. -/
theorem C04_2d (cfg : IdealCfg) (ok : CfgOk cfg) (curves : List (ℝ → ℝ)) (h : IsCurves cfg.lut 1 cfg.params curves)
    {r c : ℕ} (v : Fin r × Fin c → ℝ × ℝ) (lead : Fin r × Fin c → ℕ) (rep : Fin r × Fin c → Fin r × Fin c)
    (hl : ∀ i, lead i ≠ 0 → lead i < cfg.params.length)
    (hb : ∀ i, lead i = 0 → ∃ f ∈ curves, (tctCoord cfg (v (rep i))).2 < f (tctCoord cfg (v (rep i))).1) :
    ∃ occ, occupation2d cfg v lead rep = .ok occ ∧
      ∀ i, Spec.Distributes (if lead i ≠ 0 then lead i else Spec.region curves (tctCoord cfg (v (rep i)))) (occ i) := by
  obtain ⟨gf, hgf⟩ := gammaFactor_ok ok.cdf cfg.gf
  have hm : mask2d cfg v lead rep =
      .ok fun i => if lead i ≠ 0 then lead i else Spec.region curves (tctCoord cfg (v (rep i))) := by
    unfold mask2d
    have := fun i => C05_region_2d cfg curves h (v (rep i))
    simp only [tctCoord] at this
    simp only
    rw [dif_neg (by rintro ⟨e, i, -, h'⟩; rw [this] at h'; cases h')]
    simp only [this]
  have hr : ∀ i, (if lead i ≠ 0 then lead i else Spec.region curves (tctCoord cfg (v (rep i)))) = 0 ∨
      (if lead i ≠ 0 then lead i else Spec.region curves (tctCoord cfg (v (rep i)))) + 1 ≤ cfg.params.length := by
    intro i
    right
    split_ifs with h'
    · exact hl i h'
    · rw [← h.length]; exact region_lt.2 (hb i (not_not.1 h'))
  choose o ho hd using fun i => regionOcc_ok (rot := cfg.rotation) ok.cdf gf (hr i) (v i)
  refine ⟨o, ?_, hd⟩
  unfold occupation2d
  rw [hgf]
  simp only
  rw [hm]
  exact occupationsOfMask_ok.2 ho

/-- C04: whatever a call of `ideal_csd_geometric` returns, the occupations of every pixel are non-negative and add up to a
whole number of electrons, at most the number of configured transitions minus one. -/
theorem C04_ideal (cfg : IdealCfg) (ok : CfgOk cfg) (lab : Labelling) (v1 v2 : List ℝ) (res : Resolution)
    (out : IdealOut) (h : idealCsd cfg lab v1 v2 res = .ok out) :
    match out with
    | .d1 _ occ _ => ∀ i, ∃ k, k ≤ cfg.params.length - 1 ∧ Spec.Distributes k (occ i)
    | .d2 _ _ occ _ => ∀ i j, ∃ k, k ≤ cfg.params.length - 1 ∧ Spec.Distributes k (occ i j) := by
  have key : ∀ {ι : Type} [Fintype ι] (gf : ℝ) (pts : ι → ℝ × ℝ) (mask : ι → ℕ) (occ : ι → ℝ × ℝ),
      occupationsOfMask (allAnchors cfg.params 1 cfg.rotation) cfg.cdf gf pts mask = .ok occ →
      ∀ i, ∃ k, k ≤ cfg.params.length - 1 ∧ Spec.Distributes k (occ i) := by
    intro ι _ gf pts mask occ ho i
    have := occupationsOfMask_ok.1 ho i
    by_cases hr : mask i = 0 ∨ mask i + 1 ≤ cfg.params.length
    · obtain ⟨o, h1, h2⟩ := regionOcc_ok (rot := cfg.rotation) ok.cdf gf hr (pts i)
      rw [this] at h1
      rw [Except.ok.inj h1]
      exact ⟨mask i, by omega, h2⟩
    · push Not at hr
      rw [regionOcc_error _ _ (by omega) (by omega)] at this
      cases this
  have k1 : ∀ {n : ℕ} {pts : Fin n → ℝ × ℝ} {occ}, occupation1d cfg n pts = .ok occ →
      ∀ i, ∃ k, k ≤ cfg.params.length - 1 ∧ Spec.Distributes k (occ i) := by
    intro n pts occ ho
    unfold occupation1d at ho
    split at ho
    · cases ho
    · split at ho
      · cases ho
      · exact key _ _ _ _ ho
  have k2 : ∀ {r c : ℕ} {pts : Fin r × Fin c → ℝ × ℝ} {lead rep occ}, occupation2d cfg pts lead rep = .ok occ →
      ∀ i, ∃ k, k ≤ cfg.params.length - 1 ∧ Spec.Distributes k (occ i) := by
    intro r c pts lead rep occ ho
    unfold occupation2d at ho
    split at ho
    · cases ho
    · split at ho
      · cases ho
      · exact key _ _ _ _ ho
  have i1 : ∀ {g1 g2 n o}, ideal1d cfg g1 g2 n = .ok o → ∀ i, ∃ k, k ≤ cfg.params.length - 1 ∧
      Spec.Distributes k (o.1 i) := by
    intro g1 g2 n o ho
    unfold ideal1d at ho
    split at ho
    · cases ho
    · rename_i occ hocc
      cases ho
      exact k1 hocc
  have i2 : ∀ {g1 g2 r c o}, ideal2d cfg lab g1 g2 r c = .ok o → ∀ i j, ∃ k, k ≤ cfg.params.length - 1 ∧
      Spec.Distributes k (o.1 i j) := by
    intro g1 g2 r c o ho i j
    unfold ideal2d at ho
    split at ho
    · cases ho
    · simp only at ho
      split at ho
      · cases ho
      · rename_i occ hocc
        cases ho
        simp only [flipCols, flipRows]
        split_ifs <;> exact k2 hocc _
  unfold idealCsd at h
  split at h
  · cases h
  · split at h
    · split_ifs at h
      split at h
      · cases h
      · rename_i hh
        cases h
        exact i1 hh
    · split at h
      · cases h
      · rename_i hh
        cases h
        exact i2 hh
    · cases h

/-- Non-vacuity: a scan of two pixels between and below the transitions of the sample configuration. -/
example : ∃ curves, IsCurves sampleCfg.lut 1 sampleCfg.params curves ∧
    ∀ i : Fin 2, ∃ f ∈ curves, (tctCoord sampleCfg (-1, 3 - 20 * (i : ℝ))).2 <
      f (tctCoord sampleCfg (-1, 3 - 20 * (i : ℝ))).1 := by
  obtain ⟨curves, hc⟩ := C05_curves_exist _ sampleCfg_ok
  obtain ⟨f, g, rfl, hf, hg⟩ := sampleCfg_curves hc
  refine ⟨_, hc, fun i => ⟨g, by simp, ?_⟩⟩
  rw [sampleCfg_point]
  simp only
  rw [hg _ (by norm_num)]
  have : (0 : ℝ) ≤ (i : ℝ) := Nat.cast_nonneg _
  linarith

/-! ### C06 -/

/-- C06 (2D): if the representative of some unlabelled pixel lies on or above every transition, or some pixel is labelled
with the last transition, the call raises `IndexError`. -/
theorem C06_2d_partial (cfg : IdealCfg) (ok : CfgOk cfg) (curves : List (ℝ → ℝ)) (h : IsCurves cfg.lut 1 cfg.params curves)
    (hne : cfg.params ≠ []) {r c : ℕ} (v : Fin r × Fin c → ℝ × ℝ) (lead : Fin r × Fin c → ℕ)
    (rep : Fin r × Fin c → Fin r × Fin c) (i : Fin r × Fin c)
    (hi : (lead i = 0 ∧ ∀ f ∈ curves, f (tctCoord cfg (v (rep i))).1 ≤ (tctCoord cfg (v (rep i))).2) ∨
      lead i = cfg.params.length) :
    occupation2d cfg v lead rep = .error .indexError := by
  obtain ⟨gf, hgf⟩ := gammaFactor_ok ok.cdf cfg.gf
  have hpos : 0 < cfg.params.length := List.length_pos_iff.2 hne
  have hm : mask2d cfg v lead rep =
      .ok fun i => if lead i ≠ 0 then lead i else Spec.region curves (tctCoord cfg (v (rep i))) := by
    unfold mask2d
    have := fun i => C05_region_2d cfg curves h (v (rep i))
    simp only [tctCoord] at this
    simp only
    rw [dif_neg (by rintro ⟨e, i, -, h'⟩; rw [this] at h'; cases h')]
    simp only [this]
  have hreg : (if lead i ≠ 0 then lead i else Spec.region curves (tctCoord cfg (v (rep i)))) = cfg.params.length := by
    rcases hi with ⟨h0, ha⟩ | h1
    · rw [if_neg (not_not.2 h0), ← h.length]
      refine le_antisymm (region_le _ _) (not_lt.1 fun hlt => ?_)
      obtain ⟨f, hf, hf'⟩ := region_lt.1 hlt
      exact absurd (ha f hf) (not_le.2 hf')
    · rw [if_pos (by omega)]; exact h1
  unfold occupation2d
  rw [hgf]
  simp only
  rw [hm]
  simp only
  cases ho : occupationsOfMask (allAnchors cfg.params 1 cfg.rotation) cfg.cdf gf v
      (fun i => if lead i ≠ 0 then lead i else Spec.region curves (tctCoord cfg (v (rep i)))) with
  | ok occ =>
    have := occupationsOfMask_ok.1 ho i
    rw [regionOcc_error _ _ (by rw [hreg]; exact hpos) (by rw [hreg])] at this
    cases this
  | error e =>
    obtain ⟨j, hj⟩ := occupationsOfMask_error ho
    rw [regionOcc_error_eq ok.cdf hj]

/-- Non-vacuity: the point (-1, 30) is above both transitions of the sample configuration. -/
example : ∃ curves, IsCurves sampleCfg.lut 1 sampleCfg.params curves ∧
    ∀ f ∈ curves, f (tctCoord sampleCfg (-1, 30)).1 ≤ (tctCoord sampleCfg (-1, 30)).2 := by
  obtain ⟨curves, hc⟩ := C05_curves_exist _ sampleCfg_ok
  obtain ⟨f, g, rfl, hf, hg⟩ := sampleCfg_curves hc
  refine ⟨_, hc, ?_⟩
  rw [sampleCfg_point]
  simp [hf, hg]
  norm_num

/-- C06 is false for 1D scans: for every valid configuration, a scan of points on or above all transitions is reported as
completely empty, without error. -/
theorem C06_1d_refuted (cfg : IdealCfg) (ok : CfgOk cfg) (curves : List (ℝ → ℝ))
    (h : IsCurves cfg.lut 1 cfg.params curves) {n : ℕ} (v : Fin n → ℝ × ℝ)
    (ha : ∀ i, ∀ f ∈ curves, f (tctCoord cfg (v i)).1 ≤ (tctCoord cfg (v i)).2) :
    occupation1d cfg n v = .ok fun _ => (0, 0) := by
  obtain ⟨gf, hgf⟩ := gammaFactor_ok ok.cdf cfg.gf
  have hm := regionLoop1d_eq (fun i => tctCoord cfg (v i)) (fun _ => 0) h
  have e : ∀ i, Spec.region curves (tctCoord cfg (v i)) = curves.length := fun i => by
    refine le_antisymm (region_le _ _) (not_lt.1 fun hlt => ?_)
    obtain ⟨f, hf, hf'⟩ := region_lt.1 hlt
    exact absurd (ha i f hf) (not_le.2 hf')
  unfold occupation1d
  rw [hgf]
  simp only
  simp only [tctCoord] at hm e
  rw [zero_add] at hm
  rw [hm]
  simp only
  rw [occupationsOfMask_ok]
  intro i
  simp [e, regionOcc]

/-- Concrete instance: the 1D scan of the single point (-1, 30), above both transitions. -/
theorem C06_1d_witness : ∃ cfg, CfgOk cfg ∧ cfg.params ≠ [] ∧ ∃ curves, IsCurves cfg.lut 1 cfg.params curves ∧
    (∀ f ∈ curves, f (tctCoord cfg (-1, 30)).1 ≤ (tctCoord cfg (-1, 30)).2) ∧
    occupation1d cfg 1 (fun _ => (-1, 30)) = .ok fun _ => (0, 0) := by
  obtain ⟨curves, hc⟩ := C05_curves_exist _ sampleCfg_ok
  obtain ⟨f, g, e, hf, hg⟩ := sampleCfg_curves hc
  have ha : ∀ f ∈ curves, f (tctCoord sampleCfg (-1, 30)).1 ≤ (tctCoord sampleCfg (-1, 30)).2 := by
    rw [sampleCfg_point, e]
    simp [hf, hg]
    norm_num
  exact ⟨sampleCfg, sampleCfg_ok, by simp [sampleCfg], curves, hc, ha,
    C06_1d_refuted _ sampleCfg_ok _ hc _ fun _ => ha⟩

end SimCATS
