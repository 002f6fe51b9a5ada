import Verif.Props.DefaultConfigs

/-! Images of the whole voltage range of the default configuration. -/

namespace SimCATS

open Spec

variable {cfg : IdealCfg} {curves : List (ℝ → ℝ)}

/-- Every label of the mask belongs to a sampled point of the transition. -/
theorem label_sample (h : IsCurves cfg.lut 1 cfg.params curves) {xl yl : ℝ × ℝ} {xRes yRes : ℕ} (hx : 2 ≤ xRes) (hy : 2 ≤ yRes) (hxl : xl.1 < xl.2)
    (hyl : yl.1 < yl.2) {img : ℤ × ℤ → ℕ} (him : leadMask2d cfg xl yl xRes yRes = .ok img) {i j : ℕ} (hi : i < yRes) (hj : j < xRes)
    (hk : img (i, j) ≠ 0) :
    ∃ f, curves[img (i, j) - 1]? = some f ∧ ∃ m, NearPixel xl yl xRes yRes i j
      (rotatePoint cfg.rotation (sampleXs cfg.rotation xl yl xRes yRes m, f (sampleXs cfg.rotation xl yl xRes yRes m))) := by
  obtain ⟨img', e, h2⟩ := C13_mask_2d cfg curves h xl yl xRes yRes hx hy hxl hyl
  rw [him] at e
  cases e
  rw [h2 i j hi hj] at hk ⊢
  have key : ∀ (l : List (ℕ × List (ℝ × ℝ))), lastLabel (Marks xl yl xRes yRes i j) l ≠ 0 →
      ∃ s ∈ l, s.1 = lastLabel (Marks xl yl xRes yRes i j) l ∧ ∃ p ∈ s.2, Marks xl yl xRes yRes i j p := by
    intro l
    induction l with
    | nil => intro h; exact absurd rfl h
    | cons a l ih =>
      intro hne
      rw [lastLabel] at hne ⊢
      by_cases h1 : ∃ kp ∈ l, ∃ p ∈ kp.2, Marks xl yl xRes yRes i j p
      · rw [if_pos h1] at hne ⊢
        obtain ⟨s, hs, r⟩ := ih hne
        exact ⟨s, List.mem_cons_of_mem _ hs, r⟩
      · rw [if_neg h1] at hne ⊢
        by_cases h2 : ∃ p ∈ a.2, Marks xl yl xRes yRes i j p
        · rw [if_pos h2]
          exact ⟨a, by simp, rfl, h2⟩
        · rw [if_neg h2] at hne
          exact absurd rfl hne
  obtain ⟨s, hs, e, p, hp, hm⟩ := key _ hk
  rw [List.mem_map] at hs
  obtain ⟨⟨f, k⟩, hfk, rfl⟩ := hs
  rw [List.mem_zipIdx_iff_le_and_getElem?_sub] at hfk
  simp only at e hp
  rw [← e]
  refine ⟨f, hfk.2, ?_⟩
  unfold samplePoints at hp
  rw [List.mem_ofFn] at hp
  obtain ⟨m, rfl⟩ := hp
  exact ⟨m, hm.1⟩

/-- A scan below the last transition is returned if no sampled point of the last transition is inside of the image. -/
theorem ideal2d_between (ok : CfgOk cfg) {pre : List (ℝ → ℝ)} {f : ℝ → ℝ} (hcv : curves = pre ++ [f])
    (h : IsCurves cfg.lut 1 cfg.params curves) (lab : Labelling) {g1 g2 : ℝ × ℝ} (h1 : g1.1 ≠ g1.2) (h2 : g2.1 ≠ g2.2)
    {r c : ℕ} (hr : 2 ≤ r) (hc : 2 ≤ c) (hbox : ∀ m, ¬ InBox (sortLim g1) (sortLim g2) c r (rotatePoint cfg.rotation
      (sampleXs cfg.rotation (sortLim g1) (sortLim g2) c r m, f (sampleXs cfg.rotation (sortLim g1) (sortLim g2) c r m))))
    (hpix : ∀ P : ℝ × ℝ, (sortLim g1).1 ≤ P.1 → P.1 ≤ (sortLim g1).2 → (sortLim g2).1 ≤ P.2 → P.2 ≤ (sortLim g2).2 →
      (tctCoord cfg P).2 < f (tctCoord cfg P).1) :
    ∃ o, ideal2d cfg lab g1 g2 r c = .ok o := by
  obtain ⟨img, him, -⟩ := C13_mask_2d cfg curves h (sortLim g1) (sortLim g2) c r hc hr (sortLim_lt h1) (sortLim_lt h2)
  have hlen : curves.length = pre.length + 1 := by rw [hcv]; simp
  have hplen := h.length
  have hl : ∀ i : Fin r × Fin c, img ((i.1 : ℤ), (i.2 : ℤ)) ≠ 0 → img ((i.1 : ℤ), (i.2 : ℤ)) < cfg.params.length := by
    intro i hi
    obtain ⟨f', hf', m, hm⟩ := label_sample h hc hr (sortLim_lt h1) (sortLim_lt h2) him i.1.2 i.2.2 hi
    by_contra hn
    have hlt : img ((i.1 : ℤ), (i.2 : ℤ)) - 1 < curves.length := (List.getElem?_eq_some_iff.1 hf').1
    have : img ((i.1 : ℤ), (i.2 : ℤ)) - 1 = pre.length := by omega
    rw [this, hcv, List.getElem?_append_right le_rfl] at hf'
    simp at hf'
    subst hf'
    exact hbox m (near_inBox hc hr (sortLim_lt h1) (sortLim_lt h2) i.1.2 i.2.2 hm)
  have hb : ∀ q : Fin r × Fin c, ∃ f ∈ curves, (tctCoord cfg (pts2d (sortLim g1) (sortLim g2) r c q)).2 <
      f (tctCoord cfg (pts2d (sortLim g1) (sortLim g2) r c q)).1 := by
    intro q
    refine ⟨f, by rw [hcv]; simp, ?_⟩
    obtain ⟨a1, a2⟩ := axis_le hc (sortLim_lt h1) q.2.2
    obtain ⟨b1, b2⟩ := axis_le hr (sortLim_lt h2) q.1.2
    exact hpix _ a1 a2 b1 b2
  obtain ⟨occ, ho, -⟩ := C04_2d cfg ok curves h (pts2d (sortLim g1) (sortLim g2) r c)
    (fun ij : Fin r × Fin c => img ((ij.1 : ℤ), (ij.2 : ℤ)))
    (lab r c fun ij : Fin r × Fin c => img ((ij.1 : ℤ), (ij.2 : ℤ))) (fun i hi => hl i hi) (fun i _ => hb _)
  unfold ideal2d
  rw [him]
  simp only
  rw [ho]
  exact ⟨_, rfl⟩

theorem whole_sort1 : sortLim ((-0.2 : ℝ), (-0.087 : ℝ)) = (-0.2, -0.087) := by
  unfold sortLim
  rw [min_eq_left (by norm_num), max_eq_right (by norm_num)]

theorem whole_sort2 : sortLim ((-0.2 : ℝ), (-0.047 : ℝ)) = (-0.2, -0.047) := by
  unfold sortLim
  rw [min_eq_left (by norm_num), max_eq_right (by norm_num)]

theorem linAt_mono {a b : ℝ} (h : a ≤ b) {n k m : ℕ} (hn : 2 ≤ n) (hk : k ≤ m) : linAt a b n k ≤ linAt a b n m := by
  have h1 : (0 : ℝ) ≤ (n : ℝ) - 1 := by
    have : (2 : ℝ) ≤ n := by exact_mod_cast hn
    linarith
  have h2 : (k : ℝ) ≤ m := by exact_mod_cast hk
  unfold linAt
  have := mul_le_mul_of_nonneg_right h2 (div_nonneg (sub_nonneg.2 h) h1)
  linarith

/-- No sampled point of the last transition is in the image, because the points `m0` and `m0 + 1` are on both sides of it. -/
theorem default_gap {n : ℕ} (m0 : ℕ) (lab : Labelling) {x1 x2 d1 d2 : ℝ} (hn : 2 ≤ n)
    (hx1 : linAt (-(0.153 * kap + 0.113 / ((n : ℝ) - 1))) (0.113 * kap + 0.113 / ((n : ℝ) - 1)) ((n + n) * 4) m0 ≤ x1)
    (hx2 : x2 ≤ linAt (-(0.153 * kap + 0.113 / ((n : ℝ) - 1))) (0.113 * kap + 0.113 / ((n : ℝ) - 1)) ((n + n) * 4) (m0 + 1 : ℕ))
    (e1 : |x1 + 0.02849374| ≤ d1) (e2 : |x2 + 0.02849374| ≤ d2)
    (s1 : -0.0915619 - 0.01796 * d1 - x1 ≤ 0) (s2 : -0.0915619 - 0.01796 * d2 + x2 ≤ 0)
    (c1 : -0.047 + 0.153 / ((n : ℝ) - 1) / 2 ≤ 0.70711 * (-0.0915619 - 0.01796 * d1 - x1))
    (c2 : -0.087 + 0.113 / ((n : ℝ) - 1) / 2 ≤ 0.70711 * (-0.0915619 - 0.01796 * d2 + x2)) :
    ∃ o, ideal2d defaultIdeal lab (-0.2, -0.087) (-0.2, -0.047) n n = .ok o := by
  obtain ⟨curves, hcs⟩ := C05_curves_exist _ default_cfgOk
  obtain ⟨pre, f, hcv, hf⟩ := default_last hcs
  obtain ⟨k1, k2⟩ := kap_bounds
  have hn' : (0 : ℝ) < (n : ℝ) - 1 := by
    have : (2 : ℝ) ≤ n := by exact_mod_cast hn
    linarith
  have q1 : (0 : ℝ) ≤ 0.113 / ((n : ℝ) - 1) := div_nonneg (by norm_num) hn'.le
  refine ideal2d_between default_cfgOk hcv hcs lab (by norm_num) (by norm_num) hn hn ?_ ?_
  · intro m
    rw [whole_sort1, whole_sort2, sampleXs_default]
    have hs1 : pixStep ((-0.2 : ℝ), (-0.087 : ℝ)) n = 0.113 / ((n : ℝ) - 1) := by
      unfold pixStep
      norm_num
    have hs2 : pixStep ((-0.2 : ℝ), (-0.047 : ℝ)) n = 0.153 / ((n : ℝ) - 1) := by
      unfold pixStep
      norm_num
    have hlo : -(0.153 * kap + 0.113 / ((n : ℝ) - 1)) ≤ 0.113 * kap + 0.113 / ((n : ℝ) - 1) := by
      norm_num at k1 q1 ⊢
      linarith
    have hside : linAt (-(0.153 * kap + 0.113 / ((n : ℝ) - 1))) (0.113 * kap + 0.113 / ((n : ℝ) - 1)) ((n + n) * 4) m ≤ x1 ∨
        x2 ≤ linAt (-(0.153 * kap + 0.113 / ((n : ℝ) - 1))) (0.113 * kap + 0.113 / ((n : ℝ) - 1)) ((n + n) * 4) m := by
      rcases Nat.lt_or_ge m0 m with h | h
      · exact Or.inr (hx2.trans (linAt_mono hlo (by omega) h))
      · exact Or.inl ((linAt_mono hlo (by omega) h).trans hx1)
    generalize linAt (-(0.153 * kap + 0.113 / ((n : ℝ) - 1))) (0.113 * kap + 0.113 / ((n : ℝ) - 1)) ((n + n) * 4) m = x at hside
    rintro ⟨-, b1, -, b2⟩
    rw [rotate_default, hs1] at b1
    rw [rotate_default, hs2] at b2
    have f2 := (hf x).2
    have hk0 : 0 ≤ kap := by norm_num at k1; linarith
    simp only at b1 b2
    rcases hside with h | h
    · have t : |x + 0.02849374| ≤ d1 + (x1 - x) := by
        have := abs_sub_abs_le_abs_sub (x + 0.02849374) (x1 + 0.02849374)
        rw [show x + 0.02849374 - (x1 + 0.02849374) = -(x1 - x) by ring, abs_neg, abs_of_nonneg (sub_nonneg.2 h)] at this
        linarith
      have u : -0.0915619 - 0.01796 * d1 - x1 ≤ f x - x := by
        norm_num at f2 t h ⊢
        linarith
      have v1 := mul_le_mul_of_nonneg_left u hk0
      have v2 := mul_le_mul_of_nonpos_right k2 s1
      linarith
    · have t : |x + 0.02849374| ≤ d2 + (x - x2) := by
        have := abs_sub_abs_le_abs_sub (x + 0.02849374) (x2 + 0.02849374)
        rw [show x + 0.02849374 - (x2 + 0.02849374) = x - x2 by ring, abs_of_nonneg (sub_nonneg.2 h)] at this
        linarith
      have u : -0.0915619 - 0.01796 * d2 + x2 ≤ x + f x := by
        norm_num at f2 t h ⊢
        linarith
      have v1 := mul_le_mul_of_nonneg_left u hk0
      have v2 := mul_le_mul_of_nonpos_right k2 s2
      linarith
  · intro P _ h2 _ h4
    rw [whole_sort1] at h2
    rw [whole_sort2] at h4
    exact default_below (fun x => (hf x).2) h2 h4

/-- The last transition is straight left of the upper right corner. -/
theorem exactLast_left : exactCurve defaultLast (lineCenter defaultLast) 13 (-0.029) ≤ -0.0915707 := by
  have ok := defaultLast_ok
  have hc := ok.center
  have hb0 := explicitRoot_left hc ok.grad
  have hb2 := explicitRoot_right hc ok.grad
  have e : (-0.029 : ℝ) = defaultLast.x0 + ((6 : ℤ) : ℝ) * (defaultLast.lenL + defaultLast.lenR) + 0.0257458 := by
    norm_num [defaultLast]
  rw [exactCurve_eq hc ok.grad ok.per, if_neg (by norm_num [defaultLast]), if_neg (by norm_num [defaultLast, waveEnd]), e,
    waveValue_at hc ok.per hb0 hb2 6 (by norm_num) (by norm_num [defaultLast])]
  have hy := yOffPeriod_eq hc
  have hy' : yOffPeriod defaultLast (lineCenter defaultLast) = -(defaultLast.lenL * defaultLast.gradL + defaultLast.lenR * defaultLast.gradR) := by
    linarith
  rw [hy']
  unfold waveCell
  simp only
  rw [if_neg (by norm_num [defaultLast]), if_neg (by norm_num [defaultLast, lineCenter]), if_neg (by norm_num [defaultLast, lineCenter])]
  norm_num [defaultLast, lineCenter, yOffInv]

/-- A better bound left of the corner. -/
theorem default_last_left {curves : List (ℝ → ℝ)} (hc : IsCurves defaultIdeal.lut 1 defaultIdeal.params curves) {pre : List (ℝ → ℝ)} {f : ℝ → ℝ}
    (hcv : curves = pre ++ [f]) {x : ℝ} (hx : x ≤ -0.029) : f x ≤ -0.0915706 + 0.01609 * (-0.029 - x) := by
  have hl : curves.length = 14 := hc.length
  have hf : curves[13]? = some f := by
    have : pre.length = 13 := by rw [hcv] at hl; simpa using hl
    rw [hcv, ← this]
    simp
  obtain ⟨q, hq, hq1⟩ := hc.getElem? hf
  have hq' : defaultTcts[13]? = some q := hq
  rw [defaultLast_mem] at hq'
  cases hq'
  have ok := defaultLast_ok
  have hz : tctBezierAt defaultLast none (some (13 + 1)) x = .ok (exactCurve defaultLast (lineCenter defaultLast) 13 x) :=
    tctBezierAt_eq ok.tctCenter none _ x
  have he := C10_lut_error _ _ _ ok.tctCenter ok.grad ok.per 1000 (by norm_num) x _ _ (hq1 x) hz
  have he' : |f x - exactCurve defaultLast (lineCenter defaultLast) 13 x| ≤ 0.0000001 := by
    refine he.trans ?_
    have m1 : max |defaultLast.gradL| |defaultLast.gradR| ≤ 0.018 := by
      apply max_le <;> rw [abs_le] <;> norm_num [defaultLast]
    have m2 : max ((lineCenter defaultLast).1 - defaultLast.x0) (defaultLast.x2 - (lineCenter defaultLast).1) ≤ 0.0052 := by
      apply max_le <;> norm_num [defaultLast, lineCenter]
    have m3 : 0 ≤ max ((lineCenter defaultLast).1 - defaultLast.x0) (defaultLast.x2 - (lineCenter defaultLast).1) :=
      le_max_of_le_left (by linarith [ok.left])
    have m4 := mul_le_mul m1 m2 m3 (by norm_num)
    norm_num at m4 ⊢
    rw [← mul_div_assoc, div_le_iff₀ (by norm_num)]
    linarith
  have p1 := exactLast_left
  have hs := exactCurve_slopes ok.center ok.grad ok.per 13
  have g1 : defaultLast.gradR = -0.01608112 := rfl
  have g2 : defaultLast.gradL = 0.01795249 := rfl
  rw [g1, g2] at hs
  obtain ⟨e1, e2⟩ := abs_le.1 he'
  have a1 := hs.le hx
  have a2 := hs.ge hx
  norm_num at a1 a2 p1 e1 e2 hx ⊢
  linarith

/-- The sampled point 91 of the last transition is in the image with 27 x 27 pixels. -/
theorem default_27 (lab : Labelling) : ideal2d defaultIdeal lab (-0.2, -0.087) (-0.2, -0.047) 27 27 = .error .indexError := by
  obtain ⟨curves, hcs⟩ := C05_curves_exist _ default_cfgOk
  obtain ⟨pre, f, hcv, hf⟩ := default_last hcs
  refine ideal2d_touch default_cfgOk hcv hcs lab (by norm_num) (by norm_num) (by norm_num) (by norm_num) (⟨91, by norm_num⟩ : Fin ((27 + 27) * 4)) ?_
  rw [whole_sort1, whole_sort2, sampleXs_default]
  have hx1 : (-0.029246 : ℝ) ≤ linAt (-(0.153 * kap + 0.113 / (((27 : ℕ) : ℝ) - 1))) (0.113 * kap + 0.113 / (((27 : ℕ) : ℝ) - 1)) ((27 + 27) * 4) 91 := by
    touch_num
  have hx2 : linAt (-(0.153 * kap + 0.113 / (((27 : ℕ) : ℝ) - 1))) (0.113 * kap + 0.113 / (((27 : ℕ) : ℝ) - 1)) ((27 + 27) * 4) 91 ≤ (-0.029242 : ℝ) := by
    touch_num
  simp only
  generalize linAt (-(0.153 * kap + 0.113 / (((27 : ℕ) : ℝ) - 1))) (0.113 * kap + 0.113 / (((27 : ℕ) : ℝ) - 1)) ((27 + 27) * 4) 91 = x at hx1 hx2
  have f1 := default_last_left hcs hcv (x := x) (by norm_num at hx2 ⊢; linarith)
  have f2 := (hf x).2
  have ha : |x + 0.02849374| ≤ 0.001 := by
    rw [abs_le]
    norm_num at hx1 hx2 ⊢
    constructor <;> linarith
  obtain ⟨k1, k2⟩ := kap_bounds
  rw [rotate_default]
  unfold inImage pixStep
  norm_num at k1 k2 f1 f2 ha hx1 hx2 ⊢
  have u1 : x + f x < 0 := by linarith
  have u2 : f x - x < 0 := by linarith
  have v1 := mul_le_mul_of_nonpos_right k1 u1.le
  have v2 := mul_le_mul_of_nonpos_right k1 u2.le
  have v3 := mul_le_mul_of_nonpos_right k2 u1.le
  have v4 := mul_le_mul_of_nonpos_right k2 u2.le
  refine ⟨?_, ?_, ?_, ?_⟩ <;> linarith

theorem default_28 (lab : Labelling) : ideal2d defaultIdeal lab (-0.2, -0.087) (-0.2, -0.047) 28 28 = .error .indexError :=
  default_touch 95 lab (x1 := -0.02869) (x2 := -0.02866) (d := 0.0002) (by norm_num) (by norm_num) (by touch_num) (by touch_num) (by norm_num)
    (by norm_num) (by norm_num) (by norm_num) (by norm_num) (by norm_num) (by norm_num)

theorem default_29 (lab : Labelling) : ∃ o, ideal2d defaultIdeal lab (-0.2, -0.087) (-0.2, -0.047) 29 29 = .ok o :=
  default_gap 98 lab (x1 := -0.0290) (x2 := -0.02816) (d1 := 0.00051) (d2 := 0.00034) (by norm_num) (by touch_num) (by touch_num)
    (by rw [abs_le]; norm_num) (by rw [abs_le]; norm_num) (by norm_num) (by norm_num) (by norm_num) (by norm_num)

theorem default_30 (lab : Labelling) : ∃ o, ideal2d defaultIdeal lab (-0.2, -0.087) (-0.2, -0.047) 30 30 = .ok o :=
  default_gap 101 lab (x1 := -0.0293) (x2 := -0.02849) (d1 := 0.00081) (d2 := 0.0001) (by norm_num) (by touch_num) (by touch_num)
    (by rw [abs_le]; norm_num) (by rw [abs_le]; norm_num) (by norm_num) (by norm_num) (by norm_num) (by norm_num)

theorem default_31 (lab : Labelling) : ∃ o, ideal2d defaultIdeal lab (-0.2, -0.087) (-0.2, -0.047) 31 31 = .ok o :=
  default_gap 105 lab (x1 := -0.02879) (x2 := -0.02801) (d1 := 0.0003) (d2 := 0.0005) (by norm_num) (by touch_num) (by touch_num)
    (by rw [abs_le]; norm_num) (by rw [abs_le]; norm_num) (by norm_num) (by norm_num) (by norm_num) (by norm_num)

end SimCATS
