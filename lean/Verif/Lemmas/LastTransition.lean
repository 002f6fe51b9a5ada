import Verif.Props.LeadMask

/-! When a 2D scan reaches the last transition. -/

namespace SimCATS

open Spec

variable {cfg : IdealCfg} {curves : List (ℝ → ℝ)}

/-- The image with half a pixel around it (lower borders included). -/
def InBox (xl yl : ℝ × ℝ) (xRes yRes : ℕ) (P : ℝ × ℝ) : Prop :=
  xl.1 - pixStep xl xRes / 2 ≤ P.1 ∧ P.1 < xl.2 + pixStep xl xRes / 2 ∧
    yl.1 - pixStep yl yRes / 2 ≤ P.2 ∧ P.2 < yl.2 + pixStep yl yRes / 2

theorem axis_le {lim : ℝ × ℝ} {n k : ℕ} (hn : 2 ≤ n) (h : lim.1 < lim.2) (hk : k < n) :
    lim.1 ≤ axisVolt lim n k ∧ axisVolt lim n k ≤ lim.2 := by
  have h2 : (2 : ℝ) ≤ n := by exact_mod_cast hn
  have hpos := pixStep_pos hn h
  have hm : pixStep lim n * ((n : ℝ) - 1) = lim.2 - lim.1 := by rw [pixStep, div_mul_cancel₀ _ (by linarith)]
  have hk1 : (k : ℝ) ≤ (n : ℝ) - 1 := by
    have : ((k + 1 : ℕ) : ℝ) ≤ (n : ℝ) := by exact_mod_cast hk
    push_cast at this; linarith
  have hk0 : (0 : ℝ) ≤ k := Nat.cast_nonneg _
  have e : axisVolt lim n k = lim.1 + k * pixStep lim n := rfl
  rw [e]
  have a := mul_nonneg hk0 hpos.le
  have b := mul_le_mul_of_nonneg_right hk1 hpos.le
  constructor <;> linarith

theorem near_inBox {xl yl : ℝ × ℝ} {xRes yRes i j : ℕ} (hx : 2 ≤ xRes) (hy : 2 ≤ yRes) (hxl : xl.1 < xl.2)
    (hyl : yl.1 < yl.2) (hi : i < yRes) (hj : j < xRes) {P : ℝ × ℝ} (h : NearPixel xl yl xRes yRes i j P) :
    InBox xl yl xRes yRes P := by
  obtain ⟨h1, h2, h3, h4⟩ := h
  obtain ⟨a1, a2⟩ := axis_le hx hxl hj
  obtain ⟨b1, b2⟩ := axis_le hy hyl hi
  unfold InBox pixStep
  refine ⟨by linarith, by linarith, by linarith, by linarith⟩

theorem lastLabel_last {near : ℝ × ℝ → Prop} {l : List (ℕ × List (ℝ × ℝ))} {k : ℕ} {pts : List (ℝ × ℝ)}
    (h : ∃ P ∈ pts, near P) : lastLabel near (l ++ [(k, pts)]) = k := by
  induction l with
  | nil =>
    rw [List.nil_append, lastLabel, if_neg (by simp), if_pos h]
  | cons a l ih =>
    rw [List.cons_append, lastLabel, if_pos, ih]
    exact ⟨(k, pts), by simp, h⟩

/-- A sampled point of the last transition inside of the image: some pixel is labelled with the last transition. -/
theorem label_last {pre : List (ℝ → ℝ)} {f : ℝ → ℝ} (hc : curves = pre ++ [f])
    (h : IsCurves cfg.lut 1 cfg.params curves)
    {xl yl : ℝ × ℝ} {xRes yRes : ℕ} (hx : 2 ≤ xRes) (hy : 2 ≤ yRes) (hxl : xl.1 < xl.2) (hyl : yl.1 < yl.2)
    {img : ℤ × ℤ → ℕ} (him : leadMask2d cfg xl yl xRes yRes = .ok img) (m : Fin ((xRes + yRes) * 4))
    (hm : inImage xl yl (pixStep xl xRes) (pixStep yl yRes)
      (rotatePoint cfg.rotation (sampleXs cfg.rotation xl yl xRes yRes m, f (sampleXs cfg.rotation xl yl xRes yRes m)))) :
    ∃ i j : ℕ, i < yRes ∧ j < xRes ∧ img (i, j) = cfg.params.length := by
  obtain ⟨img', e, h2⟩ := C13_mask_2d cfg curves h xl yl xRes yRes hx hy hxl hyl
  rw [him] at e
  cases e
  generalize hP : rotatePoint cfg.rotation (sampleXs cfg.rotation xl yl xRes yRes m,
    f (sampleXs cfg.rotation xl yl xRes yRes m)) = P at hm
  obtain ⟨m1, m2, m3, m4⟩ := hm
  obtain ⟨a, b⟩ := pixId_mem hy hyl rfl m3 m4
  obtain ⟨c, d⟩ := pixId_mem hx hxl rfl m1 m2
  have hsx := pixStep_pos hx hxl
  have hsy := pixStep_pos hy hyl
  obtain ⟨i, hi⟩ := Int.eq_ofNat_of_zero_le a
  obtain ⟨j, hj⟩ := Int.eq_ofNat_of_zero_le c
  refine ⟨i, j, by omega, by omega, ?_⟩
  rw [h2 i j (by omega) (by omega), hc, List.zipIdx_append, List.map_append]
  rw [List.zipIdx_cons, List.zipIdx_nil, List.map_cons, List.map_nil]
  rw [lastLabel_last]
  · rw [← h.length, hc, List.length_append]; simp; omega
  · refine ⟨P, ?_, ?_⟩
    · unfold samplePoints
      rw [List.mem_ofFn]
      exact ⟨m, hP⟩
    · rw [pixId_eq_iff hsy] at hi
      rw [pixId_eq_iff hsx] at hj
      push_cast at hi hj
      refine ⟨⟨hj.1, hj.2, hi.1, hi.2⟩, ?_, ?_⟩
      · have : xl.1 - (xl.2 - xl.1) / ((xRes : ℝ) - 1) / 2 = xl.1 - pixStep xl xRes / 2 := rfl
        rw [this]
        apply ne_of_lt
        linarith
      · have : yl.1 - (yl.2 - yl.1) / ((yRes : ℝ) - 1) / 2 = yl.1 - pixStep yl yRes / 2 := rfl
        rw [this]
        apply ne_of_lt
        linarith

/-- Occupations of a 2D scan: returned, or `IndexError`. -/
theorem occupation2d_cases (ok : CfgOk cfg) (h : IsCurves cfg.lut 1 cfg.params curves) {r c : ℕ}
    (v : Fin r × Fin c → ℝ × ℝ) (lead : Fin r × Fin c → ℕ) (rep : Fin r × Fin c → Fin r × Fin c) :
    (∃ occ, occupation2d cfg v lead rep = .ok occ) ∨ occupation2d cfg v lead rep = .error .indexError := by
  obtain ⟨gf, hgf⟩ := gammaFactor_ok ok.cdf cfg.gf
  have hm : mask2d cfg v lead rep =
      .ok fun i => if lead i ≠ 0 then lead i else Spec.region curves (tctCoord cfg (v (rep i))) := by
    unfold mask2d
    have := fun i => C05_region_2d cfg curves h (v (rep i))
    simp only [tctCoord] at this
    simp only
    rw [dif_neg (by rintro ⟨e, i, -, h'⟩; rw [this] at h'; cases h')]
    simp only [this]
  unfold occupation2d
  rw [hgf]
  simp only
  rw [hm]
  simp only
  cases ho : occupationsOfMask (allAnchors cfg.params 1 cfg.rotation) cfg.cdf gf v
      (fun i => if lead i ≠ 0 then lead i else Spec.region curves (tctCoord cfg (v (rep i)))) with
  | ok occ => exact Or.inl ⟨occ, rfl⟩
  | error e =>
    right
    obtain ⟨j, hj⟩ := occupationsOfMask_error ho
    rw [regionOcc_error_eq ok.cdf hj]

theorem sortLim_lt {g : ℝ × ℝ} (h : g.1 ≠ g.2) : (sortLim g).1 < (sortLim g).2 := by
  unfold sortLim
  exact min_lt_max.2 h

/-- 2D scans with valid arguments: returned, or `IndexError`. -/
theorem ideal2d_cases (ok : CfgOk cfg) (lab : Labelling) {g1 g2 : ℝ × ℝ} (h1 : g1.1 ≠ g1.2) (h2 : g2.1 ≠ g2.2) {r c : ℕ}
    (hr : 2 ≤ r) (hc : 2 ≤ c) :
    (∃ o, ideal2d cfg lab g1 g2 r c = .ok o) ∨ ideal2d cfg lab g1 g2 r c = .error .indexError := by
  obtain ⟨curves, h⟩ := C05_curves_exist cfg ok
  obtain ⟨img, him, -⟩ := C13_mask_2d cfg curves h (sortLim g1) (sortLim g2) c r hc hr (sortLim_lt h1) (sortLim_lt h2)
  unfold ideal2d
  rw [him]
  simp only
  rcases occupation2d_cases ok h (pts2d (sortLim g1) (sortLim g2) r c)
    (fun ij : Fin r × Fin c => img ((ij.1 : ℤ), (ij.2 : ℤ)))
    (lab r c fun ij : Fin r × Fin c => img ((ij.1 : ℤ), (ij.2 : ℤ))) with ⟨occ, ho⟩ | ho
  · rw [ho]; exact Or.inl ⟨_, rfl⟩
  · rw [ho]; exact Or.inr rfl

theorem linspace_axis {lim : ℝ × ℝ} {n : ℕ} (i : Fin n) : linspace lim.1 lim.2 n i = axisVolt lim n i := rfl

/-- A scan below the last transition is returned. -/
theorem ideal2d_below (ok : CfgOk cfg) {pre : List (ℝ → ℝ)} {f : ℝ → ℝ} (hcv : curves = pre ++ [f])
    (h : IsCurves cfg.lut 1 cfg.params curves) (lab : Labelling) {g1 g2 : ℝ × ℝ} (h1 : g1.1 ≠ g1.2) (h2 : g2.1 ≠ g2.2)
    {r c : ℕ} (hr : 2 ≤ r) (hc : 2 ≤ c) (hbox : ∀ x, ¬ InBox (sortLim g1) (sortLim g2) c r (rotatePoint cfg.rotation (x, f x)))
    (hpix : ∀ P : ℝ × ℝ, (sortLim g1).1 ≤ P.1 → P.1 ≤ (sortLim g1).2 → (sortLim g2).1 ≤ P.2 → P.2 ≤ (sortLim g2).2 →
      (tctCoord cfg P).2 < f (tctCoord cfg P).1) :
    ∃ o, ideal2d cfg lab g1 g2 r c = .ok o := by
  obtain ⟨img, him, -⟩ := C13_mask_2d cfg curves h (sortLim g1) (sortLim g2) c r hc hr (sortLim_lt h1) (sortLim_lt h2)
  have hlen : curves.length = pre.length + 1 := by rw [hcv]; simp
  have hplen := h.length
  have hl : ∀ i : Fin r × Fin c, img ((i.1 : ℤ), (i.2 : ℤ)) ≠ 0 → img ((i.1 : ℤ), (i.2 : ℤ)) < cfg.params.length := by
    intro i hi
    obtain ⟨f', hf', x, hx⟩ := C13_label_near cfg curves h _ _ c r hc hr (sortLim_lt h1) (sortLim_lt h2) img him i.1 i.2
      i.1.2 i.2.2 hi
    by_contra hn
    have hlt : img ((i.1 : ℤ), (i.2 : ℤ)) - 1 < curves.length := (List.getElem?_eq_some_iff.1 hf').1
    have : img ((i.1 : ℤ), (i.2 : ℤ)) - 1 = pre.length := by omega
    rw [this, hcv, List.getElem?_append_right le_rfl] at hf'
    simp at hf'
    subst hf'
    exact hbox x (near_inBox hc hr (sortLim_lt h1) (sortLim_lt h2) i.1.2 i.2.2 hx)
  have hb : ∀ q : Fin r × Fin c, ∃ f ∈ curves, (tctCoord cfg (pts2d (sortLim g1) (sortLim g2) r c q)).2 <
      f (tctCoord cfg (pts2d (sortLim g1) (sortLim g2) r c q)).1 := by
    intro q
    refine ⟨f, by rw [hcv]; simp, ?_⟩
    obtain ⟨a1, a2⟩ := axis_le hc (sortLim_lt h1) q.2.2
    obtain ⟨b1, b2⟩ := axis_le hr (sortLim_lt h2) q.1.2
    exact hpix _ a1 a2 b1 b2
  obtain ⟨occ, ho, -⟩ := C04_2d cfg ok curves h (pts2d (sortLim g1) (sortLim g2) r c)
    (fun ij : Fin r × Fin c => img ((ij.1 : ℤ), (ij.2 : ℤ)))
    (lab r c fun ij : Fin r × Fin c => img ((ij.1 : ℤ), (ij.2 : ℤ))) (fun i hi => hl i hi) (fun i _ => hb _)
  unfold ideal2d
  rw [him]
  simp only
  rw [ho]
  exact ⟨_, rfl⟩

/-- A scan that samples the last transition raises `IndexError`. -/
theorem ideal2d_touch (ok : CfgOk cfg) {pre : List (ℝ → ℝ)} {f : ℝ → ℝ} (hcv : curves = pre ++ [f])
    (h : IsCurves cfg.lut 1 cfg.params curves) (lab : Labelling) {g1 g2 : ℝ × ℝ} (h1 : g1.1 ≠ g1.2) (h2 : g2.1 ≠ g2.2)
    {r c : ℕ} (hr : 2 ≤ r) (hc : 2 ≤ c) (m : Fin ((c + r) * 4))
    (hm : inImage (sortLim g1) (sortLim g2) (pixStep (sortLim g1) c) (pixStep (sortLim g2) r)
      (rotatePoint cfg.rotation (sampleXs cfg.rotation (sortLim g1) (sortLim g2) c r m,
        f (sampleXs cfg.rotation (sortLim g1) (sortLim g2) c r m)))) :
    ideal2d cfg lab g1 g2 r c = .error .indexError := by
  obtain ⟨img, him, -⟩ := C13_mask_2d cfg curves h (sortLim g1) (sortLim g2) c r hc hr (sortLim_lt h1) (sortLim_lt h2)
  obtain ⟨i, j, hi, hj, e⟩ := label_last hcv h hc hr (sortLim_lt h1) (sortLim_lt h2) him m hm
  have hne : cfg.params ≠ [] := by
    intro hn
    have := h.length
    rw [hn, hcv] at this
    simp at this
  have := C06_2d_partial cfg ok curves h hne (pts2d (sortLim g1) (sortLim g2) r c)
    (fun ij : Fin r × Fin c => img ((ij.1 : ℤ), (ij.2 : ℤ)))
    (lab r c fun ij : Fin r × Fin c => img ((ij.1 : ℤ), (ij.2 : ℤ))) (⟨i, hi⟩, ⟨j, hj⟩) (Or.inr e)
  unfold ideal2d
  rw [him]
  simp only
  rw [this]

/-- A scan above all transitions raises `IndexError`. -/
theorem ideal2d_above (ok : CfgOk cfg) (hne : cfg.params ≠ [])
    (h : IsCurves cfg.lut 1 cfg.params curves) (lab : Labelling) {g1 g2 : ℝ × ℝ} (h1 : g1.1 ≠ g1.2) (h2 : g2.1 ≠ g2.2)
    {r c : ℕ} (hr : 2 ≤ r) (hc : 2 ≤ c)
    (hbox : ∀ f ∈ curves, ∀ x, ¬ InBox (sortLim g1) (sortLim g2) c r (rotatePoint cfg.rotation (x, f x)))
    (hpix : ∀ f ∈ curves, ∀ P : ℝ × ℝ, (sortLim g1).1 ≤ P.1 → P.1 ≤ (sortLim g1).2 → (sortLim g2).1 ≤ P.2 →
      P.2 ≤ (sortLim g2).2 → f (tctCoord cfg P).1 ≤ (tctCoord cfg P).2) :
    ideal2d cfg lab g1 g2 r c = .error .indexError := by
  obtain ⟨img, him, -⟩ := C13_mask_2d cfg curves h (sortLim g1) (sortLim g2) c r hc hr (sortLim_lt h1) (sortLim_lt h2)
  have hz : ∀ i : Fin r × Fin c, img ((i.1 : ℤ), (i.2 : ℤ)) = 0 := by
    intro i
    by_contra hi
    obtain ⟨f', hf', x, hx⟩ := C13_label_near cfg curves h _ _ c r hc hr (sortLim_lt h1) (sortLim_lt h2) img him i.1 i.2
      i.1.2 i.2.2 hi
    exact hbox f' (List.mem_of_getElem? hf') x (near_inBox hc hr (sortLim_lt h1) (sortLim_lt h2) i.1.2 i.2.2 hx)
  have := C06_2d_partial cfg ok curves h hne (pts2d (sortLim g1) (sortLim g2) r c)
    (fun ij : Fin r × Fin c => img ((ij.1 : ℤ), (ij.2 : ℤ)))
    (lab r c fun ij : Fin r × Fin c => img ((ij.1 : ℤ), (ij.2 : ℤ))) (⟨0, by omega⟩, ⟨0, by omega⟩)
    (Or.inl ⟨hz _, fun f hf => ?_⟩)
  · unfold ideal2d
    rw [him]
    simp only
    rw [this]
  · generalize (lab r c (fun ij : Fin r × Fin c => img ((ij.1 : ℤ), (ij.2 : ℤ))) (⟨0, by omega⟩, ⟨0, by omega⟩)) = q
    obtain ⟨a1, a2⟩ := axis_le hc (sortLim_lt h1) q.2.2
    obtain ⟨b1, b2⟩ := axis_le hr (sortLim_lt h2) q.1.2
    exact hpix f hf _ a1 a2 b1 b2

end SimCATS
