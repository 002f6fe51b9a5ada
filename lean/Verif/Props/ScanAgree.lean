import Verif.Lemmas.ScanAgree

/-! C93: line scans and images of one configuration show the same electrons at the same voltages. -/

namespace SimCATS

open Spec

/-! ### Occupations -/

/-- C93, two line scans: their pixels at the same voltages have the same occupations, whatever the limits, directions and numbers of pixels
of the two scans are. -/
theorem C93_lines (cfg : IdealCfg) (ok : CfgOk cfg) (lab lab' : Labelling) (a1 b1 a2 b2 a1' b1' a2' b2' : ℝ) (n n' : ℕ)
    (occ : Fin n → ℝ × ℝ) (lead : Fin n → ℕ) (occ' : Fin n' → ℝ × ℝ) (lead' : Fin n' → ℕ)
    (ho : idealCsd cfg lab [a1, b1] [a2, b2] (.int n) = .ok (.d1 n occ lead))
    (ho' : idealCsd cfg lab' [a1', b1'] [a2', b2'] (.int n') = .ok (.d1 n' occ' lead')) (i : Fin n) (k : Fin n')
    (hv : lineVoltages a1 b1 a2 b2 n i = lineVoltages a1' b1' a2' b2' n' k) : occ i = occ' k := by
  obtain ⟨curves, h⟩ := C05_curves_exist cfg ok
  obtain ⟨gf, hgf⟩ := gammaFactor_ok ok.cdf cfg.gf
  have e := line_region h hgf ho i
  have e' := line_region h hgf ho' k
  rw [hv, e'] at e
  exact (Except.ok.inj e).symm

/-- Non-vacuity: two lines with different directions and numbers of pixels of any valid configuration, which meet at (0, 0). -/
example (cfg : IdealCfg) (ok : CfgOk cfg) (lab : Labelling) : ∃ occ lead occ' lead',
    idealCsd cfg lab [-1, 1] [-1, 1] (.int ((3 : ℕ) : ℤ)) = .ok (.d1 3 occ lead) ∧
    idealCsd cfg lab [1, 0] [-2, 0] (.int ((6 : ℕ) : ℤ)) = .ok (.d1 6 occ' lead') ∧
    lineVoltages (-1) 1 (-1) 1 3 (1 : Fin 3) = lineVoltages 1 0 (-2) 0 6 (5 : Fin 6) := by
  obtain ⟨occ, lead, h⟩ := line_exists ok lab (-1) 1 (-1) 1 3
  obtain ⟨occ', lead', h'⟩ := line_exists ok lab 1 0 (-2) 0 6
  refine ⟨occ, lead, occ', lead', h, h', ?_⟩
  unfold lineVoltages
  ext <;> norm_num

/-- C93, a line scan and an image: a pixel of the image and a pixel of the line at the same voltages have the same occupations if the
pixel of the image is not labelled, in an image whose transitions are sampled densely, or is labelled and lies on or above the transition
(its voltages belong to the region of the label).  Missing: images with elongated pixels (see `C93_refuted`) and labelled pixels below the
transition (see `C93_label_refuted`). -/
theorem C93_line_image_partial (cfg : IdealCfg) (ok : CfgOk cfg) (lab lab' : Labelling) (hlab : IsLabelling lab') (curves : List (ℝ → ℝ))
    (h : IsCurves cfg.lut 1 cfg.params curves) (L ε : ℝ) (a1 b1 a2 b2 a1' b1' a2' b2' : ℝ) (n r c : ℕ)
    (occ : Fin n → ℝ × ℝ) (lead : Fin n → ℕ) (occ' : Fin r → Fin c → ℝ × ℝ) (lead' : Fin r → Fin c → ℕ)
    (ho : idealCsd cfg lab [a1, b1] [a2, b2] (.int n) = .ok (.d1 n occ lead))
    (ho' : idealCsd cfg lab' [a1', b1'] [a2', b2'] (.arr [c, r]) = .ok (.d2 r c occ' lead')) (k : Fin n) (i : Fin r) (j : Fin c)
    (hv : lineVoltages a1 b1 a2 b2 n k = pixelVoltages a1' b1' a2' b2' r c i j)
    (hd : lead' i j = 0 → DenseImage cfg.rotation curves L ε a1' b1' a2' b2' r c)
    (hl : lead' i j ≠ 0 → Spec.region curves (rotatePoint (-cfg.rotation) (pixelVoltages a1' b1' a2' b2' r c i j)) = lead' i j) :
    occ k = occ' i j := by
  obtain ⟨gf, hgf⟩ := gammaFactor_ok ok.cdf cfg.gf
  have e := line_region h hgf ho k
  have e' := image_region hlab h hgf ho' i j hd
  have hreg : (if lead' i j ≠ 0 then lead' i j else Spec.region curves (tctCoord cfg (pixelVoltages a1' b1' a2' b2' r c i j))) =
      Spec.region curves (tctCoord cfg (pixelVoltages a1' b1' a2' b2' r c i j)) := by
    by_cases h0 : lead' i j = 0
    · rw [if_neg (by simpa using h0)]
    · rw [if_pos h0]
      exact (hl h0).symm
  rw [hreg] at e'
  rw [hv] at e
  generalize hk : Spec.region curves (tctCoord cfg (pixelVoltages a1' b1' a2' b2' r c i j)) = reg at e e'
  by_cases hlen : reg = curves.length
  · by_cases h0 : reg = 0
    · rw [if_pos hlen] at e
      rw [h0, e] at e'
      exact Except.ok.inj e'
    · rw [regionOcc_error _ _ (Nat.pos_of_ne_zero h0) (by rw [hlen, h.length])] at e'
      exact nomatch e'
  · rw [if_neg hlen, e'] at e
    exact (Except.ok.inj e).symm

/-- C93, two images: pixels at the same voltages and with the same label (or both without label, in images whose transitions are sampled
densely) have the same occupations, whatever the ranges, directions and resolutions of the images are.  Missing: images with elongated
pixels (see `C93_refuted`) and pixels with different labels. -/
theorem C93_images_partial (cfg : IdealCfg) (ok : CfgOk cfg) (lab lab' : Labelling) (hlab : IsLabelling lab) (hlab' : IsLabelling lab')
    (curves : List (ℝ → ℝ)) (h : IsCurves cfg.lut 1 cfg.params curves) (L ε : ℝ) (a1 b1 a2 b2 a1' b1' a2' b2' : ℝ) (r c r' c' : ℕ)
    (occ : Fin r → Fin c → ℝ × ℝ) (lead : Fin r → Fin c → ℕ) (occ' : Fin r' → Fin c' → ℝ × ℝ) (lead' : Fin r' → Fin c' → ℕ)
    (ho : idealCsd cfg lab [a1, b1] [a2, b2] (.arr [c, r]) = .ok (.d2 r c occ lead))
    (ho' : idealCsd cfg lab' [a1', b1'] [a2', b2'] (.arr [c', r']) = .ok (.d2 r' c' occ' lead')) (i : Fin r) (j : Fin c) (i' : Fin r')
    (j' : Fin c') (hv : pixelVoltages a1 b1 a2 b2 r c i j = pixelVoltages a1' b1' a2' b2' r' c' i' j') (hl : lead i j = lead' i' j')
    (hd : lead i j = 0 → DenseImage cfg.rotation curves L ε a1 b1 a2 b2 r c ∧ DenseImage cfg.rotation curves L ε a1' b1' a2' b2' r' c') :
    occ i j = occ' i' j' := by
  obtain ⟨gf, hgf⟩ := gammaFactor_ok ok.cdf cfg.gf
  have e := image_region hlab h hgf ho i j fun h0 => (hd h0).1
  have e' := image_region hlab' h hgf ho' i' j' fun h0 => (hd (hl.trans h0)).2
  rw [hl, hv, e'] at e
  exact (Except.ok.inj e).symm

/-- Non-vacuity: an image of 51 x 51 pixels of the default configuration and a line through its first pixel, and the same image with a
descending sweep of gate 1. -/
example (lab : Labelling) : ∃ curves occ lead occ' lead' occ'' lead'', IsCurves defaultIdeal.lut 1 defaultIdeal.params curves ∧
    idealCsd defaultIdeal lab [-0.2, -0.087] [-0.2, -0.047] (.arr [((51 : ℕ) : ℤ), ((51 : ℕ) : ℤ)]) = .ok (.d2 51 51 occ lead) ∧
    idealCsd defaultIdeal lab [-0.2, -0.1] [-0.2, -0.1] (.int ((7 : ℕ) : ℤ)) = .ok (.d1 7 occ' lead') ∧
    idealCsd defaultIdeal lab [-0.087, -0.2] [-0.2, -0.047] (.arr [((51 : ℕ) : ℤ), ((51 : ℕ) : ℤ)]) = .ok (.d2 51 51 occ'' lead'') ∧
    lineVoltages (-0.2) (-0.1) (-0.2) (-0.1) 7 (0 : Fin 7) = pixelVoltages (-0.2) (-0.087) (-0.2) (-0.047) 51 51 (0 : Fin 51) (0 : Fin 51) ∧
    pixelVoltages (-0.087) (-0.2) (-0.2) (-0.047) 51 51 (0 : Fin 51) ((Fin.last 50 : Fin 51) : ℕ) =
      pixelVoltages (-0.2) (-0.087) (-0.2) (-0.047) 51 51 (0 : Fin 51) (0 : Fin 51) ∧
    lead 0 0 = 0 ∧ lead'' 0 (Fin.last 50) = 0 ∧
    DenseImage defaultIdeal.rotation curves 0.54688 0.000003 (-0.2) (-0.087) (-0.2) (-0.047) 51 51 ∧
    DenseImage defaultIdeal.rotation curves 0.54688 0.000003 (-0.087) (-0.2) (-0.2) (-0.047) 51 51 := by
  obtain ⟨curves, hcv⟩ := C05_curves_exist _ default_cfgOk
  obtain ⟨o, ho⟩ := default_fine lab (a1 := -0.2) (b1 := -0.087) (a2 := -0.2) (b2 := -0.047) (r := 51) (c := 51)
    (show Within (-0.2) (-0.087) (-0.2) (-0.087) by unfold Within; norm_num) (show Within (-0.2) (-0.047) (-0.2) (-0.047) by unfold Within; norm_num)
    (by norm_num) (by norm_num) (by norm_num) (by norm_num)
    (by rw [abs_of_nonneg (by norm_num), abs_of_nonneg (by norm_num)]; norm_num)
  have hi : idealCsd defaultIdeal lab [-0.2, -0.087] [-0.2, -0.047] (.arr [((51 : ℕ) : ℤ), ((51 : ℕ) : ℤ)]) = .ok (.d2 51 51 o.1 o.2) := by
    rw [idealCsd_2d defaultIdeal lab (g1 := (-0.2, -0.087)) (g2 := (-0.2, -0.047)) (by norm_num) (by norm_num) (r := 51) (c := 51) (by norm_num)
      (by norm_num), ho]
  obtain ⟨occ', lead', h'⟩ := line_exists default_cfgOk lab (-0.2) (-0.1) (-0.2) (-0.1) 7
  have hsw : ideal2d defaultIdeal lab (-0.087, -0.2) (-0.2, -0.047) 51 51 = .ok (mirrorCols o.1, mirrorCols o.2) := by
    have := C15_2d_gate1 defaultIdeal lab (-0.2, -0.087) (-0.2, -0.047) 51 51 (by norm_num)
    rw [ho] at this
    exact this
  have hi' : idealCsd defaultIdeal lab [-0.087, -0.2] [-0.2, -0.047] (.arr [((51 : ℕ) : ℤ), ((51 : ℕ) : ℤ)]) =
      .ok (.d2 51 51 (mirrorCols o.1) (mirrorCols o.2)) := by
    rw [idealCsd_2d defaultIdeal lab (g1 := (-0.087, -0.2)) (g2 := (-0.2, -0.047)) (by norm_num) (by norm_num) (r := 51) (c := 51) (by norm_num)
      (by norm_num), hsw]
  have hc := default_corner hi
  refine ⟨curves, o.1, o.2, occ', lead', _, _, hcv, hi, h', hi', ?_, ?_, hc, ?_, ⟨default_nearLipschitz hcv, ?_⟩, default_nearLipschitz hcv, ?_⟩
  · unfold lineVoltages pixelVoltages
    ext <;> norm_num
  · unfold pixelVoltages
    ext <;> norm_num
  · exact hc
  · exact dense45 rfl (by norm_num) (by norm_num) (sx := 0.00226) (sy := 0.00306) (by rw [abs_of_nonneg (by norm_num)]; norm_num)
      (by rw [abs_of_nonneg (by norm_num)]; norm_num) (by norm_num) (by norm_num) (by norm_num) (by norm_num)
  · exact dense45 rfl (by norm_num) (by norm_num) (sx := 0.00226) (sy := 0.00306) (by rw [abs_of_nonpos (by norm_num)]; norm_num)
      (by rw [abs_of_nonneg (by norm_num)]; norm_num) (by norm_num) (by norm_num) (by norm_num) (by norm_num)

/-! ### Signals -/

section signals

variable {σ : Type} (sim : Simulation σ) (cfg : IdealCfg) (ok : CfgOk cfg) (lab : Labelling) (sens : SensorGeneric)
  (hgen : sim.gen = some (idealGen cfg lab)) (hsens : sim.sensor = genericSensor sens) (hp : sens.peaks ≠ some [])
  (h1 : sim.occD = none) (h2 : sim.potD = none) (h3 : sim.respD = none)

include ok hgen hsens hp h1 h2 h3

/-- C93, measured lines: without distortions, two measured lines have the same occupations and signals at the same voltages. -/
theorem C93_measured_lines (a1 b1 a2 b2 a1' b1' a2' b2' : ℝ) (v1 v2 v1' v2' : Option ℝ) (n n' : ℕ) (s s' t t' : σ)
    (csd csd' : Scan ℝ) (occ occ' : Scan (ℝ × ℝ)) (lead lead' : Scan ℕ)
    (h : measure sim ⟨[a1, b1], [a2, b2], v1, v2, .int n⟩ s = (.ok (csd, occ, lead), s'))
    (h' : measure sim ⟨[a1', b1'], [a2', b2'], v1', v2', .int n'⟩ t = (.ok (csd', occ', lead'), t')) :
    ∃ y o y' o', csd = .d1 n y ∧ occ = .d1 n o ∧ csd' = .d1 n' y' ∧ occ' = .d1 n' o' ∧ ∀ (i : Fin n) (k : Fin n'),
      lineVoltages a1 b1 a2 b2 n i = lineVoltages a1' b1' a2' b2' n' k → o i = o' k ∧ y i = y' k := by
  obtain ⟨o, l, e, rfl, -, -, rfl, -⟩ := C70_line_partial sim cfg lab sens hgen hsens hp h1 h2 h3 a1 b1 a2 b2 v1 v2 n s s' _ _ _ h
  obtain ⟨o', l', e', rfl, -, -, rfl, -⟩ := C70_line_partial sim cfg lab sens hgen hsens hp h1 h2 h3 a1' b1' a2' b2' v1' v2' n' t t' _ _ _ h'
  refine ⟨_, o, _, o', rfl, rfl, rfl, rfl, fun i k hv => ?_⟩
  have ho := C93_lines cfg ok lab lab a1 b1 a2 b2 a1' b1' a2' b2' n n' o l o' l' e e' i k hv
  unfold lineVoltages at hv
  exact ⟨ho, by rw [ho, hv]⟩

/-- C93, a measured line and a measured image: without distortions, they have the same occupations and signals at the same voltages, for
the pixels of `C93_line_image_partial`. -/
theorem C93_measured_line_image_partial (hlab : IsLabelling lab) (curves : List (ℝ → ℝ)) (hc : IsCurves cfg.lut 1 cfg.params curves)
    (L ε : ℝ) (a1 b1 a2 b2 a1' b1' a2' b2' : ℝ) (v1 v2 v1' v2' : Option ℝ) (n r c : ℕ) (s s' t t' : σ)
    (csd csd' : Scan ℝ) (occ occ' : Scan (ℝ × ℝ)) (lead lead' : Scan ℕ) (hd : DenseImage cfg.rotation curves L ε a1' b1' a2' b2' r c)
    (h : measure sim ⟨[a1, b1], [a2, b2], v1, v2, .int n⟩ s = (.ok (csd, occ, lead), s'))
    (h' : measure sim ⟨[a1', b1'], [a2', b2'], v1', v2', .arr [c, r]⟩ t = (.ok (csd', occ', lead'), t')) :
    ∃ y o y' o' l', csd = .d1 n y ∧ occ = .d1 n o ∧ csd' = .d2 r c y' ∧ occ' = .d2 r c o' ∧ lead' = .d2 r c l' ∧ ∀ (k : Fin n) (i : Fin r) (j : Fin c),
      lineVoltages a1 b1 a2 b2 n k = pixelVoltages a1' b1' a2' b2' r c i j →
      (l' i j ≠ 0 → Spec.region curves (rotatePoint (-cfg.rotation) (pixelVoltages a1' b1' a2' b2' r c i j)) = l' i j) →
      o k = o' i j ∧ y k = y' i j := by
  obtain ⟨o, l, e, rfl, -, -, rfl, -⟩ := C70_line_partial sim cfg lab sens hgen hsens hp h1 h2 h3 a1 b1 a2 b2 v1 v2 n s s' _ _ _ h
  obtain ⟨o', l', e', rfl, rfl, rfl, -⟩ := C70_image_partial sim cfg lab sens hgen hsens hp h1 h2 h3 a1' b1' a2' b2' v1' v2' r c t t' _ _ _ h'
  refine ⟨_, o, _, o', l', rfl, rfl, rfl, rfl, rfl, fun k i j hv hl => ?_⟩
  have ho := C93_line_image_partial cfg ok lab lab hlab curves hc L ε a1 b1 a2 b2 a1' b1' a2' b2' n r c o l o' l' e e' k i j hv
    (fun _ => hd) hl
  unfold lineVoltages at hv
  exact ⟨ho, by rw [ho, hv]⟩

/-- C93, two measured images: without distortions, they have the same occupations and signals at the same voltages, for the pixels of
`C93_images_partial`. -/
theorem C93_measured_images_partial (hlab : IsLabelling lab) (curves : List (ℝ → ℝ)) (hc : IsCurves cfg.lut 1 cfg.params curves)
    (L ε : ℝ) (a1 b1 a2 b2 a1' b1' a2' b2' : ℝ) (v1 v2 v1' v2' : Option ℝ) (r c r' c' : ℕ) (s s' t t' : σ)
    (csd csd' : Scan ℝ) (occ occ' : Scan (ℝ × ℝ)) (lead lead' : Scan ℕ) (hd : DenseImage cfg.rotation curves L ε a1 b1 a2 b2 r c)
    (hd' : DenseImage cfg.rotation curves L ε a1' b1' a2' b2' r' c')
    (h : measure sim ⟨[a1, b1], [a2, b2], v1, v2, .arr [c, r]⟩ s = (.ok (csd, occ, lead), s'))
    (h' : measure sim ⟨[a1', b1'], [a2', b2'], v1', v2', .arr [c', r']⟩ t = (.ok (csd', occ', lead'), t')) :
    ∃ y o l y' o' l', csd = .d2 r c y ∧ occ = .d2 r c o ∧ lead = .d2 r c l ∧ csd' = .d2 r' c' y' ∧ occ' = .d2 r' c' o' ∧
      lead' = .d2 r' c' l' ∧ ∀ (i : Fin r) (j : Fin c) (i' : Fin r') (j' : Fin c'), pixelVoltages a1 b1 a2 b2 r c i j = pixelVoltages a1' b1' a2' b2' r' c' i' j' →
      l i j = l' i' j' → o i j = o' i' j' ∧ y i j = y' i' j' := by
  obtain ⟨o, l, e, rfl, rfl, rfl, -⟩ := C70_image_partial sim cfg lab sens hgen hsens hp h1 h2 h3 a1 b1 a2 b2 v1 v2 r c s s' _ _ _ h
  obtain ⟨o', l', e', rfl, rfl, rfl, -⟩ := C70_image_partial sim cfg lab sens hgen hsens hp h1 h2 h3 a1' b1' a2' b2' v1' v2' r' c' t t' _ _ _ h'
  refine ⟨_, o, l, _, o', l', rfl, rfl, rfl, rfl, rfl, rfl, fun i j i' j' hv hl => ?_⟩
  have ho := C93_images_partial cfg ok lab lab hlab hlab curves hc L ε a1 b1 a2 b2 a1' b1' a2' b2' r c r' c' o l o' l' e e' i j i' j' hv hl
    (fun _ => ⟨hd, hd'⟩)
  exact ⟨ho, by rw [ho, hv]⟩

end signals

/-! ### Sampled and default configurations -/

/-- C93 for the configurations of the sampler, a line and an image: in every image whose pixels have sides of at least 0.06 mV, none of
them more than three times as long as the other one, an unlabelled pixel has the occupations of every line scan through its voltages.
Missing: other images and labelled pixels. -/
theorem C93_sampled_partial {τ : Type} (rng : CfgRng τ) (hr : rng.Valid) (lab lab' : Labelling) (hlab : IsLabelling lab') (s s' : τ) (cfg : IdealCfg)
    (h : sampleIdealCSD rng lab s (.ok cfg, s')) (a1 b1 a2 b2 a1' b1' a2' b2' sx sy : ℝ) (n r c : ℕ)
    (hsx : |b1' - a1'| = sx * ((c : ℝ) - 1)) (hsy : |b2' - a2'| = sy * ((r : ℝ) - 1))
    (h1 : 0.00006 ≤ sx) (h2 : 0.00006 ≤ sy) (h3 : sx ≤ 3 * sy) (h4 : sy ≤ 3 * sx)
    (occ : Fin n → ℝ × ℝ) (lead : Fin n → ℕ) (occ' : Fin r → Fin c → ℝ × ℝ) (lead' : Fin r → Fin c → ℕ)
    (ho : idealCsd cfg lab' [a1, b1] [a2, b2] (.int n) = .ok (.d1 n occ lead))
    (ho' : idealCsd cfg lab' [a1', b1'] [a2', b2'] (.arr [c, r]) = .ok (.d2 r c occ' lead')) (k : Fin n) (i : Fin r) (j : Fin c)
    (hv : lineVoltages a1 b1 a2 b2 n k = pixelVoltages a1' b1' a2' b2' r c i j) (hl : lead' i j = 0) : occ k = occ' i j := by
  obtain ⟨_, _, e, p, v, m, ⟨g1, -⟩, rfl⟩ := sampleIdealCSD_tested hr lab s _ h
  cases e
  obtain ⟨curves, hcv⟩ := C05_curves_exist _ (g1.cfgOk (m + 1))
  have hL : ∀ f ∈ curves, NearLipschitz 0.54688 0.000003 f := by
    intro f hf
    obtain ⟨m, hm⟩ := List.mem_iff_getElem?.1 hf
    refine ⟨ladderCurve p v m, fun x y => ladderCurve_lipschitz g1 m y x, fun x => (ladder_near g1 hcv hm).2 x⟩
  obtain ⟨-, -, hc, hr, -⟩ := idealCsd_2d_ok ho'
  exact C93_line_image_partial _ (g1.cfgOk _) lab' lab' hlab curves hcv 0.54688 0.000003 a1 b1 a2 b2 a1' b1' a2' b2' n r c occ lead occ' lead' ho ho'
    k i j hv (fun _ => ⟨hL, dense45 rfl hr hc hsx hsy h1 h2 h3 h4⟩) fun hn => absurd hl hn

/-- Non-vacuity: an image of 29 x 29 pixels of 5 mV of a sampled configuration and a line through its unlabelled first pixel. -/
example (lab lab' : Labelling) : ∃ cfg occ lead occ' lead', sampleIdealCSD midRng lab () (.ok cfg, ()) ∧
    idealCsd cfg lab' [-0.06, -0.2] [-0.1, -0.2] (.int ((4 : ℕ) : ℤ)) = .ok (.d1 4 occ lead) ∧
    idealCsd cfg lab' [-0.2, -0.06] [-0.2, -0.06] (.arr [((29 : ℕ) : ℤ), ((29 : ℕ) : ℤ)]) = .ok (.d2 29 29 occ' lead') ∧
    |(-0.06 : ℝ) - -0.2| = 0.005 * (((29 : ℕ) : ℝ) - 1) ∧
    lineVoltages (-0.06) (-0.2) (-0.1) (-0.2) 4 (3 : Fin 4) = pixelVoltages (-0.2) (-0.06) (-0.2) (-0.06) 29 29 (0 : Fin 29) (0 : Fin 29) ∧
    lead' 0 0 = 0 := by
  obtain ⟨cfg, h⟩ := mid_returns lab
  have hstep : |(-0.06 : ℝ) - -0.2| = 0.005 * (((29 : ℕ) : ℝ) - 1) := by
    rw [abs_of_nonneg (by norm_num)]; norm_num
  obtain ⟨out, ho⟩ := C62_2d_partial midRng midRng_valid lab lab' () () cfg h (-0.2) (-0.06) (-0.2) (-0.06)
    (by simp only [List.mem_cons, List.not_mem_nil, or_false]; rintro x (rfl | rfl | rfl | rfl) <;> norm_num) (by norm_num) (by norm_num)
    29 29 (by norm_num) (by norm_num) (by rw [hstep]; norm_num) (by rw [hstep]; norm_num)
  have ho' := ho
  rw [idealCsd_2d cfg lab' (g1 := (-0.2, -0.06)) (g2 := (-0.2, -0.06)) (by norm_num) (by norm_num) (r := 29) (c := 29) (by norm_num)
    (by norm_num)] at ho'
  cases hx : ideal2d cfg lab' (-0.2, -0.06) (-0.2, -0.06) 29 29 with
  | error e => rw [hx] at ho'; exact nomatch ho'
  | ok o =>
    rw [hx] at ho'
    have e : out = .d2 29 29 o.1 o.2 := (Except.ok.inj ho').symm
    subst e
    obtain ⟨_, _, e, p, v, k, ⟨g1, -⟩, rfl⟩ := sampleIdealCSD_tested midRng_valid lab () _ h
    cases e
    obtain ⟨occ, lead, hl⟩ := line_exists (g1.cfgOk (k + 1)) lab' (-0.06) (-0.2) (-0.1) (-0.2) 4
    refine ⟨_, occ, lead, o.1, o.2, h, hl, ho, hstep, ?_, corner_unlabelled g1 ho⟩
    unfold lineVoltages pixelVoltages
    ext <;> norm_num

/-- C93 for the default configuration, measured: in every image whose pixels have sides of at least 0.06 mV, none of them more than three
times as long as the other one, an unlabelled pixel has the occupations and the signal of every line scan through its voltages.  Missing:
other images and labelled pixels. -/
theorem C93_default_partial {σ : Type} (lab : Labelling) (hlab : IsLabelling lab) (a1 b1 a2 b2 a1' b1' a2' b2' sx sy : ℝ)
    (v1 v2 v1' v2' : Option ℝ) (n r c : ℕ) (hr : 2 ≤ r) (hc : 2 ≤ c)
    (hsx : |b1' - a1'| = sx * ((c : ℝ) - 1)) (hsy : |b2' - a2'| = sy * ((r : ℝ) - 1))
    (h1 : 0.00006 ≤ sx) (h2 : 0.00006 ≤ sy) (h3 : sx ≤ 3 * sy) (h4 : sy ≤ 3 * sx) (s s' t t' : σ)
    (csd csd' : Scan ℝ) (occ occ' : Scan (ℝ × ℝ)) (lead lead' : Scan ℕ)
    (h : measure (defaultSim lab) ⟨[a1, b1], [a2, b2], v1, v2, .int n⟩ s = (.ok (csd, occ, lead), s'))
    (h' : measure (defaultSim lab) ⟨[a1', b1'], [a2', b2'], v1', v2', .arr [c, r]⟩ t = (.ok (csd', occ', lead'), t')) :
    ∃ y o y' o' l', csd = .d1 n y ∧ occ = .d1 n o ∧ csd' = .d2 r c y' ∧ occ' = .d2 r c o' ∧ lead' = .d2 r c l' ∧
      ∀ (k : Fin n) (i : Fin r) (j : Fin c), lineVoltages a1 b1 a2 b2 n k = pixelVoltages a1' b1' a2' b2' r c i j → l' i j = 0 →
      o k = o' i j ∧ y k = y' i j := by
  obtain ⟨curves, hcv⟩ := C05_curves_exist _ default_cfgOk
  obtain ⟨y, o, y', o', l', e1, e2, e3, e4, e5, hh⟩ := C93_measured_line_image_partial (defaultSim lab) defaultIdeal default_cfgOk lab defaultSensor
    rfl rfl (by simp [defaultSensor]) rfl rfl rfl hlab curves hcv 0.54688 0.000003 a1 b1 a2 b2 a1' b1' a2' b2' v1 v2 v1' v2' n r c s s' t t'
    csd csd' occ occ' lead lead' ⟨default_nearLipschitz hcv, dense45 rfl hr hc hsx hsy h1 h2 h3 h4⟩ h h'
  exact ⟨y, o, y', o', l', e1, e2, e3, e4, e5, fun k i j hv hl => hh k i j hv fun hn => absurd hl hn⟩

/-- Non-vacuity: the first row of an image of 51 x 51 pixels of the whole range of the default configuration, swept as a line from right to
left, and its unlabelled first pixel. -/
example (lab : Labelling) : ∃ y o l y' o' l', measure (defaultSim lab) ⟨[-0.087, -0.2], [-0.2, -0.2], none, none, .int (51 : ℕ)⟩ () =
      (.ok (.d1 51 y, .d1 51 o, .d1 51 l), ()) ∧
    measure (defaultSim lab) ⟨[-0.2, -0.087], [-0.2, -0.047], none, none, .arr [(51 : ℕ), (51 : ℕ)]⟩ () =
      (.ok (.d2 51 51 y', .d2 51 51 o', .d2 51 51 l'), ()) ∧
    (∀ j : Fin 51, lineVoltages (-0.087) (-0.2) (-0.2) (-0.2) 51 (j.rev : Fin 51) =
      pixelVoltages (-0.2) (-0.087) (-0.2) (-0.047) 51 51 (0 : Fin 51) j) ∧ l' 0 0 = 0 := by
  obtain ⟨y, o, l, h⟩ := C68_line_partial (σ := Unit) lab (-0.087) (-0.2) (-0.2) (-0.2) (by unfold Within; norm_num)
    (by unfold Within; norm_num) 51 (by norm_num) none none rfl ()
  obtain ⟨y', o', l', h'⟩ := C68_image_partial (σ := Unit) lab (-0.2) (-0.087) (-0.2) (-0.047) (by unfold Within; norm_num)
    (by unfold Within; norm_num) (by norm_num) (by norm_num) 51 51 (by norm_num)
    (by norm_num) (by rw [abs_of_nonneg (by norm_num), abs_of_nonneg (by norm_num)]; norm_num) none none rfl ()
  refine ⟨y, o, l, y', o', l', h, h', fun j => ?_, ?_⟩
  · unfold lineVoltages pixelVoltages
    have hj : ((j.rev : ℕ) : ℝ) = 50 - (j : ℕ) := by
      have : (j.rev : ℕ) + (j : ℕ) = 50 := by
        rw [Fin.val_rev]
        omega
      have h2 : ((j.rev : ℕ) : ℝ) + ((j : ℕ) : ℝ) = 50 := by exact_mod_cast this
      linarith
    rw [hj]
    ext <;> norm_num
    ring
  · obtain ⟨o2, l2, e, e1, e2, -⟩ := C70_image_partial (defaultSim lab) defaultIdeal lab defaultSensor rfl rfl (by simp [defaultSensor]) rfl rfl rfl
      _ _ _ _ _ _ _ _ _ _ _ _ _ h'
    have := default_corner e
    cases e2
    exact this

/-- C93 for configurations with rotation -π/4 and flat transitions: the electrons shown at a pair of plunger voltages, by a pixel of a line or
an unlabelled pixel of an image with fine pixels, do not depend on the scan. -/
theorem C93_shown_partial {cfg : IdealCfg} (ok : CfgOk cfg) (hrot : cfg.rotation = -Real.pi / 4) {lab : Labelling} (hlab : IsLabelling lab)
    {curves : List (ℝ → ℝ)} (hcv : IsCurves cfg.lut 1 cfg.params curves) (hL : ∀ f ∈ curves, NearLipschitz 0.54688 0.000003 f)
    {lim1 lim2 P P' o o' : ℝ × ℝ} (h : Shown (idealCsd cfg lab) lim1 lim2 P o) (h' : Shown (idealCsd cfg lab) lim1 lim2 P' o') (hP : P = P') :
    o = o' := by
  have hdense : ∀ {a1 b1 a2 b2 : ℝ} {r c : ℕ} {occ : Fin r → Fin c → ℝ × ℝ} {lead : Fin r → Fin c → ℕ}, FinePixels a1 b1 a2 b2 r c →
      idealCsd cfg lab [a1, b1] [a2, b2] (.arr [c, r]) = .ok (.d2 r c occ lead) →
      DenseImage cfg.rotation curves 0.54688 0.000003 a1 b1 a2 b2 r c := by
    rintro a1 b1 a2 b2 r c occ lead ⟨sx, sy, hsx, hsy, h1, h2, h3, h4⟩ ho
    obtain ⟨-, -, hc, hr, -⟩ := idealCsd_2d_ok ho
    exact ⟨hL, dense45 hrot hr hc hsx hsy h1 h2 h3 h4⟩
  cases h with
  | line a1 b1 a2 b2 n occ lead hin ho i =>
    cases h' with
    | line a1' b1' a2' b2' n' occ' lead' hin' ho' i' =>
      exact C93_lines cfg ok lab lab a1 b1 a2 b2 a1' b1' a2' b2' n n' occ lead occ' lead' ho ho' i i' hP
    | image a1' b1' a2' b2' r' c' occ' lead' hp' ho' i' j' hl' =>
      exact C93_line_image_partial cfg ok lab lab hlab curves hcv _ _ a1 b1 a2 b2 a1' b1' a2' b2' n r' c' occ lead occ' lead' ho ho' i i' j' hP
        (fun _ => hdense hp' ho') fun hn => absurd hl' hn
  | image a1 b1 a2 b2 r c occ lead hp ho i j hl =>
    cases h' with
    | line a1' b1' a2' b2' n' occ' lead' hin' ho' i' =>
      exact (C93_line_image_partial cfg ok lab lab hlab curves hcv _ _ a1' b1' a2' b2' a1 b1 a2 b2 n' r c occ' lead' occ lead ho' ho i' i j hP.symm
        (fun _ => hdense hp ho) fun hn => absurd hl hn).symm
    | image a1' b1' a2' b2' r' c' occ' lead' hp' ho' i' j' hl' =>
      exact C93_images_partial cfg ok lab lab hlab hlab curves hcv _ _ a1 b1 a2 b2 a1' b1' a2' b2' r c r' c' occ lead occ' lead' ho ho' i j i' j' hP
        (hl.trans hl'.symm) fun _ => ⟨hdense hp ho, hdense hp' ho'⟩

/-- C93 for the default configuration: the electrons shown at a pair of plunger voltages, by a pixel of a line or an unlabelled pixel of an
image with fine pixels, do not depend on the scan. -/
theorem C93_default_shown_partial (lab : Labelling) (hlab : IsLabelling lab) (lim1 lim2 P o o' : ℝ × ℝ)
    (h : Shown (idealCsd defaultIdeal lab) lim1 lim2 P o) (h' : Shown (idealCsd defaultIdeal lab) lim1 lim2 P o') : o = o' := by
  obtain ⟨curves, hcv⟩ := C05_curves_exist _ default_cfgOk
  exact C93_shown_partial default_cfgOk rfl hlab hcv (default_nearLipschitz hcv) h h' rfl

/-- C93 for the configurations of the sampler: the electrons shown at a pair of plunger voltages, by a pixel of a line or an unlabelled
pixel of an image with fine pixels, do not depend on the scan. -/
theorem C93_sampled_shown_partial {τ : Type} (rng : CfgRng τ) (hr : rng.Valid) (lab lab' : Labelling) (hlab : IsLabelling lab') (s s' : τ)
    (cfg : IdealCfg) (h : sampleIdealCSD rng lab s (.ok cfg, s')) (lim1 lim2 P o o' : ℝ × ℝ)
    (h1 : Shown (idealCsd cfg lab') lim1 lim2 P o) (h2 : Shown (idealCsd cfg lab') lim1 lim2 P o') : o = o' := by
  obtain ⟨_, _, e, p, v, m, ⟨g1, -⟩, rfl⟩ := sampleIdealCSD_tested hr lab s _ h
  cases e
  obtain ⟨curves, hcv⟩ := C05_curves_exist _ (g1.cfgOk (m + 1))
  have hL : ∀ f ∈ curves, NearLipschitz 0.54688 0.000003 f := by
    intro f hf
    obtain ⟨m, hm⟩ := List.mem_iff_getElem?.1 hf
    refine ⟨ladderCurve p v m, fun x y => ladderCurve_lipschitz g1 m y x, fun x => (ladder_near g1 hcv hm).2 x⟩
  exact C93_shown_partial (g1.cfgOk (m + 1)) rfl hlab hcv hL h1 h2 rfl

/-- Non-vacuity: a line and an image of a sampled configuration that show electrons at the same plunger voltages. -/
example (lab lab' : Labelling) : ∃ cfg o o', sampleIdealCSD midRng lab () (.ok cfg, ()) ∧
    Shown (idealCsd cfg lab') (-0.2, -0.05) (-0.2, -0.05) (-0.2, -0.2) o ∧ Shown (idealCsd cfg lab') (-0.2, -0.05) (-0.2, -0.05) (-0.2, -0.2) o' := by
  obtain ⟨cfg, h⟩ := mid_returns lab
  obtain ⟨_, _, e, p, v, k, ⟨g1, -⟩, rfl⟩ := sampleIdealCSD_tested midRng_valid lab () _ h
  cases e
  obtain ⟨occ, lead, hl⟩ := line_exists (g1.cfgOk (k + 1)) lab' (-0.06) (-0.2) (-0.1) (-0.2) 4
  have hstep : |(-0.06 : ℝ) - -0.2| = 0.005 * (((29 : ℕ) : ℝ) - 1) := by
    rw [abs_of_nonneg (by norm_num)]; norm_num
  obtain ⟨out, ho⟩ := C62_2d_partial midRng midRng_valid lab lab' () () _ h (-0.2) (-0.06) (-0.2) (-0.06)
    (by simp only [List.mem_cons, List.not_mem_nil, or_false]; rintro x (rfl | rfl | rfl | rfl) <;> norm_num) (by norm_num) (by norm_num)
    29 29 (by norm_num) (by norm_num) (by rw [hstep]; norm_num) (by rw [hstep]; norm_num)
  obtain ⟨occ', lead', ho'⟩ : ∃ occ' lead', idealCsd (sampledIdeal (ladder p v (k + 1))) lab' [-0.2, -0.06] [-0.2, -0.06]
      (.arr [((29 : ℕ) : ℤ), ((29 : ℕ) : ℤ)]) = .ok (.d2 29 29 occ' lead') := by
    have e := idealCsd_2d (sampledIdeal (ladder p v (k + 1))) lab' (g1 := (-0.2, -0.06)) (g2 := (-0.2, -0.06)) (by norm_num) (by norm_num) (r := 29)
      (c := 29) (by norm_num) (by norm_num)
    cases hx : ideal2d (sampledIdeal (ladder p v (k + 1))) lab' (-0.2, -0.06) (-0.2, -0.06) 29 29 with
    | error e' =>
      rw [hx, ho] at e
      exact nomatch e
    | ok o =>
      rw [hx] at e
      exact ⟨o.1, o.2, e⟩
  refine ⟨_, occ 3, occ' 0 0, h, ?_, ?_⟩
  · have := Shown.line (csd := idealCsd (sampledIdeal (ladder p v (k + 1))) lab') (lim1 := (-0.2, -0.05)) (lim2 := (-0.2, -0.05)) (-0.06) (-0.2) (-0.1)
      (-0.2) 4 occ lead (by unfold SweepInside; norm_num) hl 3
    rwa [show lineVoltages (-0.06) (-0.2) (-0.1) (-0.2) 4 (3 : Fin 4) = (-0.2, -0.2) by unfold lineVoltages; ext <;> norm_num] at this
  · have := Shown.image (csd := idealCsd (sampledIdeal (ladder p v (k + 1))) lab') (lim1 := (-0.2, -0.05)) (lim2 := (-0.2, -0.05)) (-0.2) (-0.06) (-0.2)
      (-0.06) 29 29 occ' lead' ⟨0.005, 0.005, hstep, hstep, by norm_num, by norm_num, by norm_num, by norm_num⟩ ho' 0 0 (corner_unlabelled g1 ho')
    rwa [show pixelVoltages (-0.2) (-0.06) (-0.2) (-0.06) 29 29 (0 : Fin 29) (0 : Fin 29) = (-0.2, -0.2) by unfold pixelVoltages; ext <;> norm_num] at this

/-! ### Counterexamples -/

/-- C93 is violated: in an image with wide and low pixels there is an unlabelled pixel which has not the electrons of a line scan at the
same voltages. -/
theorem C93_refuted (lab : Labelling) (hlab : IsLabelling lab) :
    ∃ occ lead, idealCsd sampleCfg lab [-28, -20] [-24.05, -23.55] (.arr [((2 : ℕ) : ℤ), ((2 : ℕ) : ℤ)]) = .ok (.d2 2 2 occ lead) ∧
      ∃ i j, lead i j = 0 ∧ ∃ x y occ' lead', idealCsd sampleCfg lab [x, x] [y, y] (.int ((1 : ℕ) : ℤ)) = .ok (.d1 1 occ' lead') ∧
        pixelVoltages (-28) (-20) (-24.05) (-23.55) 2 2 i j = (x, y) ∧ (occ' 0).1 + (occ' 0).2 ≠ (occ i j).1 + (occ i j).2 := by
  obtain ⟨curves, h⟩ := C05_curves_exist _ sampleCfg_ok
  obtain ⟨occ, lead, e, i, j, hl, hn⟩ := C67_refuted lab hlab curves h
  refine ⟨occ, lead, e, i, j, hl, ?_⟩
  have hb : ∀ k : Fin 2, (0 : ℝ) ≤ ((k : ℕ) : ℝ) ∧ ((k : ℕ) : ℝ) ≤ 1 := by
    intro k
    refine ⟨Nat.cast_nonneg _, ?_⟩
    have : (k : ℕ) ≤ 1 := by omega
    exact_mod_cast this
  have hbel := sample_below h (q := pixelVoltages (-28) (-20) (-24.05) (-23.55) 2 2 i j)
    (by have := hb j; unfold pixelVoltages; norm_num) (by have := hb j; unfold pixelVoltages; norm_num; linarith)
    (by have := hb i; unfold pixelVoltages; norm_num; linarith)
  generalize pixelVoltages (-28) (-20) (-24.05) (-23.55) 2 2 i j = q at hn hbel ⊢
  obtain ⟨x, y⟩ := q
  have hline : ∀ k : Fin 1, lineVoltages x x y y 1 k = (x, y) := by
    intro k
    simp [lineVoltages]
  obtain ⟨occ', lead', e'⟩ := line_exists sampleCfg_ok lab x x y y 1
  refine ⟨x, y, occ', lead', e', rfl, fun heq => ?_⟩
  have hd := C05_api_1d sampleCfg sampleCfg_ok lab curves h x x y y 1 occ' lead' e' 0 _ (by
    have := hline 0
    unfold lineVoltages at this
    rw [this]) hbel
  obtain ⟨-, -, hc, hr, h2⟩ := idealCsd_2d_ok e
  obtain ⟨img, -, hp⟩ := ideal2d_pixel sampleCfg_ok h hr hc h2
  obtain ⟨ij, -, -, hd'⟩ := hp i j
  apply hn
  refine ⟨hd'.1, hd'.2.1, ?_⟩
  rw [← heq]
  exact hd.2.2

/-- C93 is violated for labelled pixels: a labelled pixel below its transition has one electron more than a line scan at the same
voltages. -/
theorem C93_label_refuted (lab : Labelling) :
    ∃ occ lead occ' lead', idealCsd sampleCfg lab [-28, -20] [-30, -26] (.arr [((2 : ℕ) : ℤ), ((2 : ℕ) : ℤ)]) = .ok (.d2 2 2 occ lead) ∧
      idealCsd sampleCfg lab [-28, -28] [-30, -30] (.int ((1 : ℕ) : ℤ)) = .ok (.d1 1 occ' lead') ∧ lead 0 0 = 1 ∧
        pixelVoltages (-28) (-20) (-30) (-26) 2 2 0 0 = (-28, -30) ∧ (occ 0 0).1 + (occ 0 0).2 = 1 ∧ occ' 0 = (0, 0) := by
  obtain ⟨curves, h⟩ := C05_curves_exist _ sampleCfg_ok
  have hs1 : sortLim (-28, -20) = (-28, -20) := by
    unfold sortLim
    rw [min_eq_left (by norm_num), max_eq_right (by norm_num)]
  have hs2 : sortLim (-30, -26) = (-30, -26) := by
    unfold sortLim
    rw [min_eq_left (by norm_num), max_eq_right (by norm_num)]
  obtain ⟨img, him, -⟩ := C13_mask_2d sampleCfg curves h (-28, -20) (-30, -26) 2 2 (by norm_num) (by norm_num) (by norm_num)
    (by norm_num)
  obtain ⟨hle, h1⟩ := low_mask him
  have hb : ∀ k : Fin 2, (0 : ℝ) ≤ ((k : ℕ) : ℝ) ∧ ((k : ℕ) : ℝ) ≤ 1 := by
    intro k
    refine ⟨Nat.cast_nonneg _, ?_⟩
    have : (k : ℕ) ≤ 1 := by omega
    exact_mod_cast this
  have hbel : ∀ ij : Fin 2 × Fin 2, ∃ f ∈ curves, (tctCoord sampleCfg (pts2d (-28, -20) (-30, -26) 2 2 ij)).2 <
      f (tctCoord sampleCfg (pts2d (-28, -20) (-30, -26) 2 2 ij)).1 := by
    intro ij
    have b1 := hb ij.1
    have b2 := hb ij.2
    refine sample_below h ?_ ?_ ?_ <;> simp only [pts2d, linspace, linAt] <;> norm_num <;> linarith
  obtain ⟨occ, hocc, hdist⟩ := C04_2d sampleCfg sampleCfg_ok curves h (pts2d (-28, -20) (-30, -26) 2 2)
    (fun ij => img ((ij.1 : ℤ), (ij.2 : ℤ))) (lab 2 2 fun ij => img ((ij.1 : ℤ), (ij.2 : ℤ)))
    (fun ij _ => lt_of_le_of_lt (hle ij.1 ij.2 ij.1.2 ij.2.2) (by simp [sampleCfg])) (fun ij _ => hbel _)
  have h2d : ideal2d sampleCfg lab (-28, -20) (-30, -26) 2 2 = .ok (fun i j => occ (i, j), fun i j => img ((i : ℤ), (j : ℤ))) := by
    unfold ideal2d
    rw [hs1, hs2, him]
    simp only
    rw [hocc]
    have n1 : ¬ ((-28 : ℝ) > -20) := by norm_num
    have n2 : ¬ ((-30 : ℝ) > -26) := by norm_num
    simp only [flipCols, flipRows, if_neg n1, if_neg n2]
  have hline : ∀ k : Fin 1, lineVoltages (-28) (-28) (-30) (-30) 1 k = (-28, -30) := by
    intro k
    simp [lineVoltages]
  have hbl := sample_below h (q := (-28, -30)) (by norm_num) (by norm_num) (by norm_num)
  obtain ⟨occ', lead', e'⟩ := line_exists sampleCfg_ok lab (-28) (-28) (-30) (-30) 1
  have hd := C05_api_1d sampleCfg sampleCfg_ok lab curves h (-28) (-28) (-30) (-30) 1 occ' lead' e' 0 _ (by
    have := hline 0
    unfold lineVoltages at this
    rw [this]) hbl
  have hreg : Spec.region curves (rotatePoint (-sampleCfg.rotation) (-28, -30)) = 0 := by
    obtain ⟨f, g, rfl, hf, hg⟩ := sampleCfg_curves h
    have hrot : rotatePoint (-sampleCfg.rotation) (-28, -30) = (-28, -30) := by
      simp [rotatePoint, sampleCfg]
    rw [hrot, region_cons, if_pos]
    rw [hf _ (by norm_num)]
    norm_num
  rw [hreg] at hd
  have d0 := hdist (0, 0)
  rw [show img ((((0, 0) : Fin 2 × Fin 2).1 : ℤ), (((0, 0) : Fin 2 × Fin 2).2 : ℤ)) = 1 from h1, if_pos (by norm_num)] at d0
  refine ⟨fun i j => occ (i, j), fun i j => img ((i : ℤ), (j : ℤ)), occ', lead', ?_, e', h1, ?_, ?_, ?_⟩
  · rw [idealCsd_2d sampleCfg lab (g1 := (-28, -20)) (g2 := (-30, -26)) (by norm_num) (by norm_num) (r := 2) (c := 2) (by norm_num)
      (by norm_num), h2d]
  · simp [pixelVoltages]
  · have := d0.2.2
    simpa using this
  · obtain ⟨p1, p2, p3⟩ := hd
    simp only [Nat.cast_zero] at p3
    ext
    · simp only; linarith
    · simp only; linarith

end SimCATS
