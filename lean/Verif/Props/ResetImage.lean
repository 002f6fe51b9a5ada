import Verif.Props.ResetScan
import Verif.Props.IdealApi
import Verif.Props.Retuning

/-!
C22 for images: `reset_offset_mu_sens` evaluates a line, `measure` an image.  The first pixel of the image can have other
electrons than the first pixel of the line, and then its potential is not the requested one.
-/

namespace SimCATS

open Spec

/-- A sensor whose potential is the number of electrons plus its offset. -/
def countingSensor : SensorGeneric := ⟨none, (1, 1), (0, 0), 0⟩

/-- If the first pixel of an image has a different number of electrons than its region, the requested potential is missed. -/
theorem reset_misses (lab : Labelling) (curves : List (ℝ → ℝ)) (h : IsCurves sampleCfg.lut 1 sampleCfg.params curves)
    (g1 g2 : ℝ × ℝ) (target : ℝ) (hx : g1.1 < 0) (hbelow : g2.1 < g1.1 + 10)
    (occ : Fin 2 → Fin 2 → ℝ × ℝ) (hocc : (occ 0 0).1 + (occ 0 0).2 ≠ Spec.region curves (g1.1, g2.1)) :
    ∃ s' mu, resetOffset countingSensor (idealAt2 sampleCfg lab) target g1 g2 = .ok s' ∧
      s'.potential (.d2 2 2 occ) g1 g2 = .ok mu ∧ firstPixel mu ≠ some target := by
  obtain ⟨o, l, ho, hat⟩ := idealAt2_line sampleCfg_ok lab g1 g2
  obtain ⟨f, g, hfg, -, hg⟩ := sampleCfg_curves h
  have hd := C05_api_1d sampleCfg sampleCfg_ok lab curves h g1.1 g1.2 g2.1 g2.2 2 o l ho 0 (g1.1, g2.1)
    (by simp [rotatePoint, sampleCfg]) ⟨g, by rw [hfg]; simp, by rw [hg _ hx]; exact hbelow⟩
  have hs := hd.2.2
  refine ⟨{ countingSensor with offset := target - ((o 0).1 + (o 0).2) }, _, ?_, rfl, ?_⟩
  · unfold resetOffset
    rw [hat]
    simp [SensorGeneric.potential, countingSensor, dot2]
  · simp only [firstPixel, countingSensor, dot2]
    rw [dif_pos (by norm_num)]
    intro hc
    rw [Option.some.injEq] at hc
    apply hocc
    rw [← hs]
    have : (occ 0 0).1 + (occ 0 0).2 - ((o 0).1 + (o 0).2) = 0 := by
      have e : (⟨0, by norm_num⟩ : Fin 2) = 0 := rfl
      rw [e] at hc
      simp only [mul_one, mul_zero, add_zero] at hc
      linarith
    linarith

/-- C22 is violated for images: after a successful `reset_offset_mu_sens` for the voltage ranges of a 2 × 2 image the potential
of the first pixel of this image is not the requested one. -/
theorem C22_refuted (lab : Labelling) (hlab : IsLabelling lab) (target : ℝ) :
    ∃ (g1 g2 : ℝ × ℝ) (s' : SensorGeneric) (occ : Fin 2 → Fin 2 → ℝ × ℝ) (lead : Fin 2 → Fin 2 → ℕ) (mu : Scan ℝ),
      resetOffset countingSensor (idealAt2 sampleCfg lab) target g1 g2 = .ok s' ∧
      idealCsd sampleCfg lab [g1.1, g1.2] [g2.1, g2.2] (.arr [2, 2]) = .ok (.d2 2 2 occ lead) ∧
      s'.potential (.d2 2 2 occ) g1 g2 = .ok mu ∧ firstPixel mu ≠ some target := by
  obtain ⟨curves, h⟩ := C05_curves_exist sampleCfg sampleCfg_ok
  obtain ⟨occ, lead, hcsd, i, j, -, hbad⟩ := C67_refuted lab hlab curves h
  obtain ⟨hcol, hrow, hboth⟩ := C15_api_2d sampleCfg lab (-28) (-20) (-24.05) (-23.55) 2 2
  have hcsd' : idealCsd sampleCfg lab [-28, -20] [-24.05, -23.55] (.arr [2, 2]) = .ok (.d2 2 2 occ lead) := hcsd
  rw [hcsd'] at hcol hrow hboth
  have hne : (occ i j).1 + (occ i j).2 ≠ Spec.region curves (pixelVoltages (-28) (-20) (-24.05) (-23.55) 2 2 i j) := by
    intro hc
    obtain ⟨k, -, hk⟩ := C04_ideal sampleCfg sampleCfg_ok lab _ _ _ _ hcsd' i j
    apply hbad
    have hrot : ∀ q : ℝ × ℝ, rotatePoint (-sampleCfg.rotation) q = q := by
      intro q
      simp [rotatePoint, sampleCfg]
    rw [hrot]
    exact ⟨hk.1, hk.2.1, hc⟩
  have p00 : pixelVoltages (-28) (-20) (-24.05) (-23.55) 2 2 (0 : Fin 2) (0 : Fin 2) = (-28, -24.05) := by
    simp only [pixelVoltages]
    ext <;> norm_num
  have p01 : pixelVoltages (-28) (-20) (-24.05) (-23.55) 2 2 (0 : Fin 2) (1 : Fin 2) = (-20, -24.05) := by
    simp only [pixelVoltages]
    ext <;> norm_num
  have p10 : pixelVoltages (-28) (-20) (-24.05) (-23.55) 2 2 (1 : Fin 2) (0 : Fin 2) = (-28, -23.55) := by
    simp only [pixelVoltages]
    ext <;> norm_num
  have p11 : pixelVoltages (-28) (-20) (-24.05) (-23.55) 2 2 (1 : Fin 2) (1 : Fin 2) = (-20, -23.55) := by
    simp only [pixelVoltages]
    ext <;> norm_num
  have hij : (i = 0 ∨ i = 1) ∧ (j = 0 ∨ j = 1) := by omega
  obtain ⟨rfl | rfl, rfl | rfl⟩ := hij
  · rw [p00] at hne
    obtain ⟨s', mu, h1, h2, h3⟩ := reset_misses lab curves h (-28, -20) (-24.05, -23.55) target (by norm_num) (by norm_num) occ hne
    exact ⟨_, _, s', occ, lead, mu, h1, hcsd', h2, h3⟩
  · rw [p01] at hne
    obtain ⟨s', mu, h1, h2, h3⟩ := reset_misses lab curves h (-20, -28) (-24.05, -23.55) target (by norm_num) (by norm_num)
      (fun i j => occ i j.rev) hne
    exact ⟨_, _, s', _, fun i j => lead i j.rev, mu, h1, hcol, h2, h3⟩
  · rw [p10] at hne
    obtain ⟨s', mu, h1, h2, h3⟩ := reset_misses lab curves h (-28, -20) (-23.55, -24.05) target (by norm_num) (by norm_num)
      (fun i j => occ i.rev j) hne
    exact ⟨_, _, s', _, fun i j => lead i.rev j, mu, h1, hrow, h2, h3⟩
  · rw [p11] at hne
    obtain ⟨s', mu, h1, h2, h3⟩ := reset_misses lab curves h (-20, -28) (-23.55, -24.05) target (by norm_num) (by norm_num)
      (fun i j => occ i.rev j.rev) hne
    exact ⟨_, _, s', _, fun i j => lead i.rev j.rev, mu, h1, hboth, h2, h3⟩

/-- C22 for images of the geometric ideal CSD: the potential of the first pixel is the requested one, if the pixels are small compared
with the bends of the transitions (needed only if the first pixel is not labelled) and the label of the first pixel, if there is one, is
that of its region. -/
theorem C22_image_partial (cfg : IdealCfg) (ok : CfgOk cfg) (lab : Labelling) (hlab : IsLabelling lab) (curves : List (ℝ → ℝ))
    (hc : IsCurves cfg.lut 1 cfg.params curves) (L ε : ℝ) (s s' : SensorGeneric) (target : ℝ) (g1 g2 : ℝ × ℝ)
    (h : resetOffset s (idealAt2 cfg lab) target g1 g2 = .ok s') (r c : ℕ) (e1 e2 : ℝ)
    (occ : Fin (r + 1) → Fin (c + 1) → ℝ × ℝ) (lead : Fin (r + 1) → Fin (c + 1) → ℕ)
    (ho : idealCsd cfg lab [g1.1, e1] [g2.1, e2] (.arr [((c + 1 : ℕ) : ℤ), ((r + 1 : ℕ) : ℤ)]) = .ok (.d2 (r + 1) (c + 1) occ lead))
    (hd : lead 0 0 = 0 → DenseImage cfg.rotation curves L ε g1.1 e1 g2.1 e2 (r + 1) (c + 1))
    (hl : lead 0 0 ≠ 0 → Spec.region curves (rotatePoint (-cfg.rotation) (g1.1, g2.1)) = lead 0 0) :
    ∃ mu, s'.potential (.d2 (r + 1) (c + 1) occ) (g1.1, e1) (g2.1, e2) = .ok mu ∧ firstPixel mu = some target := by
  obtain ⟨o, l, hline, hat⟩ := idealAt2_line ok lab g1 g2
  have he : o 0 = occ 0 0 := C93_line_image_partial cfg ok lab lab hlab curves hc L ε g1.1 g1.2 g2.1 g2.2 g1.1 e1 g2.1 e2 2 (r + 1) (c + 1)
    o l occ lead hline ho 0 0 0 (by simp [lineVoltages, pixelVoltages]) hd
    (fun hx => by rw [← hl hx]; simp [pixelVoltages])
  exact C22_reset_2d_partial s s' _ target g1 g2 h r c 1 o hat e1 e2 occ he.symm

/-- C22 for images of the configurations made by the sampler: every image with pixel sides of at least 0.06 mV that differ by at most a
factor of 3 and an unlabelled first pixel. -/
theorem C22_image_sampled_partial {τ : Type} (rng : CfgRng τ) (hv : rng.Valid) (lab lab' : Labelling) (hlab : IsLabelling lab') (t t' : τ)
    (cfg : IdealCfg) (hcfg : sampleIdealCSD rng lab t (.ok cfg, t')) (s s' : SensorGeneric) (target : ℝ) (g1 g2 : ℝ × ℝ)
    (h : resetOffset s (idealAt2 cfg lab') target g1 g2 = .ok s') (r c : ℕ) (e1 e2 sx sy : ℝ)
    (hsx : |e1 - g1.1| = sx * c) (hsy : |e2 - g2.1| = sy * r) (h1 : 0.00006 ≤ sx) (h2 : 0.00006 ≤ sy) (h3 : sx ≤ 3 * sy) (h4 : sy ≤ 3 * sx)
    (occ : Fin (r + 1) → Fin (c + 1) → ℝ × ℝ) (lead : Fin (r + 1) → Fin (c + 1) → ℕ)
    (ho : idealCsd cfg lab' [g1.1, e1] [g2.1, e2] (.arr [((c + 1 : ℕ) : ℤ), ((r + 1 : ℕ) : ℤ)]) = .ok (.d2 (r + 1) (c + 1) occ lead))
    (hl : lead 0 0 = 0) :
    ∃ mu, s'.potential (.d2 (r + 1) (c + 1) occ) (g1.1, e1) (g2.1, e2) = .ok mu ∧ firstPixel mu = some target := by
  obtain ⟨o, l, hline, hat⟩ := idealAt2_line (sampled_ideal_ok hv hcfg) lab' g1 g2
  have he : o 0 = occ 0 0 := C93_sampled_partial rng hv lab lab' hlab t t' cfg hcfg g1.1 g1.2 g2.1 g2.2 g1.1 e1 g2.1 e2 sx sy 2 (r + 1) (c + 1)
    (by push_cast; rw [hsx]; ring) (by push_cast; rw [hsy]; ring) h1 h2 h3 h4 o l occ lead hline ho 0 0 0
    (by simp [lineVoltages, pixelVoltages]) hl
  exact C22_reset_2d_partial s s' _ target g1 g2 h r c 1 o hat e1 e2 occ he.symm

/-- Non-vacuity (`DenseImage` of the theorem before holds for such images, as the proof of `C93_sampled_partial` shows): an image of 29 x 29 pixels of 5 mV, whose first pixel is not labelled. -/
example (lab lab' : Labelling) (hlab : IsLabelling lab') (s : SensorGeneric) (target : ℝ) : ∃ cfg t' s' mu,
    ∃ (occ : Fin 29 → Fin 29 → ℝ × ℝ) (lead : Fin 29 → Fin 29 → ℕ), sampleIdealCSD fairRng lab 0 (.ok cfg, t') ∧
    resetOffset s (idealAt2 cfg lab') target (-0.2, -0.06) (-0.2, -0.06) = .ok s' ∧
    idealCsd cfg lab' [-0.2, -0.06] [-0.2, -0.06] (.arr [((28 + 1 : ℕ) : ℤ), ((28 + 1 : ℕ) : ℤ)]) = .ok (.d2 29 29 occ lead) ∧
    lead 0 0 = 0 ∧ s'.potential (.d2 29 29 occ) (-0.2, -0.06) (-0.2, -0.06) = .ok mu ∧ firstPixel mu = some target := by
  obtain ⟨c, t', hc⟩ := fair_config lab "SensorGeneric" (by simp) true
  obtain ⟨-, t1, hi, -⟩ := config_parts hc
  have ok := sampled_ideal_ok fairRng_valid hi
  obtain ⟨s', h1⟩ := C22_succeeds c.ideal ok lab' s target (-0.2, -0.06) (-0.2, -0.06)
  have hstep : |(-0.06 : ℝ) - -0.2| = 0.005 * (((29 : ℕ) : ℝ) - 1) := by
    rw [abs_of_nonneg (by norm_num)]; norm_num
  have hstep' : |(-0.06 : ℝ) - -0.2| = 0.005 * ((28 : ℕ) : ℝ) := by
    rw [hstep]; norm_num
  obtain ⟨out, ho⟩ := C62_2d_partial fairRng fairRng_valid lab lab' 0 t1 c.ideal hi (-0.2) (-0.06) (-0.2) (-0.06)
    (by simp only [List.mem_cons, List.not_mem_nil, or_false]; rintro x (rfl | rfl | rfl | rfl) <;> norm_num) (by norm_num) (by norm_num)
    29 29 (by norm_num) (by norm_num) (by rw [hstep]; norm_num) (by rw [hstep]; norm_num)
  have ho' := ho
  rw [idealCsd_2d c.ideal lab' (g1 := (-0.2, -0.06)) (g2 := (-0.2, -0.06)) (by norm_num) (by norm_num) (r := 29) (c := 29) (by norm_num)
    (by norm_num)] at ho'
  cases hx : ideal2d c.ideal lab' (-0.2, -0.06) (-0.2, -0.06) 29 29 with
  | error e => rw [hx] at ho'; exact nomatch ho'
  | ok o =>
    rw [hx] at ho'
    have e : out = .d2 29 29 o.1 o.2 := (Except.ok.inj ho').symm
    subst e
    have hl : o.2 0 0 = 0 := by
      have ho2 := ho
      obtain ⟨_, _, e, p, v, k, ⟨g1, -⟩, ec⟩ := sampleIdealCSD_tested fairRng_valid lab 0 _ hi
      cases e
      rw [ec] at ho2
      exact corner_unlabelled g1 ho2
    obtain ⟨mu, h2, h3⟩ := C22_image_sampled_partial fairRng fairRng_valid lab lab' hlab 0 t1 c.ideal hi s s' target (-0.2, -0.06) (-0.2, -0.06)
      h1 28 28 (-0.06) (-0.06) 0.005 0.005 hstep' hstep' (by norm_num) (by norm_num) (by norm_num) (by norm_num) o.1 o.2 ho hl
    exact ⟨c.ideal, t1, s', mu, o.1, o.2, hi, h1, ho, hl, h2, h3⟩

end SimCATS
