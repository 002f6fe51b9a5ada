import Verif.Lemmas.ChargeMonotone

/-! C90: raising plunger voltages never removes electrons. -/

namespace SimCATS

open Spec

/-- C90, lines without a lookup table: for transitions with slopes between -1 and 1 (in the rotated coordinates), the number of electrons
at a pixel of a line is at most that at every pixel, of this or another line, with voltages that are at least as high, if this pixel is
below the last transition. -/
theorem C90_line (cfg : IdealCfg) (ok : CfgOk cfg) (hrot : cfg.rotation = -Real.pi / 4) (hlut : cfg.lut = none)
    (hs : ∀ p ∈ cfg.params, p.gradL ≤ 1 ∧ -1 ≤ p.gradR) (lab lab' : Labelling) (curves : List (ℝ → ℝ))
    (hcv : IsCurves cfg.lut 1 cfg.params curves) (a1 b1 a2 b2 a1' b1' a2' b2' : ℝ) (n n' : ℕ) (occ : Fin n → ℝ × ℝ) (occ' : Fin n' → ℝ × ℝ)
    (lead : Fin n → ℕ) (lead' : Fin n' → ℕ) (ho : idealCsd cfg lab [a1, b1] [a2, b2] (.int n) = .ok (.d1 n occ lead))
    (ho' : idealCsd cfg lab' [a1', b1'] [a2', b2'] (.int n') = .ok (.d1 n' occ' lead')) (i : Fin n) (j : Fin n')
    (hr : Raised (lineVoltages a1 b1 a2 b2 n i) (lineVoltages a1' b1' a2' b2' n' j))
    (hb : ∃ f ∈ curves, (rotatePoint (-cfg.rotation) (lineVoltages a1' b1' a2' b2' n' j)).2 <
      f (rotatePoint (-cfg.rotation) (lineVoltages a1' b1' a2' b2' n' j)).1) :
    (occ i).1 + (occ i).2 ≤ (occ' j).1 + (occ' j).2 := by
  have hL := exact_lipschitz ok hlut hs hcv
  have hε : 2 * (0 : ℝ) ≤ (1 - 1) * (kap * ((lineVoltages a1' b1' a2' b2' n' j).1 - (lineVoltages a1 b1 a2 b2 n i).1 +
    ((lineVoltages a1' b1' a2' b2' n' j).2 - (lineVoltages a1 b1 a2 b2 n i).2))) := by simp
  have hb' : ∃ f ∈ curves, (rotatePoint (-cfg.rotation) (lineVoltages a1 b1 a2 b2 n i)).2 <
      f (rotatePoint (-cfg.rotation) (lineVoltages a1 b1 a2 b2 n i)).1 := by
    obtain ⟨f, hf, hlt⟩ := hb
    refine ⟨f, hf, ?_⟩
    by_contra hn
    have := raised_stays zero_le_one (hL f hf) hr hε (rotate_cfg hrot _) (rotate_cfg hrot _) (not_lt.1 hn)
    linarith
  exact (C05_api_1d cfg ok lab curves hcv a1 b1 a2 b2 n occ lead ho i _ rfl hb').total_le
    (C05_api_1d cfg ok lab' curves hcv a1' b1' a2' b2' n' occ' lead' ho' j _ rfl hb) (region_raised hrot zero_le_one hL hr hε)

/-- Non-vacuity: along the diagonal of the voltage range of the default configuration without lookup table. -/
example (lab : Labelling) : ∃ occ lead, idealCsd exactDefault lab [-0.2, -0.087] [-0.2, -0.047] (.int (50 : ℕ)) = .ok (.d1 50 occ lead) ∧
    ∀ i j : Fin 50, i ≤ j → (occ i).1 + (occ i).2 ≤ (occ j).1 + (occ j).2 := by
  obtain ⟨curves, hcv⟩ := C05_curves_exist _ exactDefault_ok
  have hin : SweepInside (-0.2, -0.087) (-0.2, -0.047) (-0.2) (-0.087) (-0.2) (-0.047) := by unfold SweepInside; norm_num
  obtain ⟨occ, hocc, -⟩ := C04_1d _ exactDefault_ok curves hcv (pts1d (-0.2, -0.087) (-0.2, -0.047) 50) (fun i =>
    exactDefault_below hcv (lineVoltages_mem hin i).1.2 (lineVoltages_mem hin i).2.2)
  obtain ⟨o, ho1⟩ : ∃ o, ideal1d exactDefault (-0.2, -0.087) (-0.2, -0.047) 50 = .ok o := by
    unfold ideal1d
    rw [hocc]
    exact ⟨_, rfl⟩
  have ho : idealCsd exactDefault lab [-0.2, -0.087] [-0.2, -0.047] (.int (50 : ℕ)) = .ok (.d1 50 o.1 o.2) := by
    unfold idealCsd
    simp only [Resolution.entries, idealCheck_1d]
    rw [if_neg (by omega)]
    simp only [Int.toNat_natCast]
    rw [ho1]
  refine ⟨o.1, o.2, ho, fun i j hij => ?_⟩
  refine C90_line exactDefault exactDefault_ok rfl rfl exactDefault_slopes lab lab curves hcv _ _ _ _ _ _ _ _ 50 50 o.1 o.1 _ _ ho ho i j ?_
    (exactDefault_below hcv (lineVoltages_mem hin j).1.2 (lineVoltages_mem hin j).2.2)
  unfold Raised lineVoltages
  constructor <;> norm_num <;> assumption

/-- C90, images without a lookup table: the same for the unlabelled pixels of images whose transitions are sampled densely. -/
theorem C90_image (cfg : IdealCfg) (ok : CfgOk cfg) (hrot : cfg.rotation = -Real.pi / 4) (hlut : cfg.lut = none)
    (hs : ∀ p ∈ cfg.params, p.gradL ≤ 1 ∧ -1 ≤ p.gradR) (lab lab' : Labelling) (hlab : IsLabelling lab) (hlab' : IsLabelling lab')
    (a1 b1 a2 b2 a1' b1' a2' b2' : ℝ) (r c r' c' : ℕ)
    (hd : √2 * sampleDistance cfg.rotation |b1 - a1| |b2 - a2| r c < min (|b1 - a1| / ((c : ℝ) - 1)) (|b2 - a2| / ((r : ℝ) - 1)))
    (hd' : √2 * sampleDistance cfg.rotation |b1' - a1'| |b2' - a2'| r' c' <
      min (|b1' - a1'| / ((c' : ℝ) - 1)) (|b2' - a2'| / ((r' : ℝ) - 1)))
    (occ : Fin r → Fin c → ℝ × ℝ) (lead : Fin r → Fin c → ℕ) (occ' : Fin r' → Fin c' → ℝ × ℝ) (lead' : Fin r' → Fin c' → ℕ)
    (ho : idealCsd cfg lab [a1, b1] [a2, b2] (.arr [c, r]) = .ok (.d2 r c occ lead))
    (ho' : idealCsd cfg lab' [a1', b1'] [a2', b2'] (.arr [c', r']) = .ok (.d2 r' c' occ' lead'))
    (i : Fin r) (j : Fin c) (i' : Fin r') (j' : Fin c') (hl : lead i j = 0) (hl' : lead' i' j' = 0)
    (hr : Raised (pixelVoltages a1 b1 a2 b2 r c i j) (pixelVoltages a1' b1' a2' b2' r' c' i' j')) :
    (occ i j).1 + (occ i j).2 ≤ (occ' i' j').1 + (occ' i' j').2 := by
  obtain ⟨curves, hcv⟩ := C05_curves_exist cfg ok
  have hL := exact_lipschitz ok hlut hs hcv
  have e : (1 : ℝ) + 1 ^ 2 = 2 := by norm_num
  exact (C67_partial cfg ok lab hlab curves hcv 1 0 hL a1 b1 a2 b2 r c (by rw [e]; linarith) occ lead ho i j hl).total_le
    (C67_partial cfg ok lab' hlab' curves hcv 1 0 hL a1' b1' a2' b2' r' c' (by rw [e]; linarith) occ' lead' ho' i' j' hl')
    (region_raised hrot zero_le_one hL hr (by simp))

/-- Non-vacuity: an image of the voltage range of the default configuration without lookup table. -/
example (lab : Labelling) (hlab : IsLabelling lab) :
    ∃ occ lead, idealCsd exactDefault lab [-0.2, -0.087] [-0.2, -0.047] (.arr [((51 : ℕ) : ℤ), ((51 : ℕ) : ℤ)]) = .ok (.d2 51 51 occ lead) ∧
    ∀ i i' j j' : Fin 51, i ≤ i' → j ≤ j' → lead i j = 0 → lead i' j' = 0 → (occ i j).1 + (occ i j).2 ≤ (occ i' j').1 + (occ i' j').2 := by
  obtain ⟨curves, hcs⟩ := C05_curves_exist _ exactDefault_ok
  obtain ⟨pre, f, hcv, hf⟩ := exactDefault_last hcs
  have w1 : Within (-0.2) (-0.087) (-0.2) (-0.087) := by unfold Within; norm_num
  have w2 : Within (-0.2) (-0.047) (-0.2) (-0.047) := by unfold Within; norm_num
  have t1 : sortLim (-0.2, -0.087) = (-0.2, -0.087) := by
    unfold sortLim
    rw [min_eq_left (by norm_num), max_eq_right (by norm_num)]
  have t2 : sortLim (-0.2, -0.047) = (-0.2, -0.047) := by
    unfold sortLim
    rw [min_eq_left (by norm_num), max_eq_right (by norm_num)]
  obtain ⟨o, ho⟩ : ∃ o, ideal2d exactDefault lab (-0.2, -0.087) (-0.2, -0.047) 51 51 = .ok o := by
    refine ideal2d_below exactDefault_ok hcv hcs lab (by norm_num) (by norm_num) (by norm_num) (by norm_num) ?_ ?_
    · rintro x ⟨-, h2, -, h4⟩
      have hr := rotate_default (x, f x)
      change rotatePoint exactDefault.rotation _ = _ at hr
      rw [hr, t1] at h2
      rw [hr, t2] at h4
      simp only at h2 h4
      refine default_box hf (s1 := 0.113 / 50) (s2 := 0.153 / 50) (by norm_num) (by norm_num) (by norm_num) x ?_ ?_
      · unfold pixStep at h2
        norm_num at h2 ⊢
        linarith
      · unfold pixStep at h4
        norm_num at h4 ⊢
        linarith
    · intro P _ h2 _ h4
      exact default_below hf (h2.trans w1.sort.2) (h4.trans w2.sort.2)
  have ho' : idealCsd exactDefault lab [-0.2, -0.087] [-0.2, -0.047] (.arr [((51 : ℕ) : ℤ), ((51 : ℕ) : ℤ)]) = .ok (.d2 51 51 o.1 o.2) := by
    rw [idealCsd_2d exactDefault lab (g1 := (-0.2, -0.087)) (g2 := (-0.2, -0.047)) (by norm_num) (by norm_num) (by norm_num) (by norm_num), ho]
  have hd : √2 * sampleDistance exactDefault.rotation |(-0.087 : ℝ) - -0.2| |(-0.047 : ℝ) - -0.2| 51 51 <
      min (|(-0.087 : ℝ) - -0.2| / (((51 : ℕ) : ℝ) - 1)) (|(-0.047 : ℝ) - -0.2| / (((51 : ℕ) : ℝ) - 1)) := by
    have e1 : |(-0.087 : ℝ) - -0.2| = 0.113 := by rw [abs_of_nonneg (by norm_num)]; norm_num
    have e2 : |(-0.047 : ℝ) - -0.2| = 0.153 := by rw [abs_of_nonneg (by norm_num)]; norm_num
    have hcos : |Real.cos (-Real.pi / 4)| = √2 / 2 := by
      rw [neg_div, Real.cos_neg, Real.cos_pi_div_four, abs_of_nonneg (by positivity)]
    have hsin : |Real.sin (-Real.pi / 4)| = √2 / 2 := by
      rw [neg_div, Real.sin_neg, Real.sin_pi_div_four, abs_neg, abs_of_nonneg (by positivity)]
    have hs : √2 * √2 = 2 := Real.mul_self_sqrt (by norm_num)
    have hh := sqrt_half_le
    unfold sampleDistance exactDefault
    rw [e1, e2, hcos, hsin, min_eq_left (by norm_num)]
    norm_num at hh ⊢
    nlinarith
  refine ⟨o.1, o.2, ho', fun i i' j j' hi hj hl hl' => ?_⟩
  refine C90_image exactDefault exactDefault_ok rfl rfl exactDefault_slopes lab lab hlab hlab _ _ _ _ _ _ _ _ 51 51 51 51 hd hd _ _ _ _ ho' ho'
    i j i' j' hl hl' ?_
  unfold Raised pixelVoltages
  constructor <;> norm_num <;> assumption

/-- C90 for the default configurations: raising the plunger voltages, together by at least 0.02 mV, never removes electrons.  Missing:
smaller steps (see `C90_default_refuted`), labelled pixels, and images with smaller or more elongated pixels. -/
theorem C90_default_partial (lab lab' : Labelling) (hlab : IsLabelling lab) (hlab' : IsLabelling lab') (P Q o o' : ℝ × ℝ)
    (h : Shown (idealCsd defaultIdeal lab) (-0.2, -0.087) (-0.2, -0.047) P o)
    (h' : Shown (idealCsd defaultIdeal lab') (-0.2, -0.087) (-0.2, -0.047) Q o') (hr : Raised P Q)
    (hm : 0.00002 ≤ Q.1 - P.1 + (Q.2 - P.2)) : o.1 + o.2 ≤ o'.1 + o'.2 := by
  obtain ⟨curves, hcv⟩ := C05_curves_exist _ default_cfgOk
  exact (default_shown hlab hcv h).total_le (default_shown hlab' hcv h')
    (region_raised rfl (by norm_num) (default_nearLipschitz hcv) hr (raised_margin hm))

/-- Non-vacuity: every line upwards through the voltage range is returned, and its electrons increase if the pixels are at least 0.02 mV
apart. -/
example (lab : Labelling) (hlab : IsLabelling lab) :
    ∃ occ lead, idealCsd defaultIdeal lab [-0.2, -0.087] [-0.2, -0.047] (.int (50 : ℕ)) = .ok (.d1 50 occ lead) ∧
    ∀ i j : Fin 50, i ≤ j → (occ i).1 + (occ i).2 ≤ (occ j).1 + (occ j).2 := by
  obtain ⟨o, ho⟩ := default_line (a1 := -0.2) (b1 := -0.087) (a2 := -0.2) (b2 := -0.047) (l1 := -0.2) (l2 := -0.2)
    (by unfold Within; norm_num) (by unfold Within; norm_num) 50
  have ho' : idealCsd defaultIdeal lab [-0.2, -0.087] [-0.2, -0.047] (.int (50 : ℕ)) = .ok (.d1 50 o.1 o.2) := by
    unfold idealCsd
    simp only [Resolution.entries, idealCheck_1d]
    rw [if_neg (by omega)]
    simp only [Int.toNat_natCast]
    rw [ho]
  refine ⟨o.1, o.2, ho', fun i j hij => ?_⟩
  rcases hij.eq_or_lt with rfl | hlt
  · exact le_rfl
  have hin : SweepInside (-0.2, -0.087) (-0.2, -0.047) (-0.2) (-0.087) (-0.2) (-0.047) := by unfold SweepInside; norm_num
  have e : ((i : ℕ) : ℝ) + 1 ≤ ((j : ℕ) : ℝ) := by exact_mod_cast hlt
  refine C90_default_partial lab lab hlab hlab _ _ _ _ (.line _ _ _ _ 50 o.1 o.2 hin ho' i) (.line _ _ _ _ 50 o.1 o.2 hin ho' j) ?_ ?_
  · unfold Raised lineVoltages
    constructor <;> norm_num <;> assumption
  · unfold lineVoltages
    norm_num
    linarith

/-- C90 for sampled configurations: raising the plunger voltages, together by at least 0.02 mV, never removes electrons.  Missing: smaller
steps, labelled pixels, and images with smaller or more elongated pixels. -/
theorem C90_sampled_partial {τ : Type} (rng : CfgRng τ) (hv : rng.Valid) (lab0 lab lab' : Labelling) (hlab : IsLabelling lab)
    (hlab' : IsLabelling lab') (s s' : τ) (cfg : IdealCfg) (hs : sampleIdealCSD rng lab0 s (.ok cfg, s')) (P Q o o' : ℝ × ℝ)
    (h : Shown (idealCsd cfg lab) (-0.2, -0.06) (-0.2, -0.06) P o) (h' : Shown (idealCsd cfg lab') (-0.2, -0.06) (-0.2, -0.06) Q o')
    (hr : Raised P Q) (hm : 0.00002 ≤ Q.1 - P.1 + (Q.2 - P.2)) : o.1 + o.2 ≤ o'.1 + o'.2 := by
  obtain ⟨_, _, e, p, v, k, ⟨g1, -, ⟨out, ht⟩, -⟩, rfl⟩ := sampleIdealCSD_tested hv lab0 s _ hs
  cases e
  obtain ⟨curves, hcv⟩ := ladder_curves g1 (k + 1)
  have hL : ∀ f ∈ curves, NearLipschitz 0.54688 0.000003 f := by
    intro f hf
    obtain ⟨m, hm⟩ := List.mem_iff_getElem?.1 hf
    exact ⟨ladderCurve p v m, fun x y => ladderCurve_lipschitz g1 m y x, fun x => (ladder_near g1 hcv hm).2 x⟩
  exact (sampled_shown g1 ht hlab hcv hL h).total_le (sampled_shown g1 ht hlab' hcv hL h')
    (region_raised rfl (by norm_num) hL hr (raised_margin hm))

/-- Non-vacuity: a line of 50 pixels with the configuration that is sampled if all random numbers are in the middle of their ranges. -/
example (lab : Labelling) (hlab : IsLabelling lab) : ∃ cfg occ lead, sampleIdealCSD midRng lab () (.ok cfg, ()) ∧
    idealCsd cfg lab [-0.2, -0.06] [-0.2, -0.06] (.int (50 : ℕ)) = .ok (.d1 50 occ lead) ∧
    ∀ i j : Fin 50, i ≤ j → (occ i).1 + (occ i).2 ≤ (occ j).1 + (occ j).2 := by
  obtain ⟨cfg, h⟩ := mid_returns lab
  obtain ⟨_, _, e, p, v, k, ⟨g1, -, ⟨out, ht⟩, -⟩, he⟩ := sampleIdealCSD_tested midRng_valid lab () _ h
  cases e
  obtain ⟨o, ho⟩ := line_ok g1 lab ht (g1 := (-0.2, -0.06)) (g2 := (-0.2, -0.06)) (by unfold InLimits; norm_num) (by unfold InLimits; norm_num) 50
  rw [← he] at ho
  have ho' : idealCsd cfg lab [-0.2, -0.06] [-0.2, -0.06] (.int (50 : ℕ)) = .ok (.d1 50 o.1 o.2) := by
    unfold idealCsd
    simp only [Resolution.entries, idealCheck_1d]
    rw [if_neg (by omega)]
    simp only [Int.toNat_natCast]
    rw [ho]
  refine ⟨cfg, o.1, o.2, h, ho', fun i j hij => ?_⟩
  rcases hij.eq_or_lt with rfl | hlt
  · exact le_rfl
  have hin : SweepInside (-0.2, -0.06) (-0.2, -0.06) (-0.2) (-0.06) (-0.2) (-0.06) := by unfold SweepInside; norm_num
  have e : ((i : ℕ) : ℝ) + 1 ≤ ((j : ℕ) : ℝ) := by exact_mod_cast hlt
  refine C90_sampled_partial midRng midRng_valid lab lab lab hlab hlab () () cfg h _ _ _ _ (.line _ _ _ _ 50 o.1 o.2 hin ho' i)
    (.line _ _ _ _ 50 o.1 o.2 hin ho' j) ?_ ?_
  · unfold Raised lineVoltages
    constructor <;> norm_num <;> assumption
  · unfold lineVoltages
    norm_num
    linarith

/-! ### Small steps with a lookup table -/

/-- C90 does not hold for small steps with a lookup table: with a default configuration, raising the voltage of one gate by less than
0.01 µV removes an electron. -/
theorem C90_default_refuted (lab : Labelling) : ∃ a1 b1 a2 : ℝ, SweepInside (-0.2, -0.087) (-0.2, -0.047) a1 b1 a2 a2 ∧ a1 < b1 ∧
    b1 < a1 + 0.00000001 ∧
    ∃ occ lead, idealCsd defaultIdeal lab [a1, b1] [a2, a2] (.int (2 : ℕ)) = .ok (.d1 2 occ lead) ∧
      1 ≤ (occ 0).1 + (occ 0).2 ∧ (occ 1).1 + (occ 1).2 = 0 := by
  obtain ⟨curves, hcv⟩ := C05_curves_exist _ default_cfgOk
  have ok := default_lineOk _ (List.mem_of_getElem? defaultFirst_mem)
  obtain ⟨t1, t2, t3, t4, t5, t6⟩ := defaultFirst_table (X := _) (Y := _) rfl rfl
  have hl : curves.length = 14 := hcv.length
  obtain ⟨f, fs, hfs⟩ : ∃ f fs, curves = f :: fs := by
    cases curves with
    | nil => simp at hl
    | cons f fs => exact ⟨f, fs, rfl⟩
  obtain ⟨q, hq, hx⟩ := hcv.getElem? (show curves[0]? = some f by rw [hfs]; rfl)
  have hq' : defaultTcts[0]? = some q := hq
  rw [defaultFirst_mem] at hq'
  cases hq'
  have hx' : ∀ x, tctBezierAt defaultFirst (some 1000) (some 1) x = .ok (f x) := hx
  have n0 : defaultFirst.x0 = -0.02750187 := rfl
  have n1 : defaultFirst.y0 = -0.17179705 := rfl
  have n2 : defaultFirst.x2 = -0.02674207 := rfl
  obtain ⟨m, hm⟩ : ∃ m : ℝ, m = (bezCoord defaultFirst.x0 (lineCenter defaultFirst).1 defaultFirst.x2 (linAt 0 1 1000 0) +
    bezCoord defaultFirst.x0 (lineCenter defaultFirst).1 defaultFirst.x2 (linAt 0 1 1000 1)) / 2 := ⟨_, rfl⟩
  have f1 : f (m - 0.000000001) = defaultFirst.y0 := by
    rw [first_curve ok.tctCenter ok.per (by rw [n0, n2]; norm_num) (by norm_num) hx' (by norm_num at *; linarith) (by norm_num at *; linarith),
      lut_first ok.center (by norm_num) (by norm_num at *; linarith) (by norm_num at *; linarith), t2]
  have f2 : defaultFirst.y0 + 0.0000003 ≤ f (m + 0.000000001) := by
    rw [first_curve ok.tctCenter ok.per (by rw [n0, n2]; norm_num) (by norm_num) hx' (by norm_num at *; linarith) (by norm_num at *; linarith),
      lut_second ok.center (by norm_num) (by norm_num at *; linarith) (by norm_num at *; linarith) (by norm_num at *; linarith)]
    linarith
  have hm1 : -0.0275019 ≤ m := by norm_num at *; linarith
  have hm2 : m ≤ -0.0275 := by norm_num at *; linarith
  obtain ⟨k1, k2⟩ := kap_bounds
  have ks := kap_sq
  norm_num at k1 k2 hm1 hm2
  obtain ⟨P, hP⟩ : ∃ P : ℝ × ℝ, P = (kap * (m - 0.000000001) + kap * defaultFirst.y0, kap * defaultFirst.y0 - kap * (m - 0.000000001)) :=
    ⟨_, rfl⟩
  have p1 : P.1 = kap * (m - 0.000000001) + kap * defaultFirst.y0 := by rw [hP]
  have p2 : P.2 = kap * defaultFirst.y0 - kap * (m - 0.000000001) := by rw [hP]
  have c1 : kap * P.1 - kap * P.2 = m - 0.000000001 := by
    rw [p1, p2]
    linear_combination (2 * (m - 0.000000001)) * ks
  have c2 : kap * P.1 + kap * P.2 = defaultFirst.y0 := by
    rw [p1, p2]
    linear_combination (2 * defaultFirst.y0) * ks
  have hd : kap * (kap * 0.000000004) = 0.000000002 := by linear_combination 0.000000004 * ks
  have q1 := rotate_cfg (cfg := defaultIdeal) rfl P
  have q2 := rotate_cfg (cfg := defaultIdeal) rfl (P.1 + kap * 0.000000004, P.2)
  have hin : SweepInside (-0.2, -0.087) (-0.2, -0.047) P.1 (P.1 + kap * 0.000000004) P.2 P.2 := by
    rw [n1] at p1 p2
    norm_num at p1 p2
    have b1 : -0.1411 ≤ P.1 ∧ P.1 ≤ -0.1408 := by
      rw [p1]
      norm_num
      constructor <;> nlinarith
    have b2 : -0.1023 ≤ P.2 ∧ P.2 ≤ -0.1020 := by
      rw [p2]
      norm_num
      constructor <;> nlinarith
    unfold SweepInside
    norm_num at b1 b2 ⊢
    refine ⟨⟨?_, ?_⟩, ⟨?_, ?_⟩, ?_, ?_⟩ <;> linarith
  refine ⟨P.1, P.1 + kap * 0.000000004, P.2, hin, by norm_num, by norm_num; linarith, ?_⟩
  obtain ⟨o, ho⟩ := default_line (l1 := -0.2) (l2 := -0.2) ⟨hin.1, hin.2.1⟩ ⟨hin.2.2.1, hin.2.2.2⟩ 2
  have ho' : idealCsd defaultIdeal lab [P.1, P.1 + kap * 0.000000004] [P.2, P.2] (.int (2 : ℕ)) = .ok (.d1 2 o.1 o.2) := by
    unfold idealCsd
    simp only [Resolution.entries, idealCheck_1d]
    rw [if_neg (by omega)]
    simp only [Int.toNat_natCast]
    rw [ho]
  refine ⟨o.1, o.2, ho', ?_, ?_⟩
  · have e : lineVoltages P.1 (P.1 + kap * 0.000000004) P.2 P.2 2 (0 : Fin 2) = P := by simp [lineVoltages]
    obtain ⟨pre, g, hcf, hg⟩ := default_last hcv
    have h := C05_api_1d _ default_cfgOk lab curves hcv _ _ _ _ 2 o.1 o.2 ho' 0 _ rfl (by
      obtain ⟨u1, u2⟩ := lineVoltages_mem hin (0 : Fin 2)
      exact ⟨g, by rw [hcf]; simp, default_below (fun x => (hg x).2) u1.2 u2.2⟩)
    change Distributes (Spec.region curves (rotatePoint _ (lineVoltages P.1 (P.1 + kap * 0.000000004) P.2 P.2 2 (0 : Fin 2)))) _ at h
    rw [e, q1, c1, c2] at h
    rw [h.2.2]
    have : 1 ≤ Spec.region curves (m - 0.000000001, defaultFirst.y0) := by
      rw [hfs]
      unfold Spec.region
      rw [List.findIdx_cons]
      simp only [f1, lt_self_iff_false, decide_false, cond_false]
      omega
    exact_mod_cast this
  · have e : lineVoltages P.1 (P.1 + kap * 0.000000004) P.2 P.2 2 (1 : Fin 2) = (P.1 + kap * 0.000000004, P.2) := by
      simp only [lineVoltages, Fin.val_one, Nat.cast_one, Nat.cast_ofNat]
      norm_num
    obtain ⟨pre, g, hcf, hg⟩ := default_last hcv
    have h := C05_api_1d _ default_cfgOk lab curves hcv _ _ _ _ 2 o.1 o.2 ho' 1 _ rfl (by
      obtain ⟨u1, u2⟩ := lineVoltages_mem hin (1 : Fin 2)
      exact ⟨g, by rw [hcf]; simp, default_below (fun x => (hg x).2) u1.2 u2.2⟩)
    change Distributes (Spec.region curves (rotatePoint _ (lineVoltages P.1 (P.1 + kap * 0.000000004) P.2 P.2 2 (1 : Fin 2)))) _ at h
    have d1 : kap * (P.1 + kap * 0.000000004) - kap * P.2 = m + 0.000000001 := by
      rw [mul_add, hd]
      linarith
    have d2 : kap * (P.1 + kap * 0.000000004) + kap * P.2 = defaultFirst.y0 + 0.000000002 := by
      rw [mul_add, hd]
      linarith
    rw [e, q2, d1, d2] at h
    rw [h.2.2]
    have : Spec.region curves (m + 0.000000001, defaultFirst.y0 + 0.000000002) = 0 := by
      rw [hfs]
      unfold Spec.region
      rw [List.findIdx_cons]
      have : defaultFirst.y0 + 0.000000002 < f (m + 0.000000001) := by
        refine lt_of_lt_of_le ?_ f2
        norm_num
      simp only [this, decide_true, cond_true]
    rw [this]
    simp

end SimCATS
