import Verif.Props.Interdot
import Verif.Props.GeometrySampler
import Verif.Lemmas.NoLeak

/-! The electrons of the pixels returned by `ideal_csd_geometric`. -/

namespace SimCATS

open Spec

/-! ### 1D scans -/

theorem occupation1d_distributes (cfg : IdealCfg) (ok : CfgOk cfg) (curves : List (ℝ → ℝ)) (h : IsCurves cfg.lut 1 cfg.params curves) {n : ℕ}
    {v occ : Fin n → ℝ × ℝ} (ho : occupation1d cfg n v = .ok occ) (i : Fin n)
    (hi : ∃ f ∈ curves, (tctCoord cfg (v i)).2 < f (tctCoord cfg (v i)).1) :
    Distributes (Spec.region curves (tctCoord cfg (v i))) (occ i) := by
  obtain ⟨mask, h1, h2⟩ := C05_region_1d cfg curves h v
  unfold occupation1d at ho
  split at ho
  · cases ho
  rename_i gf hgf
  simp only [tctCoord] at h1
  rw [h1] at ho
  simp only at ho
  have hreg := occupationsOfMask_ok.1 ho i
  rw [h2 i hi] at hreg
  have hlt := region_lt.2 hi
  rw [h.length] at hlt
  obtain ⟨o, e, hd⟩ := regionOcc_ok (rot := cfg.rotation) ok.cdf gf (Or.inr hlt) (v i)
  rw [hreg] at e
  cases e
  exact hd

/-- C05 at the API (1D): the electrons of a pixel below some transition are distributed over the dots according to the charge region of
the voltages of this pixel (both gates are swept together, from the first to the last limit). -/
theorem C05_api_1d (cfg : IdealCfg) (ok : CfgOk cfg) (lab : Labelling) (curves : List (ℝ → ℝ))
    (h : IsCurves cfg.lut 1 cfg.params curves) (a1 b1 a2 b2 : ℝ) (n : ℕ) (occ : Fin n → ℝ × ℝ) (lead : Fin n → ℕ)
    (ho : idealCsd cfg lab [a1, b1] [a2, b2] (.int n) = .ok (.d1 n occ lead)) (i : Fin n) (q : ℝ × ℝ)
    (hq : q = rotatePoint (-cfg.rotation) (a1 + i * ((b1 - a1) / ((n : ℝ) - 1)), a2 + i * ((b2 - a2) / ((n : ℝ) - 1))))
    (hi : ∃ f ∈ curves, q.2 < f q.1) : Distributes (Spec.region curves q) (occ i) := by
  unfold idealCsd at ho
  simp only [Resolution.entries, idealCheck_1d] at ho
  rw [if_neg (by omega)] at ho
  split at ho
  · cases ho
  rename_i occ' lead' hr
  simp only [Int.toNat_natCast, Except.ok.injEq, IdealOut.d1.injEq, heq_eq_eq, true_and] at ho
  obtain ⟨rfl, rfl⟩ := ho
  have hr' : ideal1d cfg (a1, b1) (a2, b2) n = .ok (occ', lead') := hr
  unfold ideal1d at hr'
  split at hr'
  · cases hr'
  rename_i occ'' hocc
  cases hr'
  subst hq
  exact occupation1d_distributes cfg ok curves h hocc i hi

/-- Non-vacuity: a scan of gate 2 from 3 to -17 between and below the transitions of the sample configuration. -/
example (lab : Labelling) : ∃ curves occ lead, IsCurves sampleCfg.lut 1 sampleCfg.params curves ∧
    idealCsd sampleCfg lab [-1, -1] [3, -17] (.int (2 : ℕ)) = .ok (.d1 2 occ lead) ∧
    ∀ i : Fin 2, ∃ f ∈ curves, (rotatePoint (-sampleCfg.rotation) (pts1d (-1, -1) (3, -17) 2 i)).2 <
      f (rotatePoint (-sampleCfg.rotation) (pts1d (-1, -1) (3, -17) 2 i)).1 := by
  obtain ⟨curves, hc⟩ := C05_curves_exist _ sampleCfg_ok
  obtain ⟨f, g, rfl, hf, hg⟩ := sampleCfg_curves hc
  have hb : ∀ i : Fin 2, ∃ u ∈ [f, g], (tctCoord sampleCfg (pts1d (-1, -1) (3, -17) 2 i)).2 <
      u (tctCoord sampleCfg (pts1d (-1, -1) (3, -17) 2 i)).1 := by
    intro i
    refine ⟨g, by simp, ?_⟩
    have hi : (0 : ℝ) ≤ ((i : ℕ) : ℝ) := Nat.cast_nonneg _
    have : pts1d (-1, -1) (3, -17) 2 i = (-1, 3 - 20 * (i : ℝ)) := by
      ext
      · simp [pts1d, linspace, linAt]
      · simp only [pts1d, linspace, linAt]; norm_num; ring
    rw [this, sampleCfg_point]
    simp only
    rw [hg _ (by norm_num)]
    linarith
  obtain ⟨occ, ho, -⟩ := C04_1d sampleCfg sampleCfg_ok _ hc (pts1d (-1, -1) (3, -17) 2) hb
  have h1 : ∃ lead, ideal1d sampleCfg (-1, -1) (3, -17) 2 = .ok (occ, lead) := ⟨_, by unfold ideal1d; rw [ho]⟩
  obtain ⟨lead, h1⟩ := h1
  refine ⟨_, occ, lead, hc, ?_, hb⟩
  unfold idealCsd
  simp only [Resolution.entries, idealCheck_1d]
  rw [if_neg (by omega)]
  simp only [Int.toNat_natCast]
  rw [h1]

/-! ### 2D scans -/

/-- Occupations and labels of the returned image at the pixel (i, j), in terms of the ascending image. -/
theorem ideal2d_pixel {cfg : IdealCfg} (ok : CfgOk cfg) {curves : List (ℝ → ℝ)} (h : IsCurves cfg.lut 1 cfg.params curves)
    {lab : Labelling} {g1 g2 : ℝ × ℝ} {r c : ℕ} {occ : Fin r → Fin c → ℝ × ℝ} {lead : Fin r → Fin c → ℕ} (hr : 2 ≤ r) (hc : 2 ≤ c)
    (ho : ideal2d cfg lab g1 g2 r c = .ok (occ, lead)) :
    ∃ img, leadMask2d cfg (sortLim g1) (sortLim g2) c r = .ok img ∧ ∀ i j, ∃ ij : Fin r × Fin c,
      lead i j = img ((ij.1 : ℤ), (ij.2 : ℤ)) ∧ pts2d g1 g2 r c (i, j) = pts2d (sortLim g1) (sortLim g2) r c ij ∧
      Distributes (if lead i j ≠ 0 then lead i j else
        Spec.region curves (tctCoord cfg (pts2d (sortLim g1) (sortLim g2) r c
          (lab r c (fun ij => img ((ij.1 : ℤ), (ij.2 : ℤ))) ij)))) (occ i j) := by
  unfold ideal2d at ho
  split at ho
  · cases ho
  rename_i img him
  refine ⟨img, him, fun i j => ?_⟩
  simp only at ho
  split at ho
  · cases ho
  rename_i occ' hocc
  cases ho
  obtain ⟨gf, hgf⟩ := gammaFactor_ok ok.cdf cfg.gf
  refine ⟨(if g2.1 > g2.2 then i.rev else i, if g1.1 > g1.2 then j.rev else j), ?_, C15_2d_voltages g1 g2 r c hr hc i j, ?_⟩
  · simp only [flipCols, flipRows]
    split_ifs <;> rfl
  · have e1 : flipCols (g1.1 > g1.2) (flipRows (g2.1 > g2.2) fun i j => img (((i : Fin r) : ℤ), ((j : Fin c) : ℤ))) i j =
        img ((((if g2.1 > g2.2 then i.rev else i : Fin r) : ℕ) : ℤ), (((if g1.1 > g1.2 then j.rev else j : Fin c) : ℕ) : ℤ)) := by
      simp only [flipCols, flipRows]
      split_ifs <;> rfl
    have e2 : flipCols (g1.1 > g1.2) (flipRows (g2.1 > g2.2) fun i j => occ' (i, j)) i j =
        occ' (if g2.1 > g2.2 then i.rev else i, if g1.1 > g1.2 then j.rev else j) := by
      simp only [flipCols, flipRows]
      split_ifs <;> rfl
    rw [e1, e2]
    have hreg := occupation2d_region cfg hgf curves h _ _ _ hocc
      (if g2.1 > g2.2 then i.rev else i, if g1.1 > g1.2 then j.rev else j)
    simp only at hreg
    generalize (if img _ ≠ 0 then _ else _) = reg at hreg ⊢
    by_cases hb : reg = 0 ∨ reg + 1 ≤ cfg.params.length
    · obtain ⟨o, e, hd⟩ := regionOcc_ok (rot := cfg.rotation) ok.cdf gf hb (pts2d (sortLim g1) (sortLim g2) r c
        (if g2.1 > g2.2 then i.rev else i, if g1.1 > g1.2 then j.rev else j))
      rw [hreg] at e
      cases e
      exact hd
    · push Not at hb
      rw [regionOcc_error _ _ (by omega) (by omega)] at hreg
      cases hreg

theorem idealCsd_2d_ok {cfg : IdealCfg} {lab : Labelling} {a1 b1 a2 b2 : ℝ} {r c : ℕ} {occ : Fin r → Fin c → ℝ × ℝ}
    {lead : Fin r → Fin c → ℕ} (ho : idealCsd cfg lab [a1, b1] [a2, b2] (.arr [c, r]) = .ok (.d2 r c occ lead)) :
    a1 ≠ b1 ∧ a2 ≠ b2 ∧ 2 ≤ c ∧ 2 ≤ r ∧ ideal2d cfg lab (a1, b1) (a2, b2) r c = .ok (occ, lead) := by
  have hn : ¬ (a1 = b1 ∨ a2 = b2 ∨ (c : ℤ) ≤ 1 ∨ (r : ℤ) ≤ 1) := by
    intro hbad
    unfold idealCsd at ho
    simp only [Resolution.entries, idealCheck_2d] at ho
    rw [if_pos hbad] at ho
    exact nomatch ho
  push Not at hn
  obtain ⟨h1, h2, h3, h4⟩ := hn
  refine ⟨h1, h2, by omega, by omega, ?_⟩
  have e := idealCsd_2d cfg lab (g1 := (a1, b1)) (g2 := (a2, b2)) h1 h2 (r := r) (c := c) (by omega) (by omega)
  rw [ho] at e
  cases hx : ideal2d cfg lab (a1, b1) (a2, b2) r c with
  | error e' => rw [hx] at e; exact nomatch e
  | ok o =>
    rw [hx] at e
    simp only [Except.ok.injEq, IdealOut.d2.injEq, heq_eq_eq, true_and] at e
    rw [e.1, e.2]

/-- C67, labelled pixels: the electrons of a labelled pixel are those of the region above the transition. -/
theorem C67_labelled (cfg : IdealCfg) (ok : CfgOk cfg) (lab : Labelling) (a1 b1 a2 b2 : ℝ) (r c : ℕ) (occ : Fin r → Fin c → ℝ × ℝ)
    (lead : Fin r → Fin c → ℕ) (ho : idealCsd cfg lab [a1, b1] [a2, b2] (.arr [c, r]) = .ok (.d2 r c occ lead)) (i : Fin r) (j : Fin c)
    (hl : lead i j ≠ 0) : Distributes (lead i j) (occ i j) := by
  obtain ⟨-, -, hc, hr, h2⟩ := idealCsd_2d_ok ho
  obtain ⟨curves, h⟩ := C05_curves_exist cfg ok
  obtain ⟨img, -, hp⟩ := ideal2d_pixel ok h hr hc h2
  obtain ⟨ij, -, -, hd⟩ := hp i j
  rwa [if_pos hl] at hd

/-- C67, unlabelled pixels of images whose transitions are sampled densely compared with the sides of a pixel: the electrons of an
unlabelled pixel are distributed according to the charge region of the voltages of this pixel, for all sweep directions.  Missing: images
with pixels that are narrow compared with the distance of the sampled points (see `C67_refuted`). -/
theorem C67_partial (cfg : IdealCfg) (ok : CfgOk cfg) (lab : Labelling) (hlab : IsLabelling lab) (curves : List (ℝ → ℝ))
    (h : IsCurves cfg.lut 1 cfg.params curves) (L ε : ℝ) (hL : ∀ f ∈ curves, NearLipschitz L ε f) (a1 b1 a2 b2 : ℝ) (r c : ℕ)
    (hd : √(1 + L ^ 2) * sampleDistance cfg.rotation |b1 - a1| |b2 - a2| r c + 4 * ε <
      min (|b1 - a1| / ((c : ℝ) - 1)) (|b2 - a2| / ((r : ℝ) - 1)))
    (occ : Fin r → Fin c → ℝ × ℝ) (lead : Fin r → Fin c → ℕ)
    (ho : idealCsd cfg lab [a1, b1] [a2, b2] (.arr [c, r]) = .ok (.d2 r c occ lead)) (i : Fin r) (j : Fin c) (hl : lead i j = 0) :
    Distributes (Spec.region curves (rotatePoint (-cfg.rotation) (pixelVoltages a1 b1 a2 b2 r c i j))) (occ i j) := by
  obtain ⟨h1, h2, hc, hr, ho⟩ := idealCsd_2d_ok ho
  obtain ⟨img, him, hp⟩ := ideal2d_pixel ok h hr hc ho
  obtain ⟨ij, e1, e2, hdist⟩ := hp i j
  rw [if_neg (by simp [hl])] at hdist
  have hsort : ∀ {a b : ℝ}, a ≠ b → (sortLim (a, b)).1 < (sortLim (a, b)).2 ∧ (sortLim (a, b)).2 - (sortLim (a, b)).1 = |b - a| := by
    intro a b hab
    unfold sortLim
    exact ⟨min_lt_max.2 hab, max_sub_min_eq_abs a b⟩
  obtain ⟨x1, x2⟩ := hsort h1
  obtain ⟨y1, y2⟩ := hsort h2
  have hdense : DenseSampling cfg curves L ε (sortLim (a1, b1)) (sortLim (a2, b2)) c r := by
    refine ⟨hL, ?_⟩
    unfold pixStep
    rw [x2, y2]
    exact hd
  have hlink := hlab.linked r c (fun ij => img ((ij.1 : ℤ), (ij.2 : ℤ))) ij (by rw [← e1]; exact hl)
  have hreg := linked_region h hdense hc hr x1 y1 him hlink
  rw [← hreg, ← e2] at hdist
  exact hdist

/-- A labelling as described by `IsLabelling` exists. -/
theorem exists_labelling : ∃ lab : Labelling, IsLabelling lab := by
  have symm : ∀ {r c : ℕ} {lead : Fin r × Fin c → ℕ} {p q}, Linked lead p q → Linked lead q p := by
    intro r c lead p q h
    induction h with
    | refl => exact Relation.ReflTransGen.refl
    | tail _ hs ih =>
      obtain ⟨ha, h1, h2⟩ := hs
      refine Relation.ReflTransGen.head ⟨?_, h2, h1⟩ ih
      rcases ha with ⟨e, h | h⟩ | ⟨e, h | h⟩
      · exact Or.inl ⟨e.symm, Or.inr h⟩
      · exact Or.inl ⟨e.symm, Or.inl h⟩
      · exact Or.inr ⟨e.symm, Or.inr h⟩
      · exact Or.inr ⟨e.symm, Or.inl h⟩
  let S : ∀ (r c : ℕ) (lead : Fin r × Fin c → ℕ), Setoid (Fin r × Fin c) := fun r c lead =>
    ⟨Linked lead, fun _ => Relation.ReflTransGen.refl, symm, Relation.ReflTransGen.trans⟩
  refine ⟨fun r c lead p => (Quotient.mk (S r c lead) p).out, ⟨fun r c lead p _ => ?_, fun r c lead p q _ hpq => ?_⟩⟩
  · exact symm (Quotient.exact (s := S r c lead) (Quotient.out_eq _))
  · exact congrArg Quotient.out (Quotient.sound (s := S r c lead) hpq)

theorem sqrt_slope : √(1 + (0.54688 : ℝ) ^ 2) ≤ 1.14 := by
  rw [Real.sqrt_le_left (by norm_num)]
  norm_num

theorem sqrt_half_le : √2 / 2 ≤ (0.7072 : ℝ) := by
  have : √2 ≤ (1.4144 : ℝ) := by
    rw [Real.sqrt_le_left (by norm_num)]
    norm_num
  linarith

/-- Transitions rotated by 45 degrees are sampled densely if no side of a pixel is more than three times as long as the other one. -/
theorem dense45 {rot : ℝ} (hrot : rot = -Real.pi / 4) {d1 d2 sx sy : ℝ} {r c : ℕ} (hr : 2 ≤ r) (hc : 2 ≤ c)
    (hsx : d1 = sx * ((c : ℝ) - 1)) (hsy : d2 = sy * ((r : ℝ) - 1))
    (h1 : 0.00006 ≤ sx) (h2 : 0.00006 ≤ sy) (h3 : sx ≤ 3 * sy) (h4 : sy ≤ 3 * sx) :
    √(1 + (0.54688 : ℝ) ^ 2) * sampleDistance rot d1 d2 r c + 4 * 0.000003 < min (d1 / ((c : ℝ) - 1)) (d2 / ((r : ℝ) - 1)) := by
  have hc' : (2 : ℝ) ≤ c := by exact_mod_cast hc
  have hr' : (2 : ℝ) ≤ r := by exact_mod_cast hr
  rw [hsx, hsy, mul_div_cancel_right₀ _ (by linarith), mul_div_cancel_right₀ _ (by linarith)]
  have hcos : |Real.cos (-Real.pi / 4)| = √2 / 2 := by
    rw [neg_div, Real.cos_neg, Real.cos_pi_div_four, abs_of_nonneg (by positivity)]
  have hsin : |Real.sin (-Real.pi / 4)| = √2 / 2 := by
    rw [neg_div, Real.sin_neg, Real.sin_pi_div_four, abs_neg, abs_of_nonneg (by positivity)]
  unfold sampleDistance
  rw [hrot, hcos, hsin, mul_div_cancel_right₀ _ (by linarith)]
  have key : ∀ m : ℝ, 0.00006 ≤ m → sx ≤ 3 * m → sy ≤ 3 * m → √(1 + (0.54688 : ℝ) ^ 2) *
      ((sx * ((c : ℝ) - 1) * (√2 / 2) + sy * ((r : ℝ) - 1) * (√2 / 2) + 2 * sx) / (4 * ((c : ℝ) + r) - 1)) + 4 * 0.000003 < m := by
    intro m hm m1 m2
    norm_num at h1 h2 hm
    have hN : (0 : ℝ) < 4 * ((c : ℝ) + r) - 1 := by linarith
    have num : sx * ((c : ℝ) - 1) * (√2 / 2) + sy * ((r : ℝ) - 1) * (√2 / 2) + 2 * sx ≤ 0.69 * m * (4 * ((c : ℝ) + r) - 1) := by
      have p1 : sx * ((c : ℝ) - 1) ≤ 3 * m * ((c : ℝ) - 1) := mul_le_mul_of_nonneg_right m1 (by linarith)
      have p2 : sy * ((r : ℝ) - 1) ≤ 3 * m * ((r : ℝ) - 1) := mul_le_mul_of_nonneg_right m2 (by linarith)
      have p3 : (sx * ((c : ℝ) - 1) + sy * ((r : ℝ) - 1)) * (√2 / 2) ≤ (sx * ((c : ℝ) - 1) + sy * ((r : ℝ) - 1)) * 0.7072 :=
        mul_le_mul_of_nonneg_left sqrt_half_le (add_nonneg (mul_nonneg (by linarith) (by linarith)) (mul_nonneg (by linarith) (by linarith)))
      have p4 : 0 ≤ m * ((c : ℝ) + r - 4) := mul_nonneg (by linarith) (by linarith)
      norm_num at p3 ⊢
      nlinarith
    have d0 : 0 ≤ sx * ((c : ℝ) - 1) * (√2 / 2) + sy * ((r : ℝ) - 1) * (√2 / 2) + 2 * sx := by
      have := mul_nonneg (mul_nonneg (show 0 ≤ sx by linarith) (show 0 ≤ (c : ℝ) - 1 by linarith)) (show 0 ≤ √2 / 2 by positivity)
      have := mul_nonneg (mul_nonneg (show 0 ≤ sy by linarith) (show 0 ≤ (r : ℝ) - 1 by linarith)) (show 0 ≤ √2 / 2 by positivity)
      linarith
    have d1 := (div_le_iff₀ hN).2 num
    have d2 := mul_le_mul sqrt_slope d1 (div_nonneg d0 hN.le) (by norm_num)
    refine lt_of_le_of_lt (add_le_add_left d2 _) ?_
    norm_num
    linarith
  refine lt_min (key sx h1 (by linarith) h4) (key sy h2 h3 (by linarith))

/-- C67 for the configurations of the sampler: in every image whose pixels have sides of at least 0.06 mV, none of them more than three
times as long as the other one, the electrons of an unlabelled pixel are those of the voltages of this pixel. -/
theorem C67_sampled {τ : Type} (rng : CfgRng τ) (hv : rng.Valid) (lab lab' : Labelling) (hlab : IsLabelling lab') (s s' : τ) (cfg : IdealCfg)
    (h : sampleIdealCSD rng lab s (.ok cfg, s')) (curves : List (ℝ → ℝ)) (hcv : IsCurves cfg.lut 1 cfg.params curves)
    (a1 b1 a2 b2 sx sy : ℝ) (r c : ℕ) (hsx : |b1 - a1| = sx * ((c : ℝ) - 1)) (hsy : |b2 - a2| = sy * ((r : ℝ) - 1))
    (h1 : 0.00006 ≤ sx) (h2 : 0.00006 ≤ sy) (h3 : sx ≤ 3 * sy) (h4 : sy ≤ 3 * sx)
    (occ : Fin r → Fin c → ℝ × ℝ) (lead : Fin r → Fin c → ℕ)
    (ho : idealCsd cfg lab' [a1, b1] [a2, b2] (.arr [c, r]) = .ok (.d2 r c occ lead)) (i : Fin r) (j : Fin c) (hl : lead i j = 0) :
    Distributes (Spec.region curves (rotatePoint (-cfg.rotation) (pixelVoltages a1 b1 a2 b2 r c i j))) (occ i j) := by
  obtain ⟨_, _, e, p, v, k, ⟨g1, -⟩, rfl⟩ := sampleIdealCSD_tested hv lab s _ h
  cases e
  have hL : ∀ f ∈ curves, NearLipschitz 0.54688 0.000003 f := by
    intro f hf
    obtain ⟨m, hm⟩ := List.mem_iff_getElem?.1 hf
    refine ⟨ladderCurve p v m, fun x y => ladderCurve_lipschitz g1 m y x, fun x => (ladder_near g1 hcv hm).2 x⟩
  obtain ⟨-, -, hc, hr, -⟩ := idealCsd_2d_ok ho
  refine C67_partial _ (g1.cfgOk _) lab' hlab curves hcv 0.54688 0.000003 hL a1 b1 a2 b2 r c
    (dense45 rfl hr hc hsx hsy h1 h2 h3 h4) occ lead ho i j hl

/-- The lower left corner of the voltage range is not labelled in an image with pixels of 5 mV. -/
theorem corner_unlabelled {p : TctParams} {v : ℝ × ℝ} (hp : SampledFirst p v) {n : ℕ} {lab : Labelling} {occ : Fin 29 → Fin 29 → ℝ × ℝ}
    {lead : Fin 29 → Fin 29 → ℕ}
    (ho : idealCsd (sampledIdeal (ladder p v n)) lab [-0.2, -0.06] [-0.2, -0.06] (.arr [((29 : ℕ) : ℤ), ((29 : ℕ) : ℤ)]) =
      .ok (.d2 29 29 occ lead)) : lead 0 0 = 0 := by
  obtain ⟨curves, hcv⟩ := C05_curves_exist _ (hp.cfgOk n)
  obtain ⟨-, -, -, -, h2⟩ := idealCsd_2d_ok ho
  obtain ⟨img, him, hpx⟩ := ideal2d_pixel (hp.cfgOk n) hcv (by norm_num) (by norm_num) h2
  obtain ⟨ij, e1, e2, -⟩ := hpx 0 0
  by_contra hne
  rw [e1] at hne
  have hs : sortLim (-0.2, -0.06) = (-0.2, -0.06) := by
    unfold sortLim
    rw [min_eq_left (by norm_num), max_eq_right (by norm_num)]
  rw [hs] at him e2
  obtain ⟨f, hf, x, hn⟩ := C13_label_near _ curves hcv _ _ 29 29 (by norm_num) (by norm_num) (by norm_num) (by norm_num) img him
    ij.1 ij.2 ij.1.2 ij.2.2 hne
  have hfx := abs_le.1 ((ladder_near hp hcv hf).2 x)
  have hge := ladderCurve_ge hp (img ((ij.1 : ℤ), (ij.2 : ℤ)) - 1) x
  unfold NearPixel at hn
  have v1 : axisVolt (-0.2, -0.06) 29 ij.2 = -0.2 := by
    have := congrArg Prod.fst e2
    simp only [pts2d, linspace, linAt] at this
    unfold axisVolt
    rw [← this]
    simp
  have v2 : axisVolt (-0.2, -0.06) 29 ij.1 = -0.2 := by
    have := congrArg Prod.snd e2
    simp only [pts2d, linspace, linAt] at this
    unfold axisVolt
    rw [← this]
    simp
  rw [v1, v2] at hn
  obtain ⟨n1, n2, n3, n4⟩ := hn
  simp only [rotatePoint, sampledIdeal, neg_div, Real.cos_neg, Real.cos_pi_div_four, Real.sin_neg, Real.sin_pi_div_four] at n1 n2 n3 n4
  have k1 : (1.414 : ℝ) ≤ √2 := Real.le_sqrt_of_sq_le (by norm_num)
  have k2 : √2 ≤ (1.4144 : ℝ) := by
    rw [Real.sqrt_le_left (by norm_num)]
    norm_num
  have hk : (0 : ℝ) ≤ (img ((ij.1 : ℤ), (ij.2 : ℤ)) - 1 : ℕ) := Nat.cast_nonneg _
  have hfx1 := hfx.1
  norm_num at n1 n2 n3 n4 hge hfx1 k1 k2
  have hfl : f x ≤ -0.279 := by
    by_contra hlt
    push Not at hlt
    norm_num at hlt
    nlinarith
  have hx : |x| ≤ 0.01 := by
    rw [abs_le]
    constructor <;>
    · by_contra hlt
      push Not at hlt
      norm_num at hlt
      nlinarith
  norm_num at hfl hx
  linarith

/-- Non-vacuity: images of a sampled configuration with 29 x 29 pixels of 5 mV exist and have unlabelled pixels. -/
example (lab lab' : Labelling) : ∃ cfg curves occ lead, sampleIdealCSD midRng lab () (.ok cfg, ()) ∧
    IsCurves cfg.lut 1 cfg.params curves ∧
    idealCsd cfg lab' [-0.2, -0.06] [-0.2, -0.06] (.arr [((29 : ℕ) : ℤ), ((29 : ℕ) : ℤ)]) = .ok (.d2 29 29 occ lead) ∧
    |(-0.06 : ℝ) - -0.2| = 0.005 * (((29 : ℕ) : ℝ) - 1) ∧ lead 0 0 = 0 := by
  obtain ⟨cfg, h⟩ := mid_returns lab
  obtain ⟨_, _, e, hok, -⟩ := C46_geometry midRng midRng_valid lab () _ h
  cases e
  obtain ⟨curves, hc⟩ := C05_curves_exist cfg hok
  have hstep : |(-0.06 : ℝ) - -0.2| = 0.005 * (((29 : ℕ) : ℝ) - 1) := by
    rw [abs_of_nonneg (by norm_num)]; norm_num
  obtain ⟨out, ho⟩ := C62_2d_partial midRng midRng_valid lab lab' () () cfg h (-0.2) (-0.06) (-0.2) (-0.06)
    (by simp only [List.mem_cons, List.not_mem_nil, or_false]; rintro x (rfl | rfl | rfl | rfl) <;> norm_num) (by norm_num) (by norm_num)
    29 29 (by norm_num) (by norm_num) (by rw [hstep]; norm_num) (by rw [hstep]; norm_num)
  have ho' := ho
  rw [idealCsd_2d cfg lab' (g1 := (-0.2, -0.06)) (g2 := (-0.2, -0.06)) (by norm_num) (by norm_num) (r := 29) (c := 29) (by norm_num)
    (by norm_num)] at ho'
  cases hx : ideal2d cfg lab' (-0.2, -0.06) (-0.2, -0.06) 29 29 with
  | error e => rw [hx] at ho'; exact nomatch ho'
  | ok o =>
    rw [hx] at ho'
    have e : out = .d2 29 29 o.1 o.2 := (Except.ok.inj ho').symm
    subst e
    obtain ⟨_, _, e, p, v, k, ⟨g1, -⟩, rfl⟩ := sampleIdealCSD_tested midRng_valid lab () _ h
    cases e
    exact ⟨_, curves, o.1, o.2, h, hc, ho, hstep, corner_unlabelled g1 ho⟩

/-! ### Elongated pixels -/

theorem sampleCfg_mask {img : ℤ × ℤ → ℕ} (him : leadMask2d sampleCfg (-28, -20) (-24.05, -23.55) 2 2 = .ok img) (i j : ℕ) (hi : i < 2)
    (hj : j < 2) : img (i, j) = 0 := by
  obtain ⟨curves, hc⟩ := C05_curves_exist _ sampleCfg_ok
  obtain ⟨img', e, hl⟩ := C13_mask_2d sampleCfg curves hc (-28, -20) (-24.05, -23.55) 2 2 (by norm_num) (by norm_num) (by norm_num)
    (by norm_num)
  rw [him] at e
  cases e
  rw [hl i j hi hj]
  refine lastLabel_zero ?_
  rintro ⟨s, hs, p, hp, hm⟩
  obtain ⟨f, g, rfl, hf, hg⟩ := sampleCfg_curves hc
  have hxs : ∀ m : Fin ((2 + 2) * 4), sampleXs sampleCfg.rotation (-28, -20) (-24.05, -23.55) 2 2 m = -36 + 1.6 * ((m : ℕ) : ℝ) := by
    intro m
    simp only [sampleXs, linspace, linAt, cornersX, sampleCfg, rotatePoint, listMin, listMax, pixStep, List.map_cons, List.map_nil,
      List.foldl_cons, List.foldl_nil]
    norm_num
    ring
  have hneg : ∀ m : Fin ((2 + 2) * 4), (-36 : ℝ) + 1.6 * ((m : ℕ) : ℝ) < 0 := by
    intro m
    have : ((m : ℕ) : ℝ) ≤ 15 := by
      have : (m : ℕ) ≤ 15 := by omega
      exact_mod_cast this
    norm_num
    linarith
  have hrows : ∀ y, (∃ X, Marks (-28, -20) (-24.05, -23.55) 2 2 i j (X, y)) → -24.3 ≤ y ∧ y < -23.3 := by
    rintro y ⟨X, ⟨-, -, a, b⟩, -⟩
    have hi0 : (0 : ℝ) ≤ i := Nat.cast_nonneg i
    have hi1 : (i : ℝ) ≤ 1 := by
      have : i ≤ 1 := by omega
      exact_mod_cast this
    simp only [axisVolt] at a b
    norm_num at a b ⊢
    constructor <;> linarith
  simp only [List.zipIdx_cons, List.zipIdx_nil, List.map_cons, List.map_nil, List.mem_cons, List.not_mem_nil, or_false] at hs
  have hno : ∀ (m : ℕ) (d : ℝ), d = 0 ∨ d = 10 → ¬ ((-24.3 : ℝ) ≤ -36 + 1.6 * (m : ℝ) + d ∧ -36 + 1.6 * (m : ℝ) + d < -23.3) := by
    rintro m d hd ⟨h1, h2⟩
    norm_num at h1 h2
    rcases hd with rfl | rfl
    · have a : (7 : ℝ) < m := by linarith
      have b : (m : ℝ) < 8 := by linarith
      have a' : 7 < m := by exact_mod_cast a
      have b' : m < 8 := by exact_mod_cast b
      omega
    · have a : (1 : ℝ) < m := by linarith
      have b : (m : ℝ) < 2 := by linarith
      have a' : 1 < m := by exact_mod_cast a
      have b' : m < 2 := by exact_mod_cast b
      omega
  have hrot : ∀ q : ℝ × ℝ, rotatePoint sampleCfg.rotation q = q := by
    intro q
    simp [rotatePoint, sampleCfg]
  rcases hs with rfl | rfl
  · simp only [samplePoints, List.mem_ofFn] at hp
    obtain ⟨m, rfl⟩ := hp
    rw [hrot, hxs, hf _ (hneg m)] at hm
    refine hno m 0 (Or.inl rfl) ?_
    rw [add_zero]
    exact hrows _ ⟨_, hm⟩
  · simp only [samplePoints, List.mem_ofFn] at hp
    obtain ⟨m, rfl⟩ := hp
    rw [hrot, hxs, hg _ (hneg m)] at hm
    exact hno m 10 (Or.inr rfl) (hrows _ ⟨_, hm⟩)

/-- C67 is violated: in an image with wide and low pixels a transition passes between the sampled points, so that the pixels on both
sides of it are one connected region and get the electrons of one of them. -/
theorem C67_refuted (lab : Labelling) (hlab : IsLabelling lab) (curves : List (ℝ → ℝ))
    (h : IsCurves sampleCfg.lut 1 sampleCfg.params curves) :
    ∃ occ lead, idealCsd sampleCfg lab [-28, -20] [-24.05, -23.55] (.arr [((2 : ℕ) : ℤ), ((2 : ℕ) : ℤ)]) = .ok (.d2 2 2 occ lead) ∧
      ∃ i j, lead i j = 0 ∧ ¬ Distributes (Spec.region curves
        (rotatePoint (-sampleCfg.rotation) (pixelVoltages (-28) (-20) (-24.05) (-23.55) 2 2 i j))) (occ i j) := by
  have hs1 : sortLim (-28, -20) = (-28, -20) := by
    unfold sortLim
    rw [min_eq_left (by norm_num), max_eq_right (by norm_num)]
  have hs2 : sortLim (-24.05, -23.55) = (-24.05, -23.55) := by
    unfold sortLim
    rw [min_eq_left (by norm_num), max_eq_right (by norm_num)]
  obtain ⟨img, him, -⟩ := C13_mask_2d sampleCfg curves h (-28, -20) (-24.05, -23.55) 2 2 (by norm_num) (by norm_num) (by norm_num)
    (by norm_num)
  have hz : (fun ij : Fin 2 × Fin 2 => img ((ij.1 : ℤ), (ij.2 : ℤ))) = fun _ => 0 := by
    funext ij
    exact sampleCfg_mask him ij.1 ij.2 ij.1.2 ij.2.2
  obtain ⟨f, g, hfg, hf, hg⟩ := sampleCfg_curves h
  have hrot : ∀ q : ℝ × ℝ, rotatePoint (-sampleCfg.rotation) q = q := by
    intro q
    simp [rotatePoint, sampleCfg]
  have hpt : ∀ ij : Fin 2 × Fin 2, pts2d (-28, -20) (-24.05, -23.55) 2 2 ij =
      (-28 + 8 * ((ij.2 : ℕ) : ℝ), -24.05 + 0.5 * ((ij.1 : ℕ) : ℝ)) := by
    intro ij
    simp only [pts2d, linspace, linAt]
    ext <;> norm_num <;> ring
  have hb : ∀ k : Fin 2, (0 : ℝ) ≤ ((k : ℕ) : ℝ) ∧ ((k : ℕ) : ℝ) ≤ 1 := by
    intro k
    refine ⟨Nat.cast_nonneg _, ?_⟩
    have : (k : ℕ) ≤ 1 := by omega
    exact_mod_cast this
  have hbelow : ∀ ij : Fin 2 × Fin 2, ∃ f ∈ curves, (tctCoord sampleCfg (pts2d (-28, -20) (-24.05, -23.55) 2 2 ij)).2 <
      f (tctCoord sampleCfg (pts2d (-28, -20) (-24.05, -23.55) 2 2 ij)).1 := by
    intro ij
    refine ⟨g, by rw [hfg]; simp, ?_⟩
    rw [tctCoord, hrot, hpt]
    have b1 := hb ij.1
    have b2 := hb ij.2
    rw [hg _ (by simp only; linarith)]
    norm_num
    linarith
  have hreg : ∀ i : Fin 2, Spec.region curves (tctCoord sampleCfg (pts2d (-28, -20) (-24.05, -23.55) 2 2 (i, 0))) = 1 ∧
      Spec.region curves (tctCoord sampleCfg (pts2d (-28, -20) (-24.05, -23.55) 2 2 (i, 1))) = 0 := by
    intro i
    have b1 := hb i
    rw [tctCoord, hrot, hpt, tctCoord, hrot, hpt, hfg]
    constructor
    · rw [region_cons, region_cons]
      have c1 : ¬ ((-24.05 : ℝ) + 0.5 * ((i : ℕ) : ℝ) < f (-28 + 8 * (((0 : Fin 2) : ℕ) : ℝ))) := by
        rw [hf _ (by norm_num)]
        norm_num
        linarith
      have c2 : (-24.05 : ℝ) + 0.5 * ((i : ℕ) : ℝ) < g (-28 + 8 * (((0 : Fin 2) : ℕ) : ℝ)) := by
        rw [hg _ (by norm_num)]
        norm_num
        linarith
      rw [if_neg c1, if_pos c2]
    · rw [region_cons]
      have c1 : (-24.05 : ℝ) + 0.5 * ((i : ℕ) : ℝ) < f (-28 + 8 * (((1 : Fin 2) : ℕ) : ℝ)) := by
        rw [hf _ (by norm_num)]
        norm_num
        linarith
      rw [if_pos c1]
  obtain ⟨occ, hocc, hdist⟩ := C04_2d sampleCfg sampleCfg_ok curves h (pts2d (-28, -20) (-24.05, -23.55) 2 2) (fun _ => 0)
    (lab 2 2 fun _ => 0) (by simp) (fun i _ => hbelow _)
  have h2d : ideal2d sampleCfg lab (-28, -20) (-24.05, -23.55) 2 2 = .ok (fun i j => occ (i, j), fun _ _ => 0) := by
    unfold ideal2d
    rw [hs1, hs2, him]
    simp only
    rw [hz, hocc]
    have n1 : ¬ ((-28 : ℝ) > -20) := by norm_num
    have n2 : ¬ ((-24.05 : ℝ) > -23.55) := by norm_num
    simp only [flipCols, flipRows, if_neg n1, if_neg n2]
    rw [show (fun (i j : Fin 2) => img (((i : ℕ) : ℤ), ((j : ℕ) : ℤ))) = fun _ _ => 0 from
      funext fun i => funext fun j => congrFun hz (i, j)]
  refine ⟨fun i j => occ (i, j), fun _ _ => 0, ?_, ?_⟩
  · rw [idealCsd_2d sampleCfg lab (g1 := (-28, -20)) (g2 := (-24.05, -23.55)) (by norm_num) (by norm_num) (r := 2) (c := 2) (by norm_num)
      (by norm_num), h2d]
  · have hlink : Linked (fun _ : Fin 2 × Fin 2 => 0) (0, 0) (0, 1) :=
      Relation.ReflTransGen.single ⟨Or.inl ⟨rfl, Or.inl rfl⟩, rfl, rfl⟩
    have hcom := hlab.common 2 2 (fun _ => 0) (0, 0) (0, 1) rfl hlink
    have d0 := hdist (0, 0)
    have d1 := hdist (0, 1)
    rw [if_neg (by simp)] at d0 d1
    rw [hcom] at d0
    by_contra hcon
    push Not at hcon
    have c0 := hcon 0 0 rfl
    have c1 := hcon 0 1 rfl
    have hpv : ∀ ij : Fin 2 × Fin 2, pixelVoltages (-28) (-20) (-24.05) (-23.55) 2 2 ij.1 ij.2 = pts2d (-28, -20) (-24.05, -23.55) 2 2 ij :=
      fun _ => rfl
    rw [hpv (0, 0)] at c0
    rw [hpv (0, 1)] at c1
    have e0 := (hreg 0).1
    have e1 := (hreg 0).2
    rw [tctCoord] at e0 e1
    rw [e0] at c0
    rw [e1] at c1
    have s0 := c0.2.2
    have s1 := c1.2.2
    have t0 := d0.2.2
    have t1 := d1.2.2
    rw [s0] at t0
    rw [s1, ← t0] at t1
    norm_num at t1

end SimCATS
