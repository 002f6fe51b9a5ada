import Verif.Props.Pipeline
import Verif.Spec.ScanAgree

/-! The occupations of the pixels of line scans and images in terms of the region they are evaluated for. -/

namespace SimCATS

open Spec

theorem line_out {cfg : IdealCfg} {lab : Labelling} {a1 b1 a2 b2 : ℝ} {n : ℕ} {occ : Fin n → ℝ × ℝ} {lead : Fin n → ℕ}
    (ho : idealCsd cfg lab [a1, b1] [a2, b2] (.int n) = .ok (.d1 n occ lead)) : occupation1d cfg n (pts1d (a1, b1) (a2, b2) n) = .ok occ := by
  unfold idealCsd at ho
  simp only [Resolution.entries, idealCheck_1d] at ho
  rw [if_neg (by omega)] at ho
  split at ho
  · cases ho
  rename_i occ' lead' hr
  simp only [Int.toNat_natCast, Except.ok.injEq, IdealOut.d1.injEq, heq_eq_eq, true_and] at ho
  obtain ⟨rfl, rfl⟩ := ho
  have hr' : ideal1d cfg (a1, b1) (a2, b2) n = .ok (occ', lead') := hr
  unfold ideal1d at hr'
  split at hr'
  · cases hr'
  rename_i occ'' hocc
  cases hr'
  exact hocc

/-- A pixel of a line scan is evaluated for the region of its voltages, or for region 0 if it is above all transitions. -/
theorem line_region {cfg : IdealCfg} {lab : Labelling} {curves : List (ℝ → ℝ)} (h : IsCurves cfg.lut 1 cfg.params curves) {gf : ℝ}
    (hgf : gammaFactor cfg.cdf cfg.gf = .ok gf) {a1 b1 a2 b2 : ℝ} {n : ℕ} {occ : Fin n → ℝ × ℝ} {lead : Fin n → ℕ}
    (ho : idealCsd cfg lab [a1, b1] [a2, b2] (.int n) = .ok (.d1 n occ lead)) (i : Fin n) :
    regionOcc (allAnchors cfg.params 1 cfg.rotation) cfg.cdf gf
      (if Spec.region curves (tctCoord cfg (lineVoltages a1 b1 a2 b2 n i)) = curves.length then 0
        else Spec.region curves (tctCoord cfg (lineVoltages a1 b1 a2 b2 n i))) (lineVoltages a1 b1 a2 b2 n i) = .ok (occ i) := by
  have ho := line_out ho
  have hm := regionLoop1d_eq (fun i => tctCoord cfg (pts1d (a1, b1) (a2, b2) n i)) (fun _ => 0) h
  simp only [zero_add] at hm
  unfold occupation1d at ho
  rw [hgf] at ho
  simp only [tctCoord] at ho hm
  rw [hm] at ho
  simp only at ho
  exact occupationsOfMask_ok.1 ho i

/-- A pixel of an image is evaluated for its label or, without label and in a densely sampled image, for the region of its voltages. -/
theorem image_region {cfg : IdealCfg} {lab : Labelling} (hlab : IsLabelling lab) {curves : List (ℝ → ℝ)}
    (h : IsCurves cfg.lut 1 cfg.params curves) {gf : ℝ} (hgf : gammaFactor cfg.cdf cfg.gf = .ok gf) {L ε a1 b1 a2 b2 : ℝ} {r c : ℕ}
    {occ : Fin r → Fin c → ℝ × ℝ} {lead : Fin r → Fin c → ℕ}
    (ho : idealCsd cfg lab [a1, b1] [a2, b2] (.arr [c, r]) = .ok (.d2 r c occ lead)) (i : Fin r) (j : Fin c)
    (hd : lead i j = 0 → DenseImage cfg.rotation curves L ε a1 b1 a2 b2 r c) :
    regionOcc (allAnchors cfg.params 1 cfg.rotation) cfg.cdf gf
      (if lead i j ≠ 0 then lead i j else Spec.region curves (tctCoord cfg (pixelVoltages a1 b1 a2 b2 r c i j)))
      (pixelVoltages a1 b1 a2 b2 r c i j) = .ok (occ i j) := by
  obtain ⟨h1, h2, hc, hr, ho⟩ := idealCsd_2d_ok ho
  unfold ideal2d at ho
  split at ho
  · cases ho
  rename_i img him
  simp only at ho
  split at ho
  · cases ho
  rename_i occ' hocc
  cases ho
  have hv := C15_2d_voltages (a1, b1) (a2, b2) r c hr hc i j
  have e1 : flipCols ((a1, b1).1 > (a1, b1).2) (flipRows ((a2, b2).1 > (a2, b2).2) fun i j => img (((i : Fin r) : ℤ), ((j : Fin c) : ℤ))) i j =
      img ((((if (a2, b2).1 > (a2, b2).2 then i.rev else i : Fin r) : ℕ) : ℤ), (((if (a1, b1).1 > (a1, b1).2 then j.rev else j : Fin c) : ℕ) : ℤ)) := by
    simp only [flipCols, flipRows]
    split_ifs <;> rfl
  have e2 : flipCols ((a1, b1).1 > (a1, b1).2) (flipRows ((a2, b2).1 > (a2, b2).2) fun i j => occ' (i, j)) i j =
      occ' (if (a2, b2).1 > (a2, b2).2 then i.rev else i, if (a1, b1).1 > (a1, b1).2 then j.rev else j) := by
    simp only [flipCols, flipRows]
    split_ifs <;> rfl
  have hreg := occupation2d_region cfg hgf curves h _ _ _ hocc
    (if (a2, b2).1 > (a2, b2).2 then i.rev else i, if (a1, b1).1 > (a1, b1).2 then j.rev else j)
  rw [e1] at hd ⊢
  rw [e2]
  rw [← hv] at hreg
  have hvv : pts2d (a1, b1) (a2, b2) r c (i, j) = pixelVoltages a1 b1 a2 b2 r c i j := rfl
  rw [hvv] at hreg
  simp only at hreg
  generalize hp : (if (a2, b2).1 > (a2, b2).2 then i.rev else i) = i' at *
  generalize hq : (if (a1, b1).1 > (a1, b1).2 then j.rev else j) = j' at *
  by_cases hl : img ((i' : ℤ), (j' : ℤ)) = 0
  · have hd' := hd hl
    have hsort : ∀ {a b : ℝ}, a ≠ b → (sortLim (a, b)).1 < (sortLim (a, b)).2 ∧ (sortLim (a, b)).2 - (sortLim (a, b)).1 = |b - a| := by
      intro a b hab
      unfold sortLim
      exact ⟨min_lt_max.2 hab, max_sub_min_eq_abs a b⟩
    obtain ⟨x1, x2⟩ := hsort h1
    obtain ⟨y1, y2⟩ := hsort h2
    have hdense : DenseSampling cfg curves L ε (sortLim (a1, b1)) (sortLim (a2, b2)) c r := by
      refine ⟨hd'.1, ?_⟩
      unfold pixStep
      rw [x2, y2]
      exact hd'.2
    have hlink := hlab.linked r c (fun ij => img ((ij.1 : ℤ), (ij.2 : ℤ))) (i', j') hl
    have hrr := linked_region h hdense hc hr x1 y1 him hlink
    rw [if_neg (by simpa using hl)] at hreg ⊢
    rw [← hrr, ← hv, hvv] at hreg
    exact hreg
  · rw [if_pos hl] at hreg ⊢
    exact hreg

/-- Line scans of valid configurations always return occupations. -/
theorem line_exists {cfg : IdealCfg} (ok : CfgOk cfg) (lab : Labelling) (a1 b1 a2 b2 : ℝ) (n : ℕ) :
    ∃ occ lead, idealCsd cfg lab [a1, b1] [a2, b2] (.int n) = .ok (.d1 n occ lead) := by
  obtain ⟨curves, h⟩ := C05_curves_exist cfg ok
  obtain ⟨gf, hgf⟩ := gammaFactor_ok ok.cdf cfg.gf
  have hm := regionLoop1d_eq (fun i => tctCoord cfg (pts1d (a1, b1) (a2, b2) n i)) (fun _ => 0) h
  simp only [zero_add] at hm
  have hr : ∀ i, ∃ o, regionOcc (allAnchors cfg.params 1 cfg.rotation) cfg.cdf gf
      (if Spec.region curves (tctCoord cfg (pts1d (a1, b1) (a2, b2) n i)) = curves.length then 0
        else Spec.region curves (tctCoord cfg (pts1d (a1, b1) (a2, b2) n i))) (pts1d (a1, b1) (a2, b2) n i) = .ok o := by
    intro i
    have hle := region_le curves (tctCoord cfg (pts1d (a1, b1) (a2, b2) n i))
    have hlen := h.length
    refine (regionOcc_ok (rot := cfg.rotation) ok.cdf gf ?_ _).imp fun _ => And.left
    split_ifs with e
    · exact Or.inl rfl
    · exact Or.inr (by omega)
  choose occ hocc using hr
  have ho : occupation1d cfg n (pts1d (a1, b1) (a2, b2) n) = .ok occ := by
    unfold occupation1d
    rw [hgf]
    simp only [tctCoord] at hm hocc ⊢
    rw [hm]
    exact occupationsOfMask_ok.2 hocc
  have h1 : ∃ lead, ideal1d cfg (a1, b1) (a2, b2) n = .ok (occ, lead) := ⟨_, by unfold ideal1d; rw [ho]⟩
  obtain ⟨lead, h1⟩ := h1
  refine ⟨occ, lead, ?_⟩
  unfold idealCsd
  simp only [Resolution.entries, idealCheck_1d]
  rw [if_neg (by omega)]
  simp only [Int.toNat_natCast]
  rw [h1]

/-! ### A labelled pixel below its transition -/

/-- The labels of an image of 2 x 2 pixels of the sample configuration: no pixel has label 2, and the pixel (0, 0) at (-28, -30), below
the first transition, has label 1. -/
theorem low_mask {img : ℤ × ℤ → ℕ} (him : leadMask2d sampleCfg (-28, -20) (-30, -26) 2 2 = .ok img) :
    (∀ i j : ℕ, i < 2 → j < 2 → img (i, j) ≤ 1) ∧ img (((0 : ℕ) : ℤ), ((0 : ℕ) : ℤ)) = 1 := by
  obtain ⟨curves, hc⟩ := C05_curves_exist _ sampleCfg_ok
  obtain ⟨img', e, hl⟩ := C13_mask_2d sampleCfg curves hc (-28, -20) (-30, -26) 2 2 (by norm_num) (by norm_num) (by norm_num)
    (by norm_num)
  rw [him] at e
  cases e
  obtain ⟨f, g, rfl, hf, hg⟩ := sampleCfg_curves hc
  have hxs : ∀ m : Fin ((2 + 2) * 4), sampleXs sampleCfg.rotation (-28, -20) (-30, -26) 2 2 m = -36 + 1.6 * ((m : ℕ) : ℝ) := by
    intro m
    simp only [sampleXs, linspace, linAt, cornersX, sampleCfg, rotatePoint, listMin, listMax, pixStep, List.map_cons, List.map_nil,
      List.foldl_cons, List.foldl_nil]
    norm_num
    ring
  have hneg : ∀ m : Fin ((2 + 2) * 4), (-36 : ℝ) + 1.6 * ((m : ℕ) : ℝ) < 0 := by
    intro m
    have : ((m : ℕ) : ℝ) ≤ 15 := by
      have : (m : ℕ) ≤ 15 := by omega
      exact_mod_cast this
    norm_num
    linarith
  have hrot : ∀ q : ℝ × ℝ, rotatePoint sampleCfg.rotation q = q := by
    intro q
    simp [rotatePoint, sampleCfg]
  have hcase : ∀ i j : ℕ, i < 2 → j < 2 → img (i, j) =
      open Classical in if (∃ p ∈ samplePoints sampleCfg (-28, -20) (-30, -26) 2 2 f, Marks (-28, -20) (-30, -26) 2 2 i j p) then 1 else 0 := by
    intro i j hi hj
    rw [hl i j hi hj]
    simp only [List.zipIdx_cons, List.zipIdx_nil, List.map_cons, List.map_nil]
    rw [lastLabel, if_neg]
    simp only [List.mem_cons, List.not_mem_nil, or_false]
    rintro ⟨kp, rfl, p, hp, hm⟩
    simp only [samplePoints, List.mem_ofFn] at hp
    obtain ⟨m, rfl⟩ := hp
    rw [hrot, hxs, hg _ (hneg m)] at hm
    obtain ⟨⟨m1, m2, m3, m4⟩, -⟩ := hm
    have hi1 : (i : ℝ) ≤ 1 := by
      have : i ≤ 1 := by omega
      exact_mod_cast this
    have hj0 : (0 : ℝ) ≤ j := Nat.cast_nonneg j
    simp only [axisVolt] at m1 m2 m3 m4
    norm_num at m1 m4
    linarith
  constructor
  · intro i j hi hj
    rw [hcase i j hi hj]
    split_ifs <;> omega
  · rw [hcase 0 0 (by norm_num) (by norm_num), if_pos]
    refine ⟨(-29.6, -29.6), ?_, ⟨?_, ?_, ?_, ?_⟩, ?_, ?_⟩
    · simp only [samplePoints, List.mem_ofFn]
      refine ⟨⟨4, by norm_num⟩, ?_⟩
      rw [hrot, hxs, hf _ (hneg _)]
      norm_num
    all_goals simp only [axisVolt]; norm_num

/-- Points of the sample configuration well below the second transition. -/
theorem sample_below {curves : List (ℝ → ℝ)} (h : IsCurves sampleCfg.lut 1 sampleCfg.params curves) {q : ℝ × ℝ} (h1 : -28 ≤ q.1) (h2 : q.1 < 0)
    (h3 : q.2 ≤ -19) : ∃ f ∈ curves, (tctCoord sampleCfg q).2 < f (tctCoord sampleCfg q).1 := by
  obtain ⟨f, g, rfl, hf, hg⟩ := sampleCfg_curves h
  refine ⟨g, by simp, ?_⟩
  have hrot : tctCoord sampleCfg q = q := by
    simp [tctCoord, rotatePoint, sampleCfg]
  rw [hrot, hg _ h2]
  linarith

end SimCATS
