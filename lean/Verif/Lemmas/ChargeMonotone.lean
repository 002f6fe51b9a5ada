import Verif.Props.DefaultConfigs
import Verif.Spec.ChargeMonotone

/-! Charge regions at raised voltages. -/

namespace SimCATS

open Spec

theorem region_mono {q q' : ℝ × ℝ} : ∀ {fs : List (ℝ → ℝ)}, (∀ f ∈ fs, f q.1 ≤ q.2 → f q'.1 ≤ q'.2) → Spec.region fs q ≤ Spec.region fs q'
  | [], _ => le_rfl
  | f :: fs, h => by
    unfold Spec.region
    rw [List.findIdx_cons, List.findIdx_cons]
    by_cases h1 : q.2 < f q.1
    · simp [h1]
    · have h2 : ¬ q'.2 < f q'.1 := not_lt.2 (h f (by simp) (not_lt.1 h1))
      simp only [h1, h2, decide_false, cond_false]
      exact Nat.succ_le_succ (region_mono fun g hg => h g (by simp [hg]))

theorem Spec.NearLipschitz.stays {L ε : ℝ} {f : ℝ → ℝ} (hf : NearLipschitz L ε f) {q q' : ℝ × ℝ}
    (hd : L * |q'.1 - q.1| + 2 * ε ≤ q'.2 - q.2) (h : f q.1 ≤ q.2) : f q'.1 ≤ q'.2 := by
  obtain ⟨F, h1, h2⟩ := hf
  have a1 := (abs_le.1 (h1 q'.1 q.1)).2
  have a2 := (abs_le.1 (h2 q'.1)).2
  have a3 := (abs_le.1 (h2 q.1)).1
  linarith

/-- Voltages that are raised by enough compared with the errors of the transitions move a point away from the transitions below it. -/
theorem raised_stays {L ε : ℝ} (hL : 0 ≤ L) {f : ℝ → ℝ} (hf : NearLipschitz L ε f) {P Q : ℝ × ℝ} (h : Raised P Q)
    (hε : 2 * ε ≤ (1 - L) * (kap * (Q.1 - P.1 + (Q.2 - P.2)))) {q q' : ℝ × ℝ} (hq : q = (kap * P.1 - kap * P.2, kap * P.1 + kap * P.2))
    (hq' : q' = (kap * Q.1 - kap * Q.2, kap * Q.1 + kap * Q.2)) : f q.1 ≤ q.2 → f q'.1 ≤ q'.2 := by
  refine hf.stays ?_
  subst hq hq'
  obtain ⟨h1, h2⟩ := h
  have k0 : 0 < kap := by have := kap_bounds.1; norm_num at this; linarith
  have e : |kap * Q.1 - kap * Q.2 - (kap * P.1 - kap * P.2)| ≤ kap * (Q.1 - P.1 + (Q.2 - P.2)) := by
    have m1 := mul_nonneg k0.le (sub_nonneg.2 h1)
    have m2 := mul_nonneg k0.le (sub_nonneg.2 h2)
    rw [abs_le]
    constructor <;> linarith
  have m := mul_le_mul_of_nonneg_left e hL
  simp only
  linarith

theorem rotate_cfg {cfg : IdealCfg} (hrot : cfg.rotation = -Real.pi / 4) (P : ℝ × ℝ) :
    rotatePoint (-cfg.rotation) P = (kap * P.1 - kap * P.2, kap * P.1 + kap * P.2) := by
  have : -cfg.rotation = Real.pi / 4 := by rw [hrot]; ring
  rw [this, rotate_pos]

theorem region_raised {cfg : IdealCfg} (hrot : cfg.rotation = -Real.pi / 4) {L ε : ℝ} (hL : 0 ≤ L) {curves : List (ℝ → ℝ)}
    (hc : ∀ f ∈ curves, NearLipschitz L ε f) {P Q : ℝ × ℝ} (h : Raised P Q)
    (hε : 2 * ε ≤ (1 - L) * (kap * (Q.1 - P.1 + (Q.2 - P.2)))) :
    Spec.region curves (rotatePoint (-cfg.rotation) P) ≤ Spec.region curves (rotatePoint (-cfg.rotation) Q) :=
  region_mono fun f hf => raised_stays hL (hc f hf) h hε (rotate_cfg hrot P) (rotate_cfg hrot Q)

theorem Spec.Distributes.total_le {m n : ℕ} {o o' : ℝ × ℝ} (h : Distributes m o) (h' : Distributes n o') (hmn : m ≤ n) :
    o.1 + o.2 ≤ o'.1 + o'.2 := by
  rw [h.2.2, h'.2.2]
  exact_mod_cast hmn

theorem lineVoltages_mem {lim1 lim2 : ℝ × ℝ} {a1 b1 a2 b2 : ℝ} (h : SweepInside lim1 lim2 a1 b1 a2 b2) {n : ℕ} (i : Fin n) :
    (lim1.1 ≤ (lineVoltages a1 b1 a2 b2 n i).1 ∧ (lineVoltages a1 b1 a2 b2 n i).1 ≤ lim1.2) ∧
      lim2.1 ≤ (lineVoltages a1 b1 a2 b2 n i).2 ∧ (lineVoltages a1 b1 a2 b2 n i).2 ≤ lim2.2 :=
  ⟨linspace_mem h.1 h.2.1 i, linspace_mem h.2.2.1 h.2.2.2 i⟩

/-! ### The table of the first transition -/

variable {p : TctParams} {c : ℝ × ℝ}

theorem bezX_mono (h : CenterOk p c) {n i j : ℕ} (hn : 2 ≤ n) (hij : i ≤ j) (hj : j < n) :
    bezCoord p.x0 c.1 p.x2 (linAt 0 1 n i) ≤ bezCoord p.x0 c.1 p.x2 (linAt 0 1 n j) := by
  obtain ⟨s0, s1⟩ := linAt01_mem hn (lt_of_le_of_lt hij hj)
  obtain ⟨t0, t1⟩ := linAt01_mem hn hj
  have hst : linAt 0 1 n i ≤ linAt 0 1 n j := by
    have hn1 : (0 : ℝ) < (n : ℝ) - 1 := by
      have : (2 : ℝ) ≤ n := by exact_mod_cast hn
      linarith
    have e : (i : ℝ) ≤ j := by exact_mod_cast hij
    unfold linAt
    rw [sub_zero, zero_add, zero_add]
    exact mul_le_mul_of_nonneg_right e (by positivity)
  have d := (bezX_diff h (linAt 0 1 n i) (linAt 0 1 n j)).1
  have := mul_nonneg (sub_nonneg.2 hst) (add_nonneg (mul_nonneg (by linarith : 0 ≤ 2 - linAt 0 1 n i - linAt 0 1 n j) (sub_nonneg.2 h.left))
    (mul_nonneg (add_nonneg s0 t0) (sub_nonneg.2 h.right)))
  linarith

/-- Left of the middle between the first two entries of the table, the first entry is returned. -/
theorem lut_first (h : CenterOk p c) {n : ℕ} (hn : 2 ≤ n) {x : ℝ} (h0 : bezCoord p.x0 c.1 p.x2 (linAt 0 1 n 0) ≤ x)
    (h1 : x - bezCoord p.x0 c.1 p.x2 (linAt 0 1 n 0) < bezCoord p.x0 c.1 p.x2 (linAt 0 1 n 1) - x) :
    lutValue p c n x = bezCoord p.y0 c.2 p.y2 (linAt 0 1 n 0) := by
  obtain ⟨i, hi, e, hmin⟩ := lutValue_spec p c (by omega : 0 < n) x
  rcases Nat.eq_zero_or_pos i with rfl | hp
  · exact e
  · exfalso
    have m := bezX_mono h hn (show 1 ≤ i from hp) hi
    have := hmin 0 (by omega)
    rw [abs_of_nonneg (by linarith), abs_of_nonpos (by linarith)] at this
    linarith

/-- Between this middle and the second entry, the second entry is returned. -/
theorem lut_second (h : CenterOk p c) {n : ℕ} (hn : 3 ≤ n) {x : ℝ} (h0 : x ≤ bezCoord p.x0 c.1 p.x2 (linAt 0 1 n 1))
    (h1 : bezCoord p.x0 c.1 p.x2 (linAt 0 1 n 1) - x < x - bezCoord p.x0 c.1 p.x2 (linAt 0 1 n 0))
    (h2 : bezCoord p.x0 c.1 p.x2 (linAt 0 1 n 1) < bezCoord p.x0 c.1 p.x2 (linAt 0 1 n 2)) :
    lutValue p c n x = bezCoord p.y0 c.2 p.y2 (linAt 0 1 n 1) := by
  obtain ⟨i, hi, e, hmin⟩ := lutValue_spec p c (by omega : 0 < n) x
  have hm := hmin 1 (by omega)
  rw [abs_of_nonneg (a := bezCoord p.x0 c.1 p.x2 (linAt 0 1 n 1) - x) (by linarith)] at hm
  rcases (by omega : i = 0 ∨ i = 1 ∨ 2 ≤ i) with rfl | rfl | hp
  · rw [abs_of_nonpos (by linarith)] at hm
    exfalso
    linarith
  · exact e
  · exfalso
    have m := bezX_mono h (by omega) hp hi
    rw [abs_of_nonneg (by linarith)] at hm
    linarith

/-- The first transition is the table in its first cell. -/
theorem first_curve (hc : tctCenter p = .ok c) (hper : 0 < p.lenL + p.lenR) (hx : p.x0 < p.x2) {n : ℕ} (hn : 2 ≤ n) {f : ℝ → ℝ}
    (hf : ∀ x, tctBezierAt p (some n) (some 1) x = .ok (f x)) {x : ℝ} (h0 : p.x0 ≤ x) (h1 : x < p.x2) : f x = lutValue p c n x := by
  obtain ⟨m, rfl⟩ : ∃ m, n = m + 1 := ⟨n - 1, by omega⟩
  have h := tctCenter_ok hc
  have e := hf x
  rw [tctBezierAt_eq hc, tctEntry_in ⟨h0, by unfold waveEnd; norm_num; linarith⟩] at e
  rw [← Except.ok.inj e]
  have hlen : p.x2 - p.x0 ≤ p.lenL + p.lenR := by linarith [h.lenL, h.lenR, h.left, h.right]
  have hfl : ⌊(x - p.x0) / (p.lenL + p.lenR)⌋ = 0 := by
    rw [Int.floor_eq_zero_iff]
    exact ⟨div_nonneg (by linarith) hper.le, (div_lt_one hper).2 (by linarith)⟩
  unfold waveValue
  simp only [hfl, Int.cast_zero, mul_zero, sub_zero]
  rw [if_pos (by linarith)]
  simp [bezierValue]

/-- The transitions evaluated without a lookup table. -/
theorem exact_lipschitz {cfg : IdealCfg} (ok : CfgOk cfg) (hlut : cfg.lut = none) (hs : ∀ p ∈ cfg.params, p.gradL ≤ 1 ∧ -1 ≤ p.gradR)
    {curves : List (ℝ → ℝ)} (hc : IsCurves cfg.lut 1 cfg.params curves) : ∀ f ∈ curves, NearLipschitz 1 0 f := by
  intro f hf
  obtain ⟨m, hm⟩ := List.mem_iff_getElem?.1 hf
  obtain ⟨q, hq, hx⟩ := hc.getElem? hm
  have hq' := List.mem_of_getElem? hq
  obtain ⟨⟨c, hcc⟩, hg, hper⟩ := ok.tct q hq'
  have hb := hs q hq'
  rw [Nat.add_comm, hlut] at hx
  have hz : ∀ x, f x = exactCurve q c m x := by
    intro x
    have e : tctBezierAt q none (some (m + 1)) x = .ok (exactCurve q c m x) := tctBezierAt_eq hcc none _ x
    rw [hx x] at e
    exact Except.ok.inj e
  refine ⟨exactCurve q c m, ?_, fun x => by rw [hz x]; simp⟩
  intro x y
  have hs := exactCurve_slopes (tctCenter_ok hcc) hg hper m
  rcases le_total y x with h | h
  · have a1 := hs.le h
    have a2 := hs.ge h
    rw [abs_le, abs_of_nonneg (by linarith)]
    constructor <;> nlinarith [hb.1, hb.2]
  · have a1 := hs.le h
    have a2 := hs.ge h
    rw [abs_le, abs_of_nonpos (by linarith)]
    constructor <;> nlinarith [hb.1, hb.2]

/-- The default configuration without the lookup table. -/
noncomputable def exactDefault : IdealCfg := ⟨defaultTcts, -Real.pi / 4, none, .sigmoid, none⟩

theorem exactDefault_ok : CfgOk exactDefault :=
  ⟨default_cfgOk.tct, by simp [exactDefault], default_cfgOk.cdf, default_cfgOk.gf, default_cfgOk.refLine⟩

theorem exactDefault_slopes : ∀ p ∈ exactDefault.params, p.gradL ≤ 1 ∧ -1 ≤ p.gradR := by
  intro p hp
  obtain ⟨h1, h2, -⟩ := default_bounds p hp
  norm_num at h1 h2
  constructor <;> linarith

theorem exactDefault_last {curves : List (ℝ → ℝ)} (hc : IsCurves exactDefault.lut 1 exactDefault.params curves) :
    ∃ pre f, curves = pre ++ [f] ∧ ∀ x, -0.0915619 - 0.01796 * |x + 0.02849374| ≤ f x := by
  have hl : curves.length = 14 := hc.length
  have hne : curves ≠ [] := by intro h0; rw [h0] at hl; simp at hl
  refine ⟨curves.dropLast, curves.getLast hne, (List.dropLast_append_getLast hne).symm, ?_⟩
  have hf : curves[13]? = some (curves.getLast hne) := by
    rw [← List.getLast?_eq_some_getLast hne, List.getLast?_eq_getElem?, hl]
  obtain ⟨q, hq, hx⟩ := hc.getElem? hf
  have hq' : defaultTcts[13]? = some q := hq
  rw [defaultLast_mem] at hq'
  cases hq'
  intro x
  have ok := defaultLast_ok
  have hz : tctBezierAt defaultLast none (some (13 + 1)) x = .ok (exactCurve defaultLast (lineCenter defaultLast) 13 x) :=
    tctBezierAt_eq ok.tctCenter none _ x
  have e := hx x
  change tctBezierAt defaultLast none (some (13 + 1)) x = _ at e
  rw [hz] at e
  rw [← Except.ok.inj e]
  have hs := exactCurve_slopes ok.center ok.grad ok.per 13
  have p2 := exactLast_point.2
  have g1 : defaultLast.gradL = 0.01795249 := rfl
  have g2 : defaultLast.gradR = -0.01608112 := rfl
  rw [g1, g2] at hs
  rcases le_total x (-0.02849374) with h | h
  · have a := hs.ge h
    rw [abs_of_nonpos (by norm_num at h ⊢; linarith)]
    norm_num at *
    linarith
  · have a := hs.le h
    rw [abs_of_nonneg (by norm_num at h ⊢; linarith)]
    norm_num at *
    linarith

theorem exactDefault_below {curves : List (ℝ → ℝ)} (hc : IsCurves exactDefault.lut 1 exactDefault.params curves) {P : ℝ × ℝ}
    (h1 : P.1 ≤ -0.087) (h2 : P.2 ≤ -0.047) :
    ∃ f ∈ curves, (rotatePoint (-exactDefault.rotation) P).2 < f (rotatePoint (-exactDefault.rotation) P).1 := by
  obtain ⟨pre, f, hcv, hf⟩ := exactDefault_last hc
  exact ⟨f, by rw [hcv]; simp, default_below hf h1 h2⟩

theorem raised_margin {P Q : ℝ × ℝ} (h : 0.00002 ≤ Q.1 - P.1 + (Q.2 - P.2)) :
    2 * 0.000003 ≤ (1 - 0.54688) * (kap * (Q.1 - P.1 + (Q.2 - P.2))) := by
  have k := kap_bounds.1
  have := mul_le_mul k h (by norm_num) (by norm_num at k ⊢; linarith)
  norm_num at this ⊢
  linarith

theorem default_shown {lab : Labelling} (hlab : IsLabelling lab) {curves : List (ℝ → ℝ)}
    (hcv : IsCurves defaultIdeal.lut 1 defaultIdeal.params curves) {P o : ℝ × ℝ}
    (h : Shown (idealCsd defaultIdeal lab) (-0.2, -0.087) (-0.2, -0.047) P o) :
    Distributes (Spec.region curves (rotatePoint (-defaultIdeal.rotation) P)) o := by
  cases h with
  | line a1 b1 a2 b2 n occ lead hin ho i =>
    obtain ⟨pre, f, hcf, hf⟩ := default_last hcv
    obtain ⟨m1, m2⟩ := lineVoltages_mem hin i
    exact C05_api_1d _ default_cfgOk lab curves hcv a1 b1 a2 b2 n occ lead ho i _ rfl
      ⟨f, by rw [hcf]; simp, default_below (fun x => (hf x).2) m1.2 m2.2⟩
  | image a1 b1 a2 b2 r c occ lead hp ho i j hl =>
    obtain ⟨sx, sy, e1, e2, h1, h2, h3, h4⟩ := hp
    exact C67_default lab hlab curves hcv a1 b1 a2 b2 sx sy r c e1 e2 h1 h2 h3 h4 occ lead ho i j hl

theorem sampled_shown {p : TctParams} {v : ℝ × ℝ} (hs : SampledFirst p v) {lab0 : Labelling} {k : ℕ} {out}
    (ht : ideal2d (sampledIdeal (ladder p v (k + 1))) lab0 testLim testLim 10 10 = .ok out) {lab : Labelling} (hlab : IsLabelling lab)
    {curves : List (ℝ → ℝ)} (hcv : IsCurves (some 1000) 1 (ladder p v (k + 1)) curves)
    (hL : ∀ f ∈ curves, NearLipschitz 0.54688 0.000003 f) {P o : ℝ × ℝ}
    (h : Shown (idealCsd (sampledIdeal (ladder p v (k + 1))) lab) (-0.2, -0.06) (-0.2, -0.06) P o) :
    Distributes (Spec.region curves (rotatePoint (-(sampledIdeal (ladder p v (k + 1))).rotation) P)) o := by
  cases h with
  | line a1 b1 a2 b2 n occ lead hin ho i =>
    obtain ⟨pre, f, hcf, hf⟩ := ladder_last hs hcv
    obtain ⟨m1, m2⟩ := lineVoltages_mem hin i
    refine C05_api_1d _ (hs.cfgOk _) lab curves hcv a1 b1 a2 b2 n occ lead ho i _ rfl ⟨f, by rw [hcf]; simp, ?_⟩
    have e := tctCoord_sampled (ladder p v (k + 1)) (lineVoltages a1 b1 a2 b2 n i)
    unfold tctCoord at e
    change (rotatePoint (-(sampledIdeal (ladder p v (k + 1))).rotation) (lineVoltages a1 b1 a2 b2 n i)).2 <
      f (rotatePoint (-(sampledIdeal (ladder p v (k + 1))).rotation) (lineVoltages a1 b1 a2 b2 n i)).1
    rw [e]
    obtain ⟨c1, c2⟩ := kap_box m1.1 m1.2 m2.1 m2.2
    exact test_above hs lab0 ht hcf hcv hf _ _ c1 c2
  | image a1 b1 a2 b2 r c occ lead hp ho i j hl =>
    obtain ⟨sx, sy, e1, e2, h1, h2, h3, h4⟩ := hp
    obtain ⟨-, -, hc, hr, -⟩ := idealCsd_2d_ok ho
    exact C67_partial _ (hs.cfgOk _) lab hlab curves hcv 0.54688 0.000003 hL a1 b1 a2 b2 r c
      (dense45 rfl hr hc e1 e2 h1 h2 h3 h4) occ lead ho i j hl

/-- The first transition of the default configurations. -/
noncomputable def defaultFirst : TctParams :=
  ⟨0.01075474, 0.01549732, 0.42465033, -0.38038481, -0.02750187, -0.17179705, -0.02674207, -0.17171497⟩

theorem defaultFirst_mem : defaultTcts[0]? = some defaultFirst := by
  unfold defaultTcts defaultFirst
  rw [List.getElem?_cons_zero]

theorem defaultFirst_center : 0.00046 ≤ (lineCenter defaultFirst).1 - defaultFirst.x0 ∧ (lineCenter defaultFirst).1 - defaultFirst.x0 ≤ 0.000462 := by
  norm_num [lineCenter, defaultFirst]

/-- The table of the first transition: the second entry is 0.3 µV above and 0.9 µV to the right of the first one. -/
theorem defaultFirst_table {X Y : ℕ → ℝ}
    (hX : X = fun i => bezCoord defaultFirst.x0 (lineCenter defaultFirst).1 defaultFirst.x2 (linAt 0 1 1000 i))
    (hY : Y = fun i => bezCoord defaultFirst.y0 (lineCenter defaultFirst).2 defaultFirst.y2 (linAt 0 1 1000 i)) :
    X 0 = defaultFirst.x0 ∧ Y 0 = defaultFirst.y0 ∧ X 0 + 0.0000009 ≤ X 1 ∧ X 1 ≤ X 0 + 0.000001 ∧ X 1 + 0.0000009 ≤ X 2 ∧ Y 0 + 0.0000003 ≤ Y 1 := by
  have hc := (default_lineOk _ (List.mem_of_getElem? defaultFirst_mem)).center
  obtain ⟨b1, b2⟩ := defaultFirst_center
  have b3 : defaultFirst.x2 - (lineCenter defaultFirst).1 = 0.0007598 - ((lineCenter defaultFirst).1 - defaultFirst.x0) := by
    have n0 : defaultFirst.x0 = -0.02750187 := rfl
    have n2 : defaultFirst.x2 = -0.02674207 := rfl
    rw [n0, n2]
    ring
  have e0 : linAt 0 1 1000 0 = 0 := by norm_num [linAt]
  have e1 : linAt 0 1 1000 1 = 1 / 999 := by norm_num [linAt]
  have e2 : linAt 0 1 1000 2 = 2 / 999 := by norm_num [linAt]
  have d1 := bezX_diff hc 0 (1 / 999)
  have d2 := bezX_diff hc (1 / 999) (2 / 999)
  have g1 : defaultFirst.gradL = 0.42465033 := rfl
  have g2 : defaultFirst.gradR = -0.38038481 := rfl
  rw [b3, g1, g2] at d1
  rw [b3] at d2
  subst hX hY
  simp only [e0, e1, e2]
  have z1 : bezCoord defaultFirst.x0 (lineCenter defaultFirst).1 defaultFirst.x2 0 = defaultFirst.x0 := by simp [bezCoord]
  have z2 : bezCoord defaultFirst.y0 (lineCenter defaultFirst).2 defaultFirst.y2 0 = defaultFirst.y0 := by simp [bezCoord]
  obtain ⟨d1x, d1y⟩ := d1
  obtain ⟨d2x, -⟩ := d2
  generalize (lineCenter defaultFirst).1 - defaultFirst.x0 = w at *
  norm_num at b1 b2
  refine ⟨z1, z2, ?_, ?_, ?_, ?_⟩ <;> norm_num at d1x d1y d2x ⊢ <;> linarith

end SimCATS
