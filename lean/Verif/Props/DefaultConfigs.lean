import Verif.Lemmas.DefaultConfigs
import Verif.Props.IdealApi

/-! Measurements with the default configurations. -/

namespace SimCATS

open Spec

/-! ### Simulations with a generic sensor and without distortions -/

section plain

variable {σ : Type} {sim : Simulation σ} {cfg : IdealCfg} {lab : Labelling} {s : SensorGeneric}

theorem measure_plain_2d (hg : sim.gen = some (idealGen cfg lab)) (hs : sim.sensor = genericSensor s) (h1 : sim.occD = none)
    (h2 : sim.potD = none) (h3 : sim.respD = none) (hp : s.peaks ≠ some []) {rq : Request} {g1 g2 : ℝ × ℝ} {r c : ℕ}
    (hr : 2 ≤ r) (hc : 2 ≤ c) (n1 : g1.1 ≠ g1.2) (n2 : g2.1 ≠ g2.2)
    (hres : rq.res = .arr [(c : ℤ), (r : ℤ)]) (hck : measureCheck sim.lim true rq = .ok (g1, g2)) (st : σ) :
    (∀ o, ideal2d cfg lab g1 g2 r c = .ok o → ∃ csd, measure sim rq st = (.ok (.d2 r c csd, .d2 r c o.1, .d2 r c o.2), st)) ∧
    ∀ e, ideal2d cfg lab g1 g2 r c = .error e → measure sim rq st = (.error e, st) := by
  have hm : measure sim rq st = measureRun sim (idealGen cfg lab) rq g1 g2 st := by
    unfold measure
    rw [hg]
    simp only [Option.isSome_some]
    rw [hck]
  have hi := idealCsd_2d cfg lab n1 n2 hr hc
  rw [hm]
  unfold measureRun
  rw [M.bind_run, hres, h1, hs, h2, h3]
  constructor
  · intro o ho
    rw [ho] at hi
    have hgen : idealGen cfg lab g1 g2 (.arr [(c : ℤ), (r : ℤ)]) st = (.ok (.d2 r c o.1, .d2 r c o.2), st) := by
      unfold idealGen
      rw [hi]
      rfl
    rw [hgen]
    have hpot : s.potential (.d2 r c o.1) g1 g2 = .ok (.d2 r c fun i j =>
        dot2 (o.1 i j) s.alphaDot + dot2 (linspace g1.1 g1.2 c j, linspace g2.1 g2.2 r i) s.alphaGate + s.offset) := by
      unfold SensorGeneric.potential
      exact if_neg (by omega)
    have hresp : ∀ f : Fin r → Fin c → ℝ, ∃ f', s.response (.d2 r c f) = .d2 r c f' := by
      intro f
      unfold SensorGeneric.response
      split
      · exact ⟨f, rfl⟩
      · rename_i e; exact absurd e hp
      · exact ⟨_, rfl⟩
    obtain ⟨f', hf'⟩ := hresp fun i j =>
        dot2 (o.1 i j) s.alphaDot + dot2 (linspace g1.1 g1.2 c j, linspace g2.1 g2.2 r i) s.alphaGate + s.offset
    refine ⟨f', ?_⟩
    simp only [Option.getD_none, applyOcc, distortPotential, distortResponse, M.bind_run, genericSensor, hpot, hf', pure, M.ret]
  · intro e he
    rw [he] at hi
    have hgen : idealGen cfg lab g1 g2 (.arr [(c : ℤ), (r : ℤ)]) st = (.error e, st) := by
      unfold idealGen
      rw [hi]
      rfl
    rw [hgen]

theorem measure_plain_1d (hg : sim.gen = some (idealGen cfg lab)) (hs : sim.sensor = genericSensor s) (h1 : sim.occD = none)
    (h2 : sim.potD = none) (h3 : sim.respD = none) (hp : s.peaks ≠ some []) {rq : Request} {g1 g2 : ℝ × ℝ} {n : ℕ}
    (hn : 1 ≤ n) (hres : rq.res = .int n) (hck : measureCheck sim.lim true rq = .ok (g1, g2)) (st : σ)
    {o} (ho : ideal1d cfg g1 g2 n = .ok o) : ∃ csd, measure sim rq st = (.ok (.d1 n csd, .d1 n o.1, .d1 n o.2), st) := by
  have hm : measure sim rq st = measureRun sim (idealGen cfg lab) rq g1 g2 st := by
    unfold measure
    rw [hg]
    simp only [Option.isSome_some]
    rw [hck]
  have hi : idealCsd cfg lab [g1.1, g1.2] [g2.1, g2.2] (.int n) = .ok (.d1 n o.1 o.2) := by
    unfold idealCsd
    simp only [Resolution.entries, idealCheck_1d]
    rw [if_neg (by omega)]
    simp only [Int.toNat_natCast, Prod.mk.eta, ho]
  rw [hm]
  unfold measureRun
  rw [M.bind_run, hres, h1, hs, h2, h3]
  have hgen : idealGen cfg lab g1 g2 (.int n) st = (.ok (.d1 n o.1, .d1 n o.2), st) := by
    unfold idealGen
    rw [hi]
    rfl
  rw [hgen]
  have hpot : s.potential (.d1 n o.1) g1 g2 = .ok (.d1 n fun i =>
      dot2 (o.1 i) s.alphaDot + dot2 (linspace g1.1 g1.2 n i, linspace g2.1 g2.2 n i) s.alphaGate + s.offset) := by
    unfold SensorGeneric.potential
    exact if_neg (by omega)
  have hresp : ∀ f : Fin n → ℝ, ∃ f', s.response (.d1 n f) = .d1 n f' := by
    intro f
    unfold SensorGeneric.response
    split
    · exact ⟨f, rfl⟩
    · rename_i e; exact absurd e hp
    · exact ⟨_, rfl⟩
  obtain ⟨f', hf'⟩ := hresp fun i =>
      dot2 (o.1 i) s.alphaDot + dot2 (linspace g1.1 g1.2 n i, linspace g2.1 g2.2 n i) s.alphaGate + s.offset
  refine ⟨f', ?_⟩
  simp only [Option.getD_none, applyOcc, distortPotential, distortResponse, M.bind_run, genericSensor, hpot, hf', pure, M.ret]

end plain

/-! ### The default configuration -/

theorem rotate_default (P : ℝ × ℝ) : rotatePoint defaultIdeal.rotation P = (kap * P.1 + kap * P.2, kap * P.2 - kap * P.1) := rotate_neg P

theorem tctCoord_default (P : ℝ × ℝ) : tctCoord defaultIdeal P = (kap * P.1 - kap * P.2, kap * P.1 + kap * P.2) := by
  have : -defaultIdeal.rotation = Real.pi / 4 := by simp only [defaultIdeal]; ring
  unfold tctCoord
  rw [this, rotate_pos]

/-- A range of voltages inside of limits. -/
def Within (lo hi a b : ℝ) : Prop := (lo ≤ a ∧ a ≤ hi) ∧ lo ≤ b ∧ b ≤ hi

theorem Within.sort {lo hi a b : ℝ} (h : Within lo hi a b) : lo ≤ (sortLim (a, b)).1 ∧ (sortLim (a, b)).2 ≤ hi :=
  ⟨le_min h.1.1 h.2.1, max_le h.1.2 h.2.2⟩

theorem Within.not_outside {lo hi a b : ℝ} (h : Within lo hi a b) : rangeOutside (some (lo, hi)) (a, b) = false := by
  obtain ⟨⟨h1, h2⟩, h3, h4⟩ := h
  unfold rangeOutside
  simp only [decide_eq_false_iff_not, not_or, not_lt, gt_iff_lt]
  exact ⟨le_min h1 h3, (min_le_left _ _).trans h2, h1.trans (le_max_left _ _), max_le h2 h4⟩

/-- The voltage range is below the last transition. -/
theorem default_below {f : ℝ → ℝ} (hf : ∀ x, -0.0915619 - 0.01796 * |x + 0.02849374| ≤ f x) {P : ℝ × ℝ} (h1 : P.1 ≤ -0.087)
    (h2 : P.2 ≤ -0.047) : (tctCoord defaultIdeal P).2 < f (tctCoord defaultIdeal P).1 := by
  rw [tctCoord_default]
  refine lt_of_lt_of_le ?_ (hf _)
  obtain ⟨k1, k2⟩ := kap_bounds
  norm_num at k1 k2 h1 h2 ⊢
  have m1 := mul_le_mul_of_nonneg_left h1 (by linarith : 0 ≤ kap)
  have m2 := mul_le_mul_of_nonneg_left h2 (by linarith : 0 ≤ kap)
  rcases abs_cases (kap * P.1 - kap * P.2 + 1424687 / 50000000) with ⟨e, -⟩ | ⟨e, -⟩ <;> rw [e] <;> linarith

/-- The last transition is not inside of an image with small pixels. -/
theorem default_box {f : ℝ → ℝ} (hf : ∀ x, -0.0915619 - 0.01796 * |x + 0.02849374| ≤ f x) {s1 s2 : ℝ} (p1 : 0 ≤ s1) (p2 : 0 ≤ s2)
    (hs : s1 + s2 ≤ 0.0088) (x : ℝ) (h1 : kap * x + kap * f x < -0.087 + s1 / 2) (h2 : kap * f x - kap * x < -0.047 + s2 / 2) : False := by
  have h := hf x
  obtain ⟨k1, k2⟩ := kap_bounds
  norm_num at k1 k2 h1 h2 h hs
  have m := mul_le_mul_of_nonneg_left h (by linarith : 0 ≤ kap)
  rcases abs_cases (x + 1424687 / 50000000) with ⟨e, -⟩ | ⟨e, -⟩ <;> rw [e] at m <;> nlinarith

/-- All images of the range with small pixels are returned. -/
theorem default_fine (lab : Labelling) {l1 l2 a1 b1 a2 b2 : ℝ} (w1 : Within l1 (-0.087) a1 b1) (w2 : Within l2 (-0.047) a2 b2)
    (n1 : a1 ≠ b1) (n2 : a2 ≠ b2) {r c : ℕ} (hr : 2 ≤ r) (hc : 2 ≤ c)
    (hs : |b1 - a1| / ((c : ℝ) - 1) + |b2 - a2| / ((r : ℝ) - 1) ≤ 0.0088) :
    ∃ o, ideal2d defaultIdeal lab (a1, b1) (a2, b2) r c = .ok o := by
  obtain ⟨curves, hcs⟩ := C05_curves_exist _ default_cfgOk
  obtain ⟨pre, f, hcv, hf⟩ := default_last hcs
  have e1 : pixStep (sortLim (a1, b1)) c = |b1 - a1| / ((c : ℝ) - 1) := by
    unfold pixStep sortLim
    rw [max_sub_min_eq_abs]
  have e2 : pixStep (sortLim (a2, b2)) r = |b2 - a2| / ((r : ℝ) - 1) := by
    unfold pixStep sortLim
    rw [max_sub_min_eq_abs]
  rw [← e1, ← e2] at hs
  refine ideal2d_below default_cfgOk hcv hcs lab n1 n2 hr hc ?_ ?_
  · rintro x ⟨-, h2, -, h4⟩
    rw [rotate_default] at h2 h4
    simp only at h2 h4
    refine default_box (fun x => (hf x).2) (pixStep_pos hc (sortLim_lt n1)).le (pixStep_pos hr (sortLim_lt n2)).le hs x ?_ ?_
    · linarith [w1.sort.2]
    · linarith [w2.sort.2]
  · intro P _ h2 _ h4
    exact default_below (fun x => (hf x).2) (h2.trans w1.sort.2) (h4.trans w2.sort.2)

theorem default_line {l1 l2 a1 b1 a2 b2 : ℝ} (w1 : Within l1 (-0.087) a1 b1) (w2 : Within l2 (-0.047) a2 b2) (n : ℕ) :
    ∃ o, ideal1d defaultIdeal (a1, b1) (a2, b2) n = .ok o := by
  obtain ⟨curves, hcs⟩ := C05_curves_exist _ default_cfgOk
  obtain ⟨pre, f, hcv, hf⟩ := default_last hcs
  obtain ⟨occ, hocc, -⟩ := C04_1d _ default_cfgOk curves hcs (pts1d (a1, b1) (a2, b2) n) (by
    intro i
    exact ⟨f, by rw [hcv]; simp, default_below (fun x => (hf x).2) (linspace_mem w1.1 w1.2 i).2 (linspace_mem w2.1 w2.2 i).2⟩)
  unfold ideal1d
  rw [hocc]
  exact ⟨_, rfl⟩

theorem default_check {σ : Type} (lab : Labelling) {a1 b1 a2 b2 : ℝ} (w1 : Within (-0.2) (-0.087) a1 b1) (w2 : Within (-0.2) (-0.047) a2 b2)
    {s1 s2 : Option ℝ} (hs : s1.isNone = s2.isNone) {res : Resolution} (hres : resCheck (a1, b1) (a2, b2) res = .ok ()) :
    measureCheck (defaultSim (σ := σ) lab).lim true ⟨[a1, b1], [a2, b2], s1, s2, res⟩ = .ok ((a1, b1), (a2, b2)) := by
  unfold measureCheck defaultSim
  simp only [Bool.true_eq_false, if_false]
  rw [w1.not_outside, w2.not_outside]
  simp only [Bool.false_eq_true, or_self, if_false, sensorOutside, valueOutside, hs, ne_eq, not_true_eq_false, hres]

/-- C68, images: a simulation with the default configuration "GaAs_v1" returns an image for all voltages in its limits, with both sweep
directions, if the two sides of a pixel have a sum of at most 8.8 mV (images of the whole range: at least 32 x 32 pixels).
Missing: coarser images (see `C68_coarse_refuted`) and the distortions of the configuration. -/
theorem C68_image_partial {σ : Type} (lab : Labelling) (a1 b1 a2 b2 : ℝ) (w1 : Within (-0.2) (-0.087) a1 b1)
    (w2 : Within (-0.2) (-0.047) a2 b2) (n1 : a1 ≠ b1) (n2 : a2 ≠ b2) (r c : ℕ) (hr : 2 ≤ r) (hc : 2 ≤ c)
    (hs : |b1 - a1| / ((c : ℝ) - 1) + |b2 - a2| / ((r : ℝ) - 1) ≤ 0.0088) (s1 s2 : Option ℝ) (hs' : s1.isNone = s2.isNone) (st : σ) :
    ∃ csd occ lead, measure (defaultSim lab) ⟨[a1, b1], [a2, b2], s1, s2, .arr [c, r]⟩ st = (.ok (.d2 r c csd, .d2 r c occ, .d2 r c lead), st) := by
  obtain ⟨o, ho⟩ := default_fine lab w1 w2 n1 n2 hr hc hs
  have hck := default_check (σ := σ) lab w1 w2 hs' (res := .arr [c, r]) (by
    unfold resCheck
    simp [n1, n2]
    omega)
  obtain ⟨csd, h⟩ := (measure_plain_2d (sim := defaultSim lab) (cfg := defaultIdeal) (s := defaultSensor) rfl rfl rfl rfl rfl
    (by simp [defaultSensor]) hr hc (g1 := (a1, b1)) (g2 := (a2, b2)) n1 n2 rfl hck st).1 o ho
  exact ⟨csd, o.1, o.2, h⟩

/-- Non-vacuity: an image of the whole range with 100 x 100 pixels, gate 1 swept downwards. -/
example (lab : Labelling) : ∃ csd occ lead, measure (defaultSim lab) ⟨[-0.087, -0.2], [-0.2, -0.047], none, none, .arr [(100 : ℕ), (100 : ℕ)]⟩ () =
    (.ok (.d2 100 100 csd, .d2 100 100 occ, .d2 100 100 lead), ()) :=
  C68_image_partial lab _ _ _ _ (by unfold Within; norm_num) (by unfold Within; norm_num) (by norm_num) (by norm_num) 100 100 (by norm_num)
    (by norm_num) (by rw [abs_of_nonpos (by norm_num), abs_of_nonneg (by norm_num)]; norm_num) none none rfl ()

/-- C68, 1D scans: a simulation with the default configuration "GaAs_v1" returns every 1D scan with at least one pixel between two points
in its limits.  Missing: the distortions of the configuration. -/
theorem C68_line_partial {σ : Type} (lab : Labelling) (a1 b1 a2 b2 : ℝ) (w1 : Within (-0.2) (-0.087) a1 b1)
    (w2 : Within (-0.2) (-0.047) a2 b2) (n : ℕ) (hn : 1 ≤ n) (s1 s2 : Option ℝ) (hs' : s1.isNone = s2.isNone) (st : σ) :
    ∃ csd occ lead, measure (defaultSim lab) ⟨[a1, b1], [a2, b2], s1, s2, .int n⟩ st = (.ok (.d1 n csd, .d1 n occ, .d1 n lead), st) := by
  obtain ⟨o, ho⟩ := default_line w1 w2 n
  have hck := default_check (σ := σ) lab w1 w2 hs' (res := .int n) rfl
  obtain ⟨csd, h⟩ := measure_plain_1d (sim := defaultSim lab) (cfg := defaultIdeal) (s := defaultSensor) rfl rfl rfl rfl rfl
    (by simp [defaultSensor]) hn (g1 := (a1, b1)) (g2 := (a2, b2)) rfl hck st ho
  exact ⟨csd, o.1, o.2, h⟩

/-- Non-vacuity: a diagonal scan of the whole range. -/
example (lab : Labelling) : ∃ csd occ lead, measure (defaultSim lab) ⟨[-0.2, -0.087], [-0.047, -0.2], none, none, .int (50 : ℕ)⟩ () =
    (.ok (.d1 50 csd, .d1 50 occ, .d1 50 lead), ()) :=
  C68_line_partial lab _ _ _ _ (by unfold Within; norm_num) (by unfold Within; norm_num) 50 (by norm_num) none none rfl ()

/-! ### Coarse images -/

theorem sampleXs_default {n : ℕ} (m : Fin ((n + n) * 4)) :
    sampleXs defaultIdeal.rotation (-0.2, -0.087) (-0.2, -0.047) n n m =
      linAt (-(0.153 * kap + 0.113 / ((n : ℝ) - 1))) (0.113 * kap + 0.113 / ((n : ℝ) - 1)) ((n + n) * 4) m := by
  have hk := kap_bounds.1
  norm_num at hk
  have e : -defaultIdeal.rotation = Real.pi / 4 := by simp only [defaultIdeal]; ring
  have hmin : listMin (cornersX defaultIdeal.rotation (-0.2, -0.087) (-0.2, -0.047)) = -(0.153 * kap) := by
    simp only [listMin, cornersX, List.map_cons, List.map_nil, List.foldl_cons, List.foldl_nil, e, rotate_pos]
    apply le_antisymm
    · simp only [min_le_iff]
      norm_num
      simp only [or_assoc]
      right
      left
      linarith
    · simp only [le_min_iff]
      norm_num
      repeat' apply And.intro
      all_goals linarith
  have hmax : listMax (cornersX defaultIdeal.rotation (-0.2, -0.087) (-0.2, -0.047)) = 0.113 * kap := by
    simp only [listMax, cornersX, List.map_cons, List.map_nil, List.foldl_cons, List.foldl_nil, e, rotate_pos]
    apply le_antisymm
    · simp only [max_le_iff]
      norm_num
      repeat' apply And.intro
      all_goals linarith
    · simp only [le_max_iff]
      norm_num
      simp only [or_assoc]
      right
      right
      left
      linarith
  have hstep : pixStep ((-0.2 : ℝ), (-0.087 : ℝ)) n = 0.113 / ((n : ℝ) - 1) := by
    unfold pixStep
    norm_num
  unfold sampleXs
  rw [hmin, hmax, hstep]
  unfold linspace
  congr 1
  ring

/-- The sampled point number `m` of the last transition is in the image. -/
theorem default_touch {n : ℕ} (m : ℕ) (lab : Labelling) {x1 x2 d : ℝ} (hn : 2 ≤ n) (hm : m < (n + n) * 4)
    (hx1 : x1 ≤ linAt (-(0.153 * kap + 0.113 / ((n : ℝ) - 1))) (0.113 * kap + 0.113 / ((n : ℝ) - 1)) ((n + n) * 4) m)
    (hx2 : linAt (-(0.153 * kap + 0.113 / ((n : ℝ) - 1))) (0.113 * kap + 0.113 / ((n : ℝ) - 1)) ((n + n) * 4) m ≤ x2)
    (b1 : -0.06 ≤ x1) (b2 : x2 ≤ -0.02) (d1 : -0.02849374 - x1 ≤ d) (d2 : x2 + 0.02849374 ≤ d) (d3 : d ≤ 0.05)
    (c1 : 0.7071 * (x2 - 0.0915614 + 0.01796 * d) < -0.087 + 0.113 / ((n : ℝ) - 1) / 2)
    (c2 : 0.7071 * (-0.0915614 + 0.01796 * d - x1) < -0.047 + 0.153 / ((n : ℝ) - 1) / 2) :
    ideal2d defaultIdeal lab (-0.2, -0.087) (-0.2, -0.047) n n = .error .indexError := by
  obtain ⟨curves, hcs⟩ := C05_curves_exist _ default_cfgOk
  obtain ⟨pre, f, hcv, hf⟩ := default_last hcs
  have t1 : sortLim (-0.2, -0.087) = (-0.2, -0.087) := by
    unfold sortLim
    rw [min_eq_left (by norm_num), max_eq_right (by norm_num)]
  have t2 : sortLim (-0.2, -0.047) = (-0.2, -0.047) := by
    unfold sortLim
    rw [min_eq_left (by norm_num), max_eq_right (by norm_num)]
  refine ideal2d_touch default_cfgOk hcv hcs lab (by norm_num) (by norm_num) hn hn (⟨m, hm⟩ : Fin ((n + n) * 4)) ?_
  rw [t1, t2, sampleXs_default]
  simp only
  generalize linAt (-(0.153 * kap + 0.113 / ((n : ℝ) - 1))) (0.113 * kap + 0.113 / ((n : ℝ) - 1)) ((n + n) * 4) m = x at hx1 hx2
  obtain ⟨f1, f2⟩ := hf x
  have ha : |x + 0.02849374| ≤ d := by
    rw [abs_le]
    constructor <;> linarith
  have hs1 : pixStep ((-0.2 : ℝ), (-0.087 : ℝ)) n = 0.113 / ((n : ℝ) - 1) := by
    unfold pixStep
    norm_num
  have hs2 : pixStep ((-0.2 : ℝ), (-0.047 : ℝ)) n = 0.153 / ((n : ℝ) - 1) := by
    unfold pixStep
    norm_num
  have hn' : (0 : ℝ) < (n : ℝ) - 1 := by
    have : (2 : ℝ) ≤ n := by exact_mod_cast hn
    linarith
  have q1 : (0 : ℝ) ≤ 0.113 / ((n : ℝ) - 1) := div_nonneg (by norm_num) hn'.le
  have q2 : (0 : ℝ) ≤ 0.153 / ((n : ℝ) - 1) := div_nonneg (by norm_num) hn'.le
  obtain ⟨k1, k2⟩ := kap_bounds
  rw [rotate_default]
  unfold inImage
  rw [hs1, hs2]
  generalize 0.113 / ((n : ℝ) - 1) = w1 at *
  generalize 0.153 / ((n : ℝ) - 1) = w2 at *
  norm_num at k1 k2 f1 f2 ha b1 b2 d1 d2 d3 c1 c2 ⊢
  have u1 : x + f x < 0 := by linarith
  have u2 : f x - x < 0 := by linarith
  have v1 := mul_le_mul_of_nonpos_right k1 u1.le
  have v2 := mul_le_mul_of_nonpos_right k1 u2.le
  have v3 := mul_le_mul_of_nonpos_right k2 u1.le
  have v4 := mul_le_mul_of_nonpos_right k2 u2.le
  refine ⟨?_, ?_, ?_, ?_⟩ <;> linarith

/-- Position of a sampled point. -/
macro "touch_num" : tactic => `(tactic| (have hk := kap_bounds; norm_num at hk; obtain ⟨k1, k2⟩ := hk; norm_num [linAt]; linarith))

/-- Every coarse image of the whole range reaches the last transition. -/
theorem default_coarse (lab : Labelling) {n : ℕ} (h1 : 2 ≤ n) (h2 : n ≤ 26) :
    ideal2d defaultIdeal lab (-0.2, -0.087) (-0.2, -0.047) n n = .error .indexError := by
  interval_cases n
  · exact default_touch 6 lab (x1 := -0.05557) (x2 := -0.05554) (d := 0.02708) (by norm_num) (by norm_num) (by touch_num) (by touch_num) (by norm_num)
      (by norm_num) (by norm_num) (by norm_num) (by norm_num) (by norm_num) (by norm_num)
  · exact default_touch 10 lab (x1 := -0.03379) (x2 := -0.03376) (d := 0.00530) (by norm_num) (by norm_num) (by touch_num) (by touch_num) (by norm_num)
      (by norm_num) (by norm_num) (by norm_num) (by norm_num) (by norm_num) (by norm_num)
  · exact default_touch 13 lab (x1 := -0.03540) (x2 := -0.03537) (d := 0.00691) (by norm_num) (by norm_num) (by touch_num) (by touch_num) (by norm_num)
      (by norm_num) (by norm_num) (by norm_num) (by norm_num) (by norm_num) (by norm_num)
  · exact default_touch 17 lab (x1 := -0.02984) (x2 := -0.02981) (d := 0.00135) (by norm_num) (by norm_num) (by touch_num) (by touch_num) (by norm_num)
      (by norm_num) (by norm_num) (by norm_num) (by norm_num) (by norm_num) (by norm_num)
  · exact default_touch 20 lab (x1 := -0.03153) (x2 := -0.03150) (d := 0.00304) (by norm_num) (by norm_num) (by touch_num) (by touch_num) (by norm_num)
      (by norm_num) (by norm_num) (by norm_num) (by norm_num) (by norm_num) (by norm_num)
  · exact default_touch 23 lab (x1 := -0.03263) (x2 := -0.03260) (d := 0.00414) (by norm_num) (by norm_num) (by touch_num) (by touch_num) (by norm_num)
      (by norm_num) (by norm_num) (by norm_num) (by norm_num) (by norm_num) (by norm_num)
  · exact default_touch 27 lab (x1 := -0.02990) (x2 := -0.02987) (d := 0.00141) (by norm_num) (by norm_num) (by touch_num) (by touch_num) (by norm_num)
      (by norm_num) (by norm_num) (by norm_num) (by norm_num) (by norm_num) (by norm_num)
  · exact default_touch 30 lab (x1 := -0.03092) (x2 := -0.03089) (d := 0.00243) (by norm_num) (by norm_num) (by touch_num) (by touch_num) (by norm_num)
      (by norm_num) (by norm_num) (by norm_num) (by norm_num) (by norm_num) (by norm_num)
  · exact default_touch 34 lab (x1 := -0.02900) (x2 := -0.02897) (d := 0.00051) (by norm_num) (by norm_num) (by touch_num) (by touch_num) (by norm_num)
      (by norm_num) (by norm_num) (by norm_num) (by norm_num) (by norm_num) (by norm_num)
  · exact default_touch 37 lab (x1 := -0.02990) (x2 := -0.02987) (d := 0.00141) (by norm_num) (by norm_num) (by touch_num) (by touch_num) (by norm_num)
      (by norm_num) (by norm_num) (by norm_num) (by norm_num) (by norm_num) (by norm_num)
  · exact default_touch 40 lab (x1 := -0.03063) (x2 := -0.03060) (d := 0.00214) (by norm_num) (by norm_num) (by touch_num) (by touch_num) (by norm_num)
      (by norm_num) (by norm_num) (by norm_num) (by norm_num) (by norm_num) (by norm_num)
  · exact default_touch 44 lab (x1 := -0.02922) (x2 := -0.02919) (d := 0.00073) (by norm_num) (by norm_num) (by touch_num) (by touch_num) (by norm_num)
      (by norm_num) (by norm_num) (by norm_num) (by norm_num) (by norm_num) (by norm_num)
  · exact default_touch 47 lab (x1 := -0.02989) (x2 := -0.02986) (d := 0.00140) (by norm_num) (by norm_num) (by touch_num) (by touch_num) (by norm_num)
      (by norm_num) (by norm_num) (by norm_num) (by norm_num) (by norm_num) (by norm_num)
  · exact default_touch 51 lab (x1 := -0.02875) (x2 := -0.02872) (d := 0.00026) (by norm_num) (by norm_num) (by touch_num) (by touch_num) (by norm_num)
      (by norm_num) (by norm_num) (by norm_num) (by norm_num) (by norm_num) (by norm_num)
  · exact default_touch 54 lab (x1 := -0.02935) (x2 := -0.02932) (d := 0.00086) (by norm_num) (by norm_num) (by touch_num) (by touch_num) (by norm_num)
      (by norm_num) (by norm_num) (by norm_num) (by norm_num) (by norm_num) (by norm_num)
  · exact default_touch 57 lab (x1 := -0.02989) (x2 := -0.02986) (d := 0.00140) (by norm_num) (by norm_num) (by touch_num) (by touch_num) (by norm_num)
      (by norm_num) (by norm_num) (by norm_num) (by norm_num) (by norm_num) (by norm_num)
  · exact default_touch 61 lab (x1 := -0.02894) (x2 := -0.02891) (d := 0.00045) (by norm_num) (by norm_num) (by touch_num) (by touch_num) (by norm_num)
      (by norm_num) (by norm_num) (by norm_num) (by norm_num) (by norm_num) (by norm_num)
  · exact default_touch 64 lab (x1 := -0.02944) (x2 := -0.02941) (d := 0.00095) (by norm_num) (by norm_num) (by touch_num) (by touch_num) (by norm_num)
      (by norm_num) (by norm_num) (by norm_num) (by norm_num) (by norm_num) (by norm_num)
  · exact default_touch 68 lab (x1 := -0.02862) (x2 := -0.02859) (d := 0.00013) (by norm_num) (by norm_num) (by touch_num) (by touch_num) (by norm_num)
      (by norm_num) (by norm_num) (by norm_num) (by norm_num) (by norm_num) (by norm_num)
  · exact default_touch 71 lab (x1 := -0.02908) (x2 := -0.02905) (d := 0.00059) (by norm_num) (by norm_num) (by touch_num) (by touch_num) (by norm_num)
      (by norm_num) (by norm_num) (by norm_num) (by norm_num) (by norm_num) (by norm_num)
  · exact default_touch 74 lab (x1 := -0.02950) (x2 := -0.02947) (d := 0.00101) (by norm_num) (by norm_num) (by touch_num) (by touch_num) (by norm_num)
      (by norm_num) (by norm_num) (by norm_num) (by norm_num) (by norm_num) (by norm_num)
  · exact default_touch 78 lab (x1 := -0.02879) (x2 := -0.02876) (d := 0.00030) (by norm_num) (by norm_num) (by touch_num) (by touch_num) (by norm_num)
      (by norm_num) (by norm_num) (by norm_num) (by norm_num) (by norm_num) (by norm_num)
  · exact default_touch 81 lab (x1 := -0.02918) (x2 := -0.02915) (d := 0.00069) (by norm_num) (by norm_num) (by touch_num) (by touch_num) (by norm_num)
      (by norm_num) (by norm_num) (by norm_num) (by norm_num) (by norm_num) (by norm_num)
  · exact default_touch 85 lab (x1 := -0.02855) (x2 := -0.02852) (d := 0.00006) (by norm_num) (by norm_num) (by touch_num) (by touch_num) (by norm_num)
      (by norm_num) (by norm_num) (by norm_num) (by norm_num) (by norm_num) (by norm_num)
  · exact default_touch 88 lab (x1 := -0.02892) (x2 := -0.02889) (d := 0.00043) (by norm_num) (by norm_num) (by touch_num) (by touch_num) (by norm_num)
      (by norm_num) (by norm_num) (by norm_num) (by norm_num) (by norm_num) (by norm_num)

/-- C68 is violated for coarse images: an image of the whole voltage range of the default configuration "GaAs_v1" with 2 x 2 up to
26 x 26 pixels raises `IndexError`. -/
theorem C68_coarse_refuted {σ : Type} (lab : Labelling) (n : ℕ) (h1 : 2 ≤ n) (h2 : n ≤ 26) (st : σ) :
    measure (defaultSim lab) ⟨[-0.2, -0.087], [-0.2, -0.047], none, none, .arr [n, n]⟩ st = (.error .indexError, st) := by
  have hck := default_check (σ := σ) lab (a1 := -0.2) (b1 := -0.087) (a2 := -0.2) (b2 := -0.047) (by unfold Within; norm_num)
    (by unfold Within; norm_num) (s1 := none) (s2 := none) rfl (res := .arr [n, n]) (by
    unfold resCheck
    simp
    norm_num
    omega)
  exact (measure_plain_2d (sim := defaultSim lab) (cfg := defaultIdeal) (s := defaultSensor) rfl rfl rfl rfl rfl
    (by simp [defaultSensor]) h1 h1 (g1 := (-0.2, -0.087)) (g2 := (-0.2, -0.047)) (by norm_num) (by norm_num) rfl hck st).2 _
    (default_coarse lab h1 h2)

/-! ### The pixels of the images -/

theorem default_nearLipschitz {curves : List (ℝ → ℝ)} (hc : IsCurves defaultIdeal.lut 1 defaultIdeal.params curves) :
    ∀ f ∈ curves, NearLipschitz 0.54688 0.000003 f := by
  intro f hf
  obtain ⟨m, hm⟩ := List.mem_iff_getElem?.1 hf
  obtain ⟨q, hq, hx⟩ := hc.getElem? hm
  have hq' := List.mem_of_getElem? hq
  have ok := default_lineOk q hq'
  have hb := default_bounds q hq'
  rw [Nat.add_comm] at hx
  refine ⟨exactCurve q (lineCenter q) m, ?_, fun x => ?_⟩
  · intro x y
    have hs := exactCurve_slopes ok.center ok.grad ok.per m
    rcases le_total y x with h | h
    · have a1 := hs.le h
      have a2 := hs.ge h
      rw [abs_le, abs_of_nonneg (by linarith)]
      constructor <;> nlinarith [hb.1, hb.2.1]
    · have a1 := hs.le h
      have a2 := hs.ge h
      rw [abs_le, abs_of_nonpos (by linarith)]
      constructor <;> nlinarith [hb.1, hb.2.1]
  · have hz : tctBezierAt q none (some (m + 1)) x = .ok (exactCurve q (lineCenter q) m x) := tctBezierAt_eq ok.tctCenter none _ x
    refine (C10_lut_error _ _ _ ok.tctCenter ok.grad ok.per 1000 (by norm_num) x _ _ (hx x) hz).trans ?_
    have m1 : max |q.gradL| |q.gradR| ≤ 0.43 := by
      obtain ⟨b1, b2, -⟩ := hb
      have := ok.grad
      norm_num at b1 b2 ⊢
      constructor <;> rw [abs_le] <;> constructor <;> linarith
    have m2 : max ((lineCenter q).1 - q.x0) (q.x2 - (lineCenter q).1) ≤ 0.006 := by
      have := ok.left
      have := ok.right
      have := hb.2.2
      norm_num at this ⊢
      constructor <;> linarith
    have m3 : 0 ≤ max ((lineCenter q).1 - q.x0) (q.x2 - (lineCenter q).1) := le_max_of_le_left (by linarith [ok.left])
    have m4 := mul_le_mul m1 m2 m3 (by norm_num)
    norm_num at m4 ⊢
    rw [← mul_div_assoc, div_le_iff₀ (by norm_num)]
    linarith

/-- C67 for the default configurations: in every image whose pixels have sides of at least 0.06 mV, none of them more than three
times as long as the other one, the electrons of an unlabelled pixel are those of the voltages of this pixel. -/
theorem C67_default (lab : Labelling) (hlab : IsLabelling lab) (curves : List (ℝ → ℝ))
    (hcv : IsCurves defaultIdeal.lut 1 defaultIdeal.params curves) (a1 b1 a2 b2 sx sy : ℝ) (r c : ℕ)
    (hsx : |b1 - a1| = sx * ((c : ℝ) - 1)) (hsy : |b2 - a2| = sy * ((r : ℝ) - 1))
    (h1 : 0.00006 ≤ sx) (h2 : 0.00006 ≤ sy) (h3 : sx ≤ 3 * sy) (h4 : sy ≤ 3 * sx)
    (occ : Fin r → Fin c → ℝ × ℝ) (lead : Fin r → Fin c → ℕ)
    (ho : idealCsd defaultIdeal lab [a1, b1] [a2, b2] (.arr [c, r]) = .ok (.d2 r c occ lead)) (i : Fin r) (j : Fin c) (hl : lead i j = 0) :
    Distributes (Spec.region curves (rotatePoint (-defaultIdeal.rotation) (pixelVoltages a1 b1 a2 b2 r c i j))) (occ i j) := by
  obtain ⟨-, -, hc, hr, -⟩ := idealCsd_2d_ok ho
  exact C67_partial _ default_cfgOk lab hlab curves hcv 0.54688 0.000003 (default_nearLipschitz hcv) a1 b1 a2 b2 r c
    (dense45 rfl hr hc hsx hsy h1 h2 h3 h4) occ lead ho i j hl

theorem default_curve_ge {curves : List (ℝ → ℝ)} (hc : IsCurves defaultIdeal.lut 1 defaultIdeal.params curves) {f : ℝ → ℝ} (hf : f ∈ curves)
    {x : ℝ} (h1 : -0.01 ≤ x) (h2 : x ≤ 0.01) : -0.2 ≤ f x := by
  obtain ⟨m, hm⟩ := List.mem_iff_getElem?.1 hf
  obtain ⟨q, hq, hx⟩ := hc.getElem? hm
  have hq' := List.mem_of_getElem? hq
  have ok := default_lineOk q hq'
  rw [Nat.add_comm] at hx
  have hx0 : tctBezierAt q none (some (m + 1)) x = .ok (exactCurve q (lineCenter q) m x) := tctBezierAt_eq ok.tctCenter none _ x
  have he := C10_lut_error _ _ _ ok.tctCenter ok.grad ok.per 1000 (by norm_num) x _ _ (hx x) hx0
  have m1 : max |q.gradL| |q.gradR| ≤ 0.43 := by
    obtain ⟨b1, b2, -⟩ := default_bounds q hq'
    have := ok.grad
    norm_num at b1 b2 ⊢
    constructor <;> rw [abs_le] <;> constructor <;> linarith
  have m2 : max ((lineCenter q).1 - q.x0) (q.x2 - (lineCenter q).1) ≤ 0.006 := by
    have := ok.left
    have := ok.right
    have := (default_bounds q hq').2.2
    norm_num at this ⊢
    constructor <;> linarith
  have m3 : 0 ≤ max ((lineCenter q).1 - q.x0) (q.x2 - (lineCenter q).1) := le_max_of_le_left (by linarith [ok.left])
  have m4 := mul_le_mul m1 m2 m3 (by norm_num)
  have he' : |f x - exactCurve q (lineCenter q) m x| ≤ 0.000003 := by
    refine he.trans ?_
    norm_num at m4 ⊢
    rw [← mul_div_assoc, div_le_iff₀ (by norm_num)]
    linarith
  have h0 : exactCurve q (lineCenter q) m q.x0 = q.y0 := by
    rw [exactCurve_eq ok.center ok.grad ok.per, if_pos le_rfl]
    ring
  have hs := exactCurve_slopes ok.center ok.grad ok.per m
  have hlow := default_low q hq'
  obtain ⟨-, b2, -⟩ := default_bounds q hq'
  have hle : q.x0 ≤ x := by
    have := hlow.1
    norm_num at this h1
    linarith
  have a1 := hs.le hle
  rw [h0] at a1
  have a2 := mul_le_mul_of_nonneg_right b2 (sub_nonneg.2 hle)
  have e1 := (abs_le.1 he').1
  have l2 := hlow.2
  norm_num at e1 a2 l2 h2 ⊢
  linarith

/-- The lower left corner of the voltage range is not labelled in an image with 51 x 51 pixels. -/
theorem default_corner {lab : Labelling} {occ : Fin 51 → Fin 51 → ℝ × ℝ} {lead : Fin 51 → Fin 51 → ℕ}
    (ho : idealCsd defaultIdeal lab [-0.2, -0.087] [-0.2, -0.047] (.arr [((51 : ℕ) : ℤ), ((51 : ℕ) : ℤ)]) = .ok (.d2 51 51 occ lead)) :
    lead 0 0 = 0 := by
  obtain ⟨curves, hcv⟩ := C05_curves_exist _ default_cfgOk
  obtain ⟨-, -, -, -, h2⟩ := idealCsd_2d_ok ho
  obtain ⟨img, him, hpx⟩ := ideal2d_pixel default_cfgOk hcv (by norm_num) (by norm_num) h2
  obtain ⟨ij, e1, e2, -⟩ := hpx 0 0
  by_contra hne
  rw [e1] at hne
  have t1 : sortLim (-0.2, -0.087) = (-0.2, -0.087) := by
    unfold sortLim
    rw [min_eq_left (by norm_num), max_eq_right (by norm_num)]
  have t2 : sortLim (-0.2, -0.047) = (-0.2, -0.047) := by
    unfold sortLim
    rw [min_eq_left (by norm_num), max_eq_right (by norm_num)]
  rw [t1, t2] at him e2
  obtain ⟨f, hf, x, hn⟩ := C13_label_near _ curves hcv _ _ 51 51 (by norm_num) (by norm_num) (by norm_num) (by norm_num) img him
    ij.1 ij.2 ij.1.2 ij.2.2 hne
  unfold NearPixel at hn
  have v1 : axisVolt (-0.2, -0.087) 51 ij.2 = -0.2 := by
    have := congrArg Prod.fst e2
    simp only [pts2d, linspace, linAt] at this
    unfold axisVolt
    rw [← this]
    simp
  have v2 : axisVolt (-0.2, -0.047) 51 ij.1 = -0.2 := by
    have := congrArg Prod.snd e2
    simp only [pts2d, linspace, linAt] at this
    unfold axisVolt
    rw [← this]
    simp
  rw [v1, v2] at hn
  obtain ⟨n1, n2, n3, n4⟩ := hn
  rw [rotate_default] at n1 n2 n3 n4
  obtain ⟨k1, k2⟩ := kap_bounds
  norm_num at n1 n2 n3 n4 k1 k2
  have hfl : f x ≤ -0.27 := by
    by_contra hlt
    push Not at hlt
    norm_num at hlt
    nlinarith
  have hx : |x| ≤ 0.01 := by
    rw [abs_le]
    constructor <;>
    · by_contra hlt
      push Not at hlt
      norm_num at hlt
      nlinarith
  obtain ⟨x1, x2⟩ := abs_le.1 hx
  have := default_curve_ge hcv (List.mem_of_getElem? hf) x1 x2
  norm_num at hfl this
  linarith

/-- Non-vacuity: the image of the whole range with 51 x 51 pixels exists and has an unlabelled pixel. -/
example (lab : Labelling) : ∃ curves occ lead, IsCurves defaultIdeal.lut 1 defaultIdeal.params curves ∧
    idealCsd defaultIdeal lab [-0.2, -0.087] [-0.2, -0.047] (.arr [((51 : ℕ) : ℤ), ((51 : ℕ) : ℤ)]) = .ok (.d2 51 51 occ lead) ∧
    |(-0.087 : ℝ) - -0.2| = 0.00226 * (((51 : ℕ) : ℝ) - 1) ∧ |(-0.047 : ℝ) - -0.2| = 0.00306 * (((51 : ℕ) : ℝ) - 1) ∧ lead 0 0 = 0 := by
  obtain ⟨curves, hc⟩ := C05_curves_exist _ default_cfgOk
  obtain ⟨o, ho⟩ := default_fine lab (l1 := -0.2) (l2 := -0.2) (a1 := -0.2) (b1 := -0.087) (a2 := -0.2) (b2 := -0.047) (by unfold Within; norm_num)
    (by unfold Within; norm_num) (by norm_num) (by norm_num) (r := 51) (c := 51) (by norm_num) (by norm_num)
    (by rw [abs_of_nonneg (by norm_num), abs_of_nonneg (by norm_num)]; norm_num)
  have hi := idealCsd_2d defaultIdeal lab (g1 := (-0.2, -0.087)) (g2 := (-0.2, -0.047)) (by norm_num) (by norm_num) (r := 51) (c := 51)
    (by norm_num) (by norm_num)
  rw [ho] at hi
  refine ⟨curves, o.1, o.2, hc, hi, ?_, ?_, default_corner hi⟩ <;> rw [abs_of_nonneg (by norm_num)] <;> norm_num

end SimCATS
