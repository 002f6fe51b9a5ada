import Verif.Model.SampledSim
import Verif.Spec.SampledSim
import Verif.Lemmas.ExtendedConfig
import Verif.Lemmas.SampledTest
import Verif.Props.ConfigSampler
import Verif.Props.GeometrySampler

/-! Measurements with sampled configurations. -/

namespace SimCATS

open Spec

variable {σ τ : Type}

/-! ### The last transition lies above the voltage range -/

theorem tested_above {p : TctParams} {v : ℝ × ℝ} (h : SampledFirst p v) (lab : Labelling) {k : ℕ} {o}
    (ho : ideal2d (sampledIdeal (ladder p v (k + 1))) lab testLim testLim 10 10 = .ok o) {curves pre : List (ℝ → ℝ)} {f : ℝ → ℝ}
    (hcv : curves = pre ++ [f]) (hc : IsCurves (some 1000) 1 (ladder p v (k + 1)) curves)
    (hf : ∀ x, |f x - ladderCurve p v k x| ≤ 0.000003) (x : ℝ) : -0.054165 ≤ kap * (f x + |x|) := by
  obtain ⟨k1, k2⟩ := kap_bounds
  obtain ⟨a1, a2⟩ := abs_le.1 (hf 0)
  obtain ⟨c1, c2⟩ := abs_le.1 (hf x)
  have h3 := ladderCurve_ge h k 0
  have hk0 : (0 : ℝ) ≤ k := Nat.cast_nonneg _
  obtain ⟨l1, l2⟩ := abs_le.1 (ladderCurve_lipschitz h k 0 x)
  have hx := abs_nonneg x
  rw [abs_zero] at h3
  rw [sub_zero] at l1 l2
  norm_num at k1 k2 a1 a2 c1 c2 h3 l1 l2
  have h0 : -0.05416 < kap * f 0 := by
    by_contra hn
    rw [not_lt] at hn
    refine test_far h lab ho hcv hc hf 0 ?_ ?_
    · rw [abs_zero]
      norm_num
      nlinarith
    · rw [abs_zero, add_zero]
      exact hn
  have h4 : f 0 - 0.000006 ≤ f x + |x| := by
    norm_num
    linarith
  norm_num at h0 h4 ⊢
  nlinarith

/-- The pixels of sampled configurations. -/
def sampledPixel (a b : ℝ) : Prop := a ≤ 0.14 / 12 ∧ b ≤ 0.14 / 12

theorem sampledPixel_down : Downward sampledPixel := fun _ _ _ _ h1 h2 h => ⟨h1.trans h.1, h2.trans h.2⟩

theorem sampledPixel_sides (a b : ℝ) (_ : 0 ≤ a) (_ : 0 ≤ b) (h : sampledPixel a b) : a ≤ 0.014 ∧ b ≤ 0.014 := by
  obtain ⟨h1, h2⟩ := h
  norm_num at h1 h2 ⊢
  constructor <;> linarith

theorem below_pixel {g : ℝ × ℝ} {n : ℕ} (h : |g.2 - g.1| / ((n : ℝ) - 1) ≤ 0.14 / 12) : pixStep (sortLim g) n ≤ 0.14 / 12 := by
  have : (sortLim g).2 - (sortLim g).1 = |g.2 - g.1| := by
    rw [← sortLim_ext g, abs_of_nonneg (sub_nonneg.2 (sortLim_le' g))]
  unfold pixStep
  rw [this]
  exact h

theorem below_max {P : ℝ × ℝ} (h1 : P.1 ≤ -0.06) (h2 : P.2 ≤ -0.06) :
    kap * (kap * P.1 + kap * P.2 + |kap * P.1 - kap * P.2|) ≤ -0.06 :=
  (kap_box (a := min P.1 P.2) (min_le_left _ _) h1 (min_le_right _ _) h2).2

theorem tested_below {f : ℝ → ℝ} (above : ∀ x, -0.054165 ≤ kap * (f x + |x|)) {ps : List TctParams} (P : ℝ × ℝ) (h1 : P.1 ≤ -0.06)
    (h2 : P.2 ≤ -0.06) : (tctCoord (sampledIdeal ps) P).2 < f (tctCoord (sampledIdeal ps) P).1 := by
  obtain ⟨k1, k2⟩ := kap_bounds
  have hk : 0 < kap := by norm_num at k1; linarith
  rw [tctCoord_sampled]
  have e1 := below_max h1 h2
  have e2 := above (kap * P.1 - kap * P.2)
  have e3 : kap * (kap * P.1 + kap * P.2 + |kap * P.1 - kap * P.2|) < kap * (f (kap * P.1 - kap * P.2) + |kap * P.1 - kap * P.2|) := by
    norm_num at e1 e2
    linarith
  have e4 := lt_of_mul_lt_mul_left e3 hk.le
  simp only
  linarith

/-- A sampled CSD returns all lines (and points) below the upper limits. -/
theorem tested_line {lab : Labelling} {p : TctParams} {v : ℝ × ℝ} {k : ℕ} (ht : TestedLadder lab p v k) (lab' : Labelling) {g1 g2 : ℝ × ℝ}
    (u1 : g1.1 ≤ -0.06 ∧ g1.2 ≤ -0.06) (u2 : g2.1 ≤ -0.06 ∧ g2.2 ≤ -0.06) (n : ℕ) (s : σ) :
    ∃ o l, idealGen (sampledIdeal (ladder p v (k + 1))) lab' g1 g2 (.int n) s = (.ok (.d1 n o, .d1 n l), s) := by
  obtain ⟨h, -, ⟨o, ho⟩, -⟩ := ht
  obtain ⟨curves, hcs⟩ := ladder_curves h (k + 1)
  obtain ⟨pre, f, hcv, hf⟩ := ladder_last h hcs
  have above := tested_above h lab ho hcv hcs hf
  obtain ⟨occ, hocc, -⟩ := C04_1d _ (h.cfgOk (k + 1)) curves hcs (pts1d g1 g2 n) (by
    intro i
    refine ⟨f, by rw [hcv]; simp, ?_⟩
    exact tested_below above _ (linspace_mem (lo := min g1.1 g1.2) ⟨min_le_left _ _, u1.1⟩ ⟨min_le_right _ _, u1.2⟩ i).2
      (linspace_mem (lo := min g2.1 g2.2) ⟨min_le_left _ _, u2.1⟩ ⟨min_le_right _ _, u2.2⟩ i).2)
  obtain ⟨o, ho⟩ : ∃ o, ideal1d (sampledIdeal (ladder p v (k + 1))) g1 g2 n = .ok o := by
    unfold ideal1d
    rw [hocc]
    exact ⟨_, rfl⟩
  have hi : idealCsd (sampledIdeal (ladder p v (k + 1))) lab' [g1.1, g1.2] [g2.1, g2.2] (.int n) = .ok (.d1 n o.1 o.2) := by
    unfold idealCsd
    simp only [Resolution.entries, idealCheck_1d]
    rw [if_neg (by omega)]
    simp only [Int.toNat_natCast, Prod.mk.eta]
    rw [ho]
  refine ⟨o.1, o.2, ?_⟩
  unfold idealGen
  rw [hi]
  rfl

/-- A sampled CSD returns all images with small pixels and all lines below the upper limits. -/
theorem tested_serves {lab : Labelling} {p : TctParams} {v : ℝ × ℝ} {k : ℕ} (ht : TestedLadder lab p v k) (lab' : Labelling) (s₀ : σ) :
    Serves (· = s₀) (idealGen (sampledIdeal (ladder p v (k + 1))) lab') (FineBelow (-0.06) (-0.06) sampledPixel) (LineBelow (-0.06) (-0.06)) := by
  obtain ⟨h, -, ⟨o, ho⟩, -⟩ := id ht
  obtain ⟨curves, hcs⟩ := ladder_curves h (k + 1)
  obtain ⟨pre, f, hcv, hf⟩ := ladder_last h hcs
  have above := tested_above h lab ho hcv hcs hf
  constructor
  · rintro g1 g2 r c s rfl hg
    have b1 := (sortLim_le hg.u1).2
    have b2 := (sortLim_le hg.u2).2
    have s1 := below_pixel hg.step.1
    have s2 := below_pixel hg.step.2
    obtain ⟨o, ho⟩ := ideal2d_below (h.cfgOk (k + 1)) hcv hcs lab' hg.n1 hg.n2 hg.hr hg.hc (by
      rintro x ⟨-, h2, -, h4⟩
      have e := above x
      rw [rotate_sampled] at h2 h4
      simp only at h2 h4
      norm_num at b1 b2 s1 s2 e
      rcases abs_cases x with ⟨q, hs⟩ | ⟨q, hs⟩ <;> rw [q] at e <;> linarith) (by
      intro P h1 h2 h3 h4
      exact tested_below above P (h2.trans b1) (h4.trans b2))
    have hi := idealCsd_2d (sampledIdeal (ladder p v (k + 1))) lab' hg.n1 hg.n2 hg.hr hg.hc
    rw [ho] at hi
    refine ⟨o.1, o.2, s, ?_, rfl⟩
    unfold idealGen
    rw [hi]
    rfl
  · rintro g1 g2 n s rfl hg
    obtain ⟨o', l, e⟩ := tested_line ht lab' hg.u1 hg.u2 n s
    exact ⟨o', l, s, e, rfl⟩

/-! ### The contents of a sampled configuration -/

/-- What the measurements need from a configuration. -/
structure SampledParts (c : SampledConfig) : Prop where
  lim : c.limits = ⟨some (-0.2, -0.06), some (-0.2, -0.06), some (-1, 0), some (-1, 0)⟩
  occ : c.occ = sampleOccDistortions 1
  pot : c.pot = samplePotDistortions 1
  resp : c.resp = sampleRespDistortions 1
  csd : ∀ {σ : Type} (lab : Labelling) (s : σ),
    Serves (· = s) (idealGen c.ideal lab) (FineBelow (-0.06) (-0.06) sampledPixel) (LineBelow (-0.06) (-0.06))
  point : ∀ {σ : Type} (lab : Labelling) {v1 v2 : ℝ}, v1 ≤ -0.06 → v2 ≤ -0.06 → ∀ s : σ,
    ∃ o l, idealGen c.ideal lab (v1, v1) (v2, v2) (.int 1) s = (.ok (.d1 1 o, .d1 1 l), s)
  generic : ∀ d, c.sensor = .generic d → d.peaks ≠ some []
  scan : ∀ d, c.sensor = .scan d → d.defs = [] ∧ ∃ ps, d.peaks = some ps

theorem sampled_parts {rng : CfgRng τ} (hv : rng.Valid) (hz : rng.NormalNonzero) {lab : Labelling} {ty : String} {q : ℝ} {comp steepest : Bool}
    {s s' : τ} {c : SampledConfig} (h : sampleConfig rng lab ty q comp steepest s (.ok c, s')) : SampledParts c := by
  have hq : 0 < q ∧ q ≤ 1 := by
    by_contra hn
    exact nomatch (C66_quality rng lab ty q comp steepest hn s _).1 h
  have hty : ty = "SensorGeneric" ∨ ty = "SensorScanSensorGeneric" := by
    by_contra hn
    rw [not_or] at hn
    exact nomatch C66_type rng hv lab ty q comp steepest hn.1 hn.2 s _ h
  obtain ⟨c', s'', e, l1, l2, l3, l4, -, ⟨s1, hi⟩, hs⟩ := C66_valid rng hv hz lab ty q hq.1 hq.2 comp steepest hty s _ h
  cases e
  obtain ⟨d1, d2, d3⟩ := sampleConfig_distortions h
  refine ⟨?_, d1, d2, d3, ?_, ?_, ?_, ?_⟩
  · unfold SampledConfig.limits
    rw [l1, l2, l3, l4]
  · intro σ lab' t
    obtain ⟨_, _, e, p, v, k, ht, hc⟩ := sampleIdealCSD_tested hv lab s _ hi
    cases e
    rw [hc]
    exact tested_serves ht lab' t
  · intro σ lab' v1 v2 h1 h2 t
    obtain ⟨_, _, e, p, v, k, ht, hc⟩ := sampleIdealCSD_tested hv lab s _ hi
    cases e
    rw [hc]
    exact tested_line ht lab' ⟨h1, h1⟩ ⟨h2, h2⟩ 1 t
  · intro d hd hp
    rw [hd] at hs
    obtain ⟨-, -, ps, e, hps⟩ := hs
    rw [e] at hp
    cases hp
    have := hps.count.1
    simp at this
  · intro d hd
    rw [hd] at hs
    obtain ⟨-, base, hb, -⟩ := hs
    obtain ⟨ps, e, -⟩ := hb.peaks
    exact ⟨hb.undeformed, ps, e⟩

/-! ### The distortions -/

/-- The sampler of the blurring. -/
noncomputable def fermiStrength : StrengthSampler := .normal (0.25 * 0.03 / 100, 2 * 0.03 / 100) ((2 * 0.03 / 100 - 0.25 * 0.03 / 100) / 6)

theorem sampled_occ (env : SampledEnv τ) : (sampleOccDistortions 1).map env.occDist =
    [OccDist.on (blurSlot τ) (env.blur fermiStrength).noiseFunction,
      OccDist.on (jumps0Slot τ) (env.jumpsG2 0.01 (100 * 0.03 / 100) (6 * 0.03 / 100)).noiseFunction,
      OccDist.on (jumps1Slot τ) (env.jumpsG1 (0.01 / 6) (100 * 0.03 / 100) (6 * 0.03 / 100)).noiseFunction] := by
  unfold sampleOccDistortions sampledFermi sampledJumps1 sampledJumps2
  simp only [List.map_cons, List.map_nil, SampledEnv.occDist, if_true, one_ne_zero, if_false, fermiStrength]

theorem sampled_plain {env : SampledEnv τ} (henv : SampledTotal env) :
    PlainOcc (env.blur fermiStrength) (env.jumpsG2 0.01 (100 * 0.03 / 100) (6 * 0.03 / 100))
      (env.jumpsG1 (0.01 / 6) (100 * 0.03 / 100) (6 * 0.03 / 100)) where
  blur := by
    intro s
    obtain ⟨v, t, e⟩ := henv.draw fermiStrength s.gens (by unfold fermiStrength ProperStrength; norm_num)
    exact ⟨v, t, onGens_eq e⟩
  jumps0 := ⟨env.jumps0, _, rfl, rfl, rfl, henv.jumps0, by unfold SampledEnv.jumpsG2; norm_num⟩
  jumps1 := ⟨env.jumps1, _, rfl, rfl, rfl, henv.jumps1, by unfold SampledEnv.jumpsG1; norm_num⟩
  axis0 := rfl
  axis1 := rfl
  np2 := rfl

theorem proper_exp : ProperStrength (.exponential (1e-10, 0.0005) (expScale 1)) := ⟨by norm_num, expScale_pos one_pos⟩

theorem sampled_pot {α : Type} {ref : Scan α} {env : SampledEnv τ} (henv : SampledTotal env) {g1 g2 : ℝ × ℝ} {k : ℝ}
    (hk : ∀ y : Scan ℝ, SameShape ref y → rtnFactor g1 g2 y = some k) (hpx : 1 ≤ 0.0223701 * k) :
    ∀ d ∈ (samplePotDistortions 1).map env.potDist, ∀ y s, SameShape ref y → ∃ z s', d y g1 g2 s = (.ok z, s') ∧ SameShape ref z := by
  intro d hd y s hy
  unfold samplePotDistortions sampledPink sampledPotentialRtn at hd
  simp only [List.map_cons, List.map_nil, List.mem_cons, List.not_mem_nil, or_false] at hd
  rcases hd with rfl | rfl
  · obtain ⟨z, s', e, h⟩ := white_call (pinkSlot τ) (fun s => henv.draw _ s proper_exp) henv.pinkNoise hy.notD0 g1 g2 s
    exact ⟨z, s', e, hy.trans h⟩
  · obtain ⟨z, s', e, h⟩ := rtn_call (potRtnSlot τ) henv.pot (sc := 74.56704 * 0.03 / 100) (sd := 3.491734e-05) (he := 2.53855325e-05)
      (ratio := 1 / 6 * 1) (by norm_num) (by norm_num) (by norm_num) hy.notD0 (hk y hy) (by norm_num at hpx ⊢; linarith) s
    exact ⟨z, s', e, hy.trans h⟩

theorem sampled_resp {α : Type} {ref : Scan α} {env : SampledEnv τ} (henv : SampledTotal env) {g1 g2 : ℝ × ℝ} {k : ℝ}
    (hk : ∀ y : Scan ℝ, SameShape ref y → rtnFactor g1 g2 y = some k) (hpx : 1 ≤ 3 * k) :
    ∀ d ∈ (sampleRespDistortions 1).map env.respDist, ∀ y s, SameShape ref y → ∃ z s', d y g1 g2 s = (.ok z, s') ∧ SameShape ref z := by
  intro d hd y s hy
  unfold sampleRespDistortions sampledWhite sampledResponseRtn at hd
  simp only [List.map_cons, List.map_nil, List.mem_cons, List.not_mem_nil, or_false] at hd
  rcases hd with rfl | rfl
  · obtain ⟨z, s', e, h⟩ := rtn_call (respRtnSlot τ) henv.resp (sc := 10000 * 0.03 / 100) (sd := 0.047453767599999995) (he := 0.0152373696)
      (ratio := 0.01 * 1) (by norm_num) (by norm_num) (by norm_num) hy.notD0 (hk y hy) (by norm_num at hpx ⊢; linarith) s
    exact ⟨z, s', e, hy.trans h⟩
  · obtain ⟨z, s', e, h⟩ := white_call (whiteSlot τ) (fun s => henv.draw _ s proper_exp) henv.whiteNoise hy.notD0 g1 g2 s
    exact ⟨z, s', e, hy.trans h⟩

/-! ### Simulations with a `SensorGeneric` -/

/-- The part of a measurement after the occupation distortions. -/
theorem generic_run {sim : Simulation σ} {d : SensorGeneric} (hd : sim.sensor = genericSensor d) (hp : d.peaks ≠ some [])
    {occ : List (OccDist σ)} {pot resp : List (SigDist σ)} (hoc : sim.occD = some occ) (hpo : sim.potD = some pot) (hre : sim.respD = some resp)
    {rq : Request} {g1 g2 : ℝ × ℝ} {st s1 s2 : σ} {data data' : CsdData} {gen gen' : Gen σ} (hgen : gen g1 g2 rq.res st = (.ok data, s1))
    (hocc : applyOcc g1 g2 occ gen data s1 = (.ok (data', gen'), s2)) {x : Scan ℝ} (hpot : d.potential data'.1 g1 g2 = .ok x)
    (hx : SameShape data'.1 x)
    (hP : ∀ d ∈ pot, ∀ y s, SameShape data'.1 y → ∃ z s', d y g1 g2 s = (.ok z, s') ∧ SameShape data'.1 z)
    (hR : ∀ d ∈ resp, ∀ y s, SameShape data'.1 y → ∃ z s', d y g1 g2 s = (.ok z, s') ∧ SameShape data'.1 z) :
    ∃ csd st', measureRun sim gen rq g1 g2 st = (.ok (csd, data'.1, data'.2), st') ∧ SameShape data'.1 csd := by
  obtain ⟨y, s3, e3, hy⟩ := applySig_keeps pot hP x hx s2
  have hz := hy.trans (generic_resp d hp hy.notD0)
  obtain ⟨csd, s4, e4, hcsd⟩ := applySig_keeps resp hR _ hz s3
  refine ⟨csd, s4, ?_, hcsd⟩
  unfold measureRun
  rw [M.bind_eq hgen, hoc, show (some occ).getD [] = occ from rfl, M.bind_eq hocc]
  have q1 : sim.sensor.potential data'.1 g1 g2 (if sim.sensor.scan = true then some (rq.s1, rq.s2) else none) s2 = (.ok (.single x), s2) := by
    rw [hd]
    change (match d.potential data'.1 g1 g2 with | .ok p => pure (.single p) | .error e => M.raise e : M σ Pot) s2 = _
    rw [hpot]
    rfl
  have q2 : distortPotential g1 g2 data'.1 sim.potD (.single x) s2 = (.ok (.single y), s3) := by
    unfold distortPotential
    rw [hpo]
    simp only
    rw [if_pos hx.rank, M.bind_eq e3]
    rfl
  have q3 : sim.sensor.response (.single y) s3 = (.ok (d.response y), s3) := by
    rw [hd]
    rfl
  have q4 : distortResponse g1 g2 sim.respD (d.response y) s3 = (.ok csd, s4) := by
    rw [hre]
    exact e4
  rw [M.bind_eq q1, M.bind_eq q2, M.bind_eq q3, M.bind_eq q4]
  rfl

/-! ### The checks -/

theorem sampled_check {a1 b1 a2 b2 : ℝ} (w1 : Within (-0.2) (-0.06) a1 b1) (w2 : Within (-0.2) (-0.06) a2 b2) {s1 s2 : ℝ}
    (hs1 : -1 ≤ s1 ∧ s1 ≤ 0) (hs2 : -1 ≤ s2 ∧ s2 ≤ 0) {res : Resolution} (hres : resCheck (a1, b1) (a2, b2) res = .ok ()) :
    measureCheck ⟨some (-0.2, -0.06), some (-0.2, -0.06), some (-1, 0), some (-1, 0)⟩ true ⟨[a1, b1], [a2, b2], some s1, some s2, res⟩ =
      .ok ((a1, b1), (a2, b2)) := by
  unfold measureCheck
  simp only [Bool.true_eq_false, if_false]
  rw [w1.not_outside, w2.not_outside]
  have e1 : ¬ (s1 < -1 ∨ s1 > 0) := by
    rw [not_or, not_lt, gt_iff_lt, not_lt]
    exact hs1
  have e2 : ¬ (s2 < -1 ∨ s2 > 0) := by
    rw [not_or, not_lt, gt_iff_lt, not_lt]
    exact hs2
  simp only [Bool.false_eq_true, or_self, if_false, sensorOutside, valueOutside, decide_eq_false e1, decide_eq_false e2, Option.isNone_some,
    ne_eq, not_true_eq_false, hres]

theorem sampled_omitted {a1 b1 a2 b2 : ℝ} (w1 : Within (-0.2) (-0.06) a1 b1) (w2 : Within (-0.2) (-0.06) a2 b2) (res : Resolution) :
    measureCheck ⟨some (-0.2, -0.06), some (-0.2, -0.06), some (-1, 0), some (-1, 0)⟩ true ⟨[a1, b1], [a2, b2], none, none, res⟩ =
      .error .typeError := by
  unfold measureCheck
  simp only [Bool.true_eq_false, if_false]
  rw [w1.not_outside, w2.not_outside]
  simp only [Bool.false_eq_true, or_self, if_false, sensorOutside, valueOutside]

theorem onRest_run {X α : Type} {x : M σ α} {p : X} {s s' : σ} {r : Py α} (h : x s = (r, s')) : onRest x (p, s) = (r, (p, s')) := by
  unfold onRest
  simp only [h]

/-- A measurement of a sampled configuration: images of any kind of sensor. -/
theorem sampled_run {c : SampledConfig} (hc : SampledParts c) {env : SampledEnv τ} {lab : Labelling} {a1 b1 a2 b2 : ℝ} {w1 w2 : ℝ} {res : Resolution}
    (hcheck : measureCheck ⟨some (-0.2, -0.06), some (-0.2, -0.06), some (-1, 0), some (-1, 0)⟩ true ⟨[a1, b1], [a2, b2], some w1, some w2, res⟩ =
      .ok ((a1, b1), (a2, b2))) {p : Option ScanState} {st s1 s2 : NoiseState τ} {data data' : CsdData} {gen' : Gen (NoiseState τ)}
    (hgen : idealGen c.ideal lab (a1, b1) (a2, b2) res st = (.ok data, s1))
    (hocc : applyOcc (a1, b1) (a2, b2) ((sampleOccDistortions 1).map env.occDist) (idealGen c.ideal lab) data s1 = (.ok (data', gen'), s2))
    (hgeneric : ∀ d : SensorGeneric, ∃ x, d.potential data'.1 (a1, b1) (a2, b2) = .ok x ∧ SameShape data'.1 x)
    (hscan : ∀ d : ScanSensor, ∃ mu x o, (∀ q, d.potential data'.1 (.arr (a1, b1)) (.arr (a2, b2)) (.num true w1) (.num true w2) q = (.ok mu, some x)) ∧
      firstOcc x.occ = .ok o ∧ SameShape data'.1 mu)
    (hP : ∀ d ∈ (samplePotDistortions 1).map env.potDist, ∀ y s, SameShape data'.1 y →
      ∃ z s', d y (a1, b1) (a2, b2) s = (.ok z, s') ∧ SameShape data'.1 z)
    (hR : ∀ d ∈ (sampleRespDistortions 1).map env.respDist, ∀ y s, SameShape data'.1 y →
      ∃ z s', d y (a1, b1) (a2, b2) s = (.ok z, s') ∧ SameShape data'.1 z) :
    ∃ csd st', c.measure env lab ⟨[a1, b1], [a2, b2], some w1, some w2, res⟩ (p, st) = (.ok (csd, data'.1, data'.2), st') ∧
      SameShape data'.1 csd := by
  unfold SampledConfig.measure
  cases hs : c.sensor with
  | generic d =>
    obtain ⟨x, hx, hsh⟩ := hgeneric d
    obtain ⟨csd, st', e, h⟩ := generic_run (sim := c.genericSim env lab d) rfl (hc.generic d hs)
      (occ := (sampleOccDistortions 1).map env.occDist) (pot := (samplePotDistortions 1).map env.potDist)
      (resp := (sampleRespDistortions 1).map env.respDist) (by rw [← hc.occ]; rfl) (by rw [← hc.pot]; rfl) (by rw [← hc.resp]; rfl)
      (rq := ⟨[a1, b1], [a2, b2], some w1, some w2, res⟩) hgen hocc hx hsh hP hR
    refine ⟨csd, (p, st'), onRest_run ?_, h⟩
    unfold SimCATS.measure
    rw [show (c.genericSim env lab d).lim = c.limits from rfl, hc.lim, show (c.genericSim env lab d).gen = some (idealGen c.ideal lab) from rfl]
    simp only [Option.isSome_some]
    rw [hcheck]
    exact e
  | scan d =>
    obtain ⟨mu, x, o, h1, h2, h3⟩ := hscan d
    obtain ⟨csd, st', e, h⟩ := beside_run (sim := c.scanSim env lab d) (occ := (sampleOccDistortions 1).map env.occDist)
      (pot := (samplePotDistortions 1).map env.potDist) (resp := (sampleRespDistortions 1).map env.respDist)
      ⟨by rw [← hc.occ]; rfl, by rw [← hc.pot]; rfl, by rw [← hc.resp]; rfl, (hc.scan d hs).1⟩
      (rq := ⟨[a1, b1], [a2, b2], some w1, some w2, res⟩) rfl rfl (p := p) hgen hocc h1 h2 h3 hP hR
    refine ⟨csd, st', ?_, h⟩
    change SimCATS.measure (c.scanSim env lab d).csd _ _ = _
    unfold SimCATS.measure
    rw [show (c.scanSim env lab d).csd.lim = c.limits from rfl, hc.lim, show (c.scanSim env lab d).csd.gen = some (idealGen c.ideal lab) from rfl]
    simp only [Option.isSome_some]
    rw [hcheck, genBeside_ideal]
    exact e

/-- Errors of the checks. -/
theorem sampled_check_error {c : SampledConfig} (hc : SampledParts c) (env : SampledEnv τ) (lab : Labelling) {rq : Request} {e : PyErr}
    (hcheck : measureCheck ⟨some (-0.2, -0.06), some (-0.2, -0.06), some (-1, 0), some (-1, 0)⟩ true rq = .error e)
    (st : Option ScanState × NoiseState τ) : c.measure env lab rq st = (.error e, st) := by
  unfold SampledConfig.measure
  cases hs : c.sensor with
  | generic d =>
    refine onRest_run ?_
    unfold SimCATS.measure
    rw [show (c.genericSim env lab d).lim = c.limits from rfl, hc.lim, show (c.genericSim env lab d).gen = some (idealGen c.ideal lab) from rfl]
    simp only [Option.isSome_some]
    rw [hcheck]
    rfl
  | scan d =>
    change SimCATS.measure (c.scanSim env lab d).csd _ _ = _
    unfold SimCATS.measure
    rw [show (c.scanSim env lab d).csd.lim = c.limits from rfl, hc.lim, show (c.scanSim env lab d).csd.gen = some (idealGen c.ideal lab) from rfl]
    simp only [Option.isSome_some]
    rw [hcheck]
    rfl

/-- Errors of the occupation distortions. -/
theorem sampled_occ_error {c : SampledConfig} (hc : SampledParts c) {env : SampledEnv τ} {lab : Labelling} {a1 b1 a2 b2 : ℝ} {w1 w2 : ℝ}
    {res : Resolution}
    (hcheck : measureCheck ⟨some (-0.2, -0.06), some (-0.2, -0.06), some (-1, 0), some (-1, 0)⟩ true ⟨[a1, b1], [a2, b2], some w1, some w2, res⟩ =
      .ok ((a1, b1), (a2, b2))) {p : Option ScanState} {st s1 : NoiseState τ} {data : CsdData} {e : PyErr}
    (hgen : idealGen c.ideal lab (a1, b1) (a2, b2) res st = (.ok data, s1))
    (hocc : (applyOcc (a1, b1) (a2, b2) ((sampleOccDistortions 1).map env.occDist) (idealGen c.ideal lab) data s1).1 = .error e) :
    (c.measure env lab ⟨[a1, b1], [a2, b2], some w1, some w2, res⟩ (p, st)).1 = .error e := by
  unfold SampledConfig.measure
  cases hs : c.sensor with
  | generic d =>
    have h : (SimCATS.measure (c.genericSim env lab d) ⟨[a1, b1], [a2, b2], some w1, some w2, res⟩ st).1 = .error e := by
      unfold SimCATS.measure
      rw [show (c.genericSim env lab d).lim = c.limits from rfl, hc.lim, show (c.genericSim env lab d).gen = some (idealGen c.ideal lab) from rfl]
      simp only [Option.isSome_some]
      rw [hcheck]
      simp only
      unfold measureRun
      rw [M.bind_eq hgen, show (c.genericSim env lab d).occD.getD [] = c.occ.map env.occDist from rfl, hc.occ]
      exact M.bind_error hocc
    exact h
  | scan d =>
    change (SimCATS.measure (c.scanSim env lab d).csd _ _).1 = _
    unfold SimCATS.measure
    rw [show (c.scanSim env lab d).csd.lim = c.limits from rfl, hc.lim, show (c.scanSim env lab d).csd.gen = some (idealGen c.ideal lab) from rfl]
    simp only [Option.isSome_some]
    rw [hcheck, genBeside_ideal]
    simp only
    unfold measureRun
    rw [M.bind_eq (show genBeside (idealGen c.ideal lab) (a1, b1) (a2, b2) res (p, st) = _ from onRest_eq hgen p),
      show (c.scanSim env lab d).csd.occD.getD [] = (c.occ.map env.occDist).map OccDist.beside from rfl, hc.occ]
    exact M.bind_error (applyOcc_beside_error hocc p)

/-- Errors of the CSD. -/
theorem sampled_csd_error {c : SampledConfig} (hc : SampledParts c) {env : SampledEnv τ} {lab : Labelling} {a1 b1 a2 b2 : ℝ} {w1 w2 : ℝ}
    {res : Resolution}
    (hcheck : measureCheck ⟨some (-0.2, -0.06), some (-0.2, -0.06), some (-1, 0), some (-1, 0)⟩ true ⟨[a1, b1], [a2, b2], some w1, some w2, res⟩ =
      .ok ((a1, b1), (a2, b2))) {e : PyErr} (hcsd : idealCsd c.ideal lab [a1, b1] [a2, b2] res = .error e) (st : Option ScanState × NoiseState τ) :
    c.measure env lab ⟨[a1, b1], [a2, b2], some w1, some w2, res⟩ st = (.error e, st) := by
  have hgen : ∀ {σ : Type} (s : σ), idealGen c.ideal lab (a1, b1) (a2, b2) res s = (.error e, s) := by
    intro σ s
    unfold idealGen
    rw [hcsd]
    rfl
  unfold SampledConfig.measure
  cases hs : c.sensor with
  | generic d =>
    refine onRest_run ?_
    unfold SimCATS.measure
    rw [show (c.genericSim env lab d).lim = c.limits from rfl, hc.lim, show (c.genericSim env lab d).gen = some (idealGen c.ideal lab) from rfl]
    simp only [Option.isSome_some]
    rw [hcheck]
    simp only
    unfold measureRun
    rw [M.bind_run, hgen]
  | scan d =>
    change SimCATS.measure (c.scanSim env lab d).csd _ _ = _
    unfold SimCATS.measure
    rw [show (c.scanSim env lab d).csd.lim = c.limits from rfl, hc.lim, show (c.scanSim env lab d).csd.gen = some (idealGen c.ideal lab) from rfl]
    simp only [Option.isSome_some]
    rw [hcheck]
    simp only
    unfold measureRun
    rw [M.bind_run, hgen]

/-! ### Sensor scans -/

/-- The sensor of a configuration with `sensor_type="SensorScanSensorGeneric"`. -/
theorem sampled_kind {rng : CfgRng τ} (hv : rng.Valid) (hz : rng.NormalNonzero) {lab : Labelling} {ty : String} {q : ℝ} {comp steepest : Bool}
    {s s' : τ} {c : SampledConfig} (h : sampleConfig rng lab ty q comp steepest s (.ok c, s')) :
    (ty = "SensorGeneric" ∧ ∃ d, c.sensor = .generic d) ∨ (ty = "SensorScanSensorGeneric" ∧ ∃ d, c.sensor = .scan d) := by
  have hq : 0 < q ∧ q ≤ 1 := by
    by_contra hn
    exact nomatch (C66_quality rng lab ty q comp steepest hn s _).1 h
  have hty : ty = "SensorGeneric" ∨ ty = "SensorScanSensorGeneric" := by
    by_contra hn
    rw [not_or] at hn
    exact nomatch C66_type rng hv lab ty q comp steepest hn.1 hn.2 s _ h
  obtain ⟨c', s'', e, -, -, -, -, -, -, hs⟩ := C66_valid rng hv hz lab ty q hq.1 hq.2 comp steepest hty s _ h
  cases e
  cases hc : c.sensor with
  | generic d =>
    rw [hc] at hs
    exact .inl ⟨hs.1, d, rfl⟩
  | scan d =>
    rw [hc] at hs
    exact .inr ⟨hs.1, d, rfl⟩

theorem sampled_scan_sensor {rng : CfgRng τ} (hv : rng.Valid) (hz : rng.NormalNonzero) {lab : Labelling} {q : ℝ} {comp steepest : Bool}
    {s s' : τ} {c : SampledConfig} (h : sampleConfig rng lab "SensorScanSensorGeneric" q comp steepest s (.ok c, s')) : ∃ d, c.sensor = .scan d := by
  rcases sampled_kind hv hz h with ⟨e, -⟩ | ⟨-, hd⟩
  · exact absurd e (by decide)
  · exact hd

theorem sampled_ideal {rng : CfgRng τ} (hv : rng.Valid) (hz : rng.NormalNonzero) {lab : Labelling} {ty : String} {q : ℝ} {comp steepest : Bool}
    {s s' : τ} {c : SampledConfig} (h : sampleConfig rng lab ty q comp steepest s (.ok c, s')) : ∃ s1, sampleIdealCSD rng lab s (.ok c.ideal, s1) := by
  have hq : 0 < q ∧ q ≤ 1 := by
    by_contra hn
    exact nomatch (C66_quality rng lab ty q comp steepest hn s _).1 h
  have hty : ty = "SensorGeneric" ∨ ty = "SensorScanSensorGeneric" := (sampled_kind hv hz h).imp And.left And.left
  obtain ⟨c', s'', e, -, -, -, -, -, hi, -⟩ := C66_valid rng hv hz lab ty q hq.1 hq.2 comp steepest hty s _ h
  cases e
  exact hi

theorem Spec.SampledFixed.flat {g1 g2 : VoltArg} (h : SampledFixed g1 g2) : g1.noneOrFloat = true ∧ g2.noneOrFloat = true ∧ g1.isArr = false ∧
    g2.isArr = false ∧ g1.isNone = g2.isNone := by
  rcases h with ⟨rfl, rfl⟩ | ⟨v1, v2, rfl, rfl, -⟩ <;> exact ⟨rfl, rfl, rfl, rfl, rfl⟩

theorem sampled_occ2d {c : SampledConfig} (hc : SampledParts c) (lab : Labelling) {g1 g2 : VoltArg} (h : SampledFixed g1 g2) (s1 s2 : List ℝ)
    (r k : ℕ) (p : σ) : ∃ o, scanOcc (some (idealGen c.ideal lab)) ⟨s1, s2, g1, g2, .arr [k, r]⟩ p = (.ok (.d2 r k fun _ _ => o), p) := by
  rcases h with ⟨rfl, rfl⟩ | ⟨v1, v2, rfl, rfl, h1, h2⟩
  · refine ⟨(0, 0), ?_⟩
    change ofPy (fillOcc (0, 0) (.arr [k, r])) p = _
    rw [ofPy_run]
    unfold fillOcc
    dsimp only
    rw [if_neg (by omega)]
    rfl
  · obtain ⟨o, l, e⟩ := hc.point lab h1.2 h2.2 p
    refine ⟨o 0, ?_⟩
    exact (C27_image ⟨s1, s2, .num true v1, .num true v2, .arr [(k : ℤ), (r : ℤ)]⟩ r k rfl p).1 _ true v1 true v2 0 o _ p (o 0) rfl rfl e rfl

theorem sampled_occ1d {c : SampledConfig} (hc : SampledParts c) (lab : Labelling) {g1 g2 : VoltArg} (h : SampledFixed g1 g2) (s1 s2 : List ℝ)
    (n : ℕ) (p : σ) : ∃ o, scanOcc (some (idealGen c.ideal lab)) ⟨s1, s2, g1, g2, if g1.isNone then .int n else .arr [(n : ℤ)]⟩ p =
      (.ok (.d1 n fun _ => o), p) := by
  rcases h with ⟨rfl, rfl⟩ | ⟨v1, v2, rfl, rfl, h1, h2⟩
  · refine ⟨(0, 0), ?_⟩
    change ofPy (fillOcc (0, 0) (.int n)) p = _
    rw [ofPy_run]
    unfold fillOcc
    dsimp only
    rw [if_neg (by omega)]
    rfl
  · obtain ⟨o, l, e⟩ := hc.point lab h1.2 h2.2 p
    exact ⟨o 0, (C27_partial ⟨s1, s2, .num true v1, .num true v2, .arr [(n : ℤ)]⟩ n p).1 _ true v1 true v2 0 o _ p (o 0) rfl rfl rfl e rfl⟩

theorem sampled_scanCheck {c : SampledConfig} (hc : SampledParts c) {d : ScanSensor} (hs : c.sensor = .scan d) (env : SampledEnv τ)
    (lab : Labelling) {g1 g2 : VoltArg} (h : SampledFixed g1 g2) {a1 b1 a2 b2 : ℝ} (w1 : Within (-1) 0 a1 b1)
    (w2 : Within (-1) 0 a2 b2) {res : Resolution} (hf : ¬ fixedIn2d (a1, b1) (a2, b2) res) (hr : scanResCheck res = .ok ())
    (p : Option ScanState × NoiseState τ) :
    c.measureScan env lab ⟨[a1, b1], [a2, b2], g1, g2, res⟩ p = scanRun (c.scanSim env lab d) ⟨[a1, b1], [a2, b2], g1, g2, res⟩ (a1, b1) (a2, b2) p := by
  have hout : fixedOutside (some (-0.2, -0.06)) g1 = false ∧ fixedOutside (some (-0.2, -0.06)) g2 = false := by
    rcases h with ⟨rfl, rfl⟩ | ⟨v1, v2, rfl, rfl, h1, h2⟩
    · exact ⟨rfl, rfl⟩
    · unfold fixedOutside
      simp only [decide_eq_false_iff_not, not_or, not_lt, gt_iff_lt]
      exact ⟨h1, h2⟩
  unfold SampledConfig.measureScan
  rw [hs]
  change measureSensorScan (c.scanSim env lab d) _ _ = _
  unfold measureSensorScan
  rw [show (c.scanSim env lab d).lim = c.limits from rfl, hc.lim]
  rw [show scanCheck ⟨some (-0.2, -0.06), some (-0.2, -0.06), some (-1, 0), some (-1, 0)⟩ true ⟨[a1, b1], [a2, b2], g1, g2, res⟩ =
    .ok ((a1, b1), (a2, b2)) from ?_]
  unfold scanCheck
  simp only [Bool.true_eq_false, if_false]
  rw [w1.not_outside, w2.not_outside, hout.1, hout.2, h.flat.2.2.2.2]
  simp only [Bool.false_eq_true, or_self, if_false, hf, ne_eq, not_true_eq_false, hr]

theorem sampled_sim {c : SampledConfig} (hc : SampledParts c) {d : ScanSensor} (hs : c.sensor = .scan d) (env : SampledEnv τ) (lab : Labelling) :
    BesideSim (c.scanSim env lab d) ((sampleOccDistortions 1).map env.occDist) ((samplePotDistortions 1).map env.potDist)
      ((sampleRespDistortions 1).map env.respDist) :=
  ⟨by rw [← hc.occ]; rfl, by rw [← hc.pot]; rfl, by rw [← hc.resp]; rfl, (hc.scan d hs).1⟩

/-- Errors of the response distortions in a sensor scan. -/
theorem beside_scan_error {sim : ScanSim σ} {occD : List (OccDist σ)} {pot resp : List (SigDist σ)} (hsim : BesideSim sim occD pot resp)
    {ps : List Peak} (hps : sim.sensor.peaks = some ps) {rq : ScanRequest} (h1 : rq.g1.noneOrFloat = true) (h2 : rq.g2.noneOrFloat = true)
    {s1 s2 : ℝ × ℝ} {p : Option ScanState} {st : σ} {occ : Scan (ℝ × ℝ)} (hocc : scanOcc sim.gen rq (p, st) = (.ok occ, (p, st)))
    {mu : Scan (Fin 3 → ℝ)} {x : ScanState} {o : ℝ × ℝ}
    (hpot : ∀ q, sim.sensor.potential occ rq.g1 rq.g2 (.arr s1) (.arr s2) q = (.ok mu, some x)) (ho : firstOcc x.occ = .ok o)
    (hmu : SameShape mu mu) (hP : ∀ d ∈ pot, ∀ y s, SameShape mu y → ∃ z s', d y s1 s2 s = (.ok z, s') ∧ SameShape mu z) {e : PyErr}
    (hR : ∀ y s, SameShape mu y → ∀ q : Option ScanState, (distortResponse s1 s1 (some (resp.map SigDist.beside)) y (q, s)).1 = .error e) :
    (scanRun sim rq s1 s2 (p, st)).1 = .error e := by
  obtain ⟨cond, peaks, y, e1, hy, hc, hp⟩ := labels_total sim.sensor hsim.defs hps h1 h2 s1 s2 hmu ho
  obtain ⟨qs, st1, e3, hl, hq⟩ := applyRows_beside pot hP (potRows mu) (potRows_same hmu) (some y) st
  obtain ⟨mu', e4, hmu'⟩ := fromRows_same hl hq
  have e2 : distortScanPot s1 s2 sim.potD mu (some y, st) = (.ok mu', (some y, st1)) := by
    rw [hsim.potD]
    unfold distortScanPot
    simp only
    rw [M.bind_eq e3, ofPy_run, e4]
  obtain ⟨t, e5⟩ := response_run sim.sensor mu' y o hy (Or.inl hsim.defs)
  unfold scanRun
  rw [M.bind_eq hocc, M.bind_eq (onSensor_ok (hpot p)), M.bind_eq (onSensor_ok (hpot _)), M.bind_eq (onSensor_ok e1), M.bind_eq e2,
    M.bind_eq (onSensor_ok e5), hsim.respD]
  exact M.bind_error (hR _ _ (hmu'.map _) _)

/-- The response telegraph noise fails if the voltage range has length 0. -/
theorem rtn_zero {rng : Rng τ} {sc sd he ratio : ℝ} (hb : ∀ s, ∃ s', rng.binomial ratio s = (.ok true, s')) {n : ℕ} (f : Fin n → ℝ) (v : ℝ)
    (s : NoiseState τ) :
    (SigDist.on (respRtnSlot τ) (sampledRtn rng sc sd he ratio).noiseFunction (.d1 n f) (v, v) (v, v) s).1 = .error .valueError := by
  obtain ⟨t, ht⟩ := hb s.gens
  have e := onGens_eq (x := rng.binomial ratio) (s := s) ht
  have hc := C36_rtn_call (sampledRtn rng sc sd he ratio) (.d1 n f) (v, v) (v, v) ((respRtnSlot τ).get s) s { s with gens := t } { s with gens := t }
    { s with gens := t } { s with gens := t } sc sd he e rfl rfl rfl
  refine run_fst (respRtnSlot τ) ?_
  rw [hc, show rtnFactor (v, v) (v, v) (.d1 n f) = none by simp [rtnFactor]]
  rfl

/-- Random numbers without noise in which the activations are given. -/
noncomputable def plainSampledEnv (b : ℝ → Bool) (np2 : Bool) : SampledEnv Unit where
  jumps0 := { plainRng with binomial := fun p => pure (b p) }
  jumps1 := { plainRng with binomial := fun p => pure (b p) }
  pot := { plainRng with binomial := fun p => pure (b p) }
  resp := { plainRng with binomial := fun p => pure (b p) }
  draw := fun d => match d with
    | .normal total _ => pure total.1
    | .exponential total _ => pure total.1
  pinkNoise := fun _ n => pure (List.replicate n 0)
  whiteNoise := fun _ n => pure (List.replicate n 0)
  np2 := np2
  nan := 0

theorem plainSampledEnv_total (b : ℝ → Bool) (np2 : Bool) : SampledTotal (plainSampledEnv b np2) where
  jumps0 := plainRng_total b
  jumps1 := plainRng_total b
  pot := plainRng_total b
  resp := plainRng_total b
  draw := by
    intro d s _
    cases d <;> exact ⟨_, _, rfl⟩
  pinkNoise := fun _ n s => ⟨_, s, rfl, List.length_replicate⟩
  whiteNoise := fun _ n s => ⟨_, s, rfl, List.length_replicate⟩

end SimCATS
