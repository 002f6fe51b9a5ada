import Verif.Lemmas.SampledSim
import Verif.Props.SampledSim
import Verif.Lemmas.ExtendedRegions
import Verif.Props.SensorPlacement
import Mathlib.Analysis.SpecialFunctions.Log.Deriv

/-! Lemmas for the regions of sampled sensor scan sensors. -/

namespace SimCATS

open Spec

variable {ρ τ : Type}

/-! ### The barriers of sampled sensors -/

theorem log_two_bounds : 0.6931471803 < Real.log 2 ∧ Real.log 2 < 0.6931471808 := ⟨Real.log_two_gt_d9, Real.log_two_lt_d9⟩

theorem log_thousand : 6.907 ≤ Real.log 1000 ∧ Real.log 1000 ≤ 6.9315 := by
  obtain ⟨l1, l2⟩ := log_two_bounds
  have e : Real.log 1024 = 10 * Real.log 2 := by
    rw [show (1024 : ℝ) = 2 ^ 10 by norm_num, Real.log_pow]
    norm_num
  constructor
  · have h : Real.log 1024 = Real.log 1000 + Real.log 1.024 := by
      rw [← Real.log_mul (by norm_num) (by norm_num)]
      norm_num
    have := Real.log_le_sub_one_of_pos (x := 1.024) (by norm_num)
    norm_num at *
    linarith
  · have := Real.log_le_log (x := 1000) (y := 1024) (by norm_num) (by norm_num)
    norm_num at *
    linarith

/-- Bounds of `b ^ nu - 1` for small exponents. -/
theorem rpow_sub_one {b nu : ℝ} (hb : 1 < b) (hnu : 0 < nu) (hl : nu * Real.log b ≤ 1) :
    nu * Real.log b ≤ b ^ nu - 1 ∧ b ^ nu - 1 ≤ nu * Real.log b * (1 + nu * Real.log b) := by
  have hl0 : 0 < Real.log b := Real.log_pos hb
  rw [Real.rpow_def_of_pos (by linarith), mul_comm (Real.log b)]
  have hx : 0 < nu * Real.log b := mul_pos hnu hl0
  constructor
  · linarith [Real.add_one_le_exp (nu * Real.log b)]
  · have := Real.abs_exp_sub_one_sub_id_le (x := nu * Real.log b) (by rw [abs_of_pos hx]; exact hl)
    have := (abs_le.1 this).2
    nlinarith

/-- The logarithm of the quotient that determines the distance of the two points of a barrier. -/
theorem barrier_quotient {nu : ℝ} (h1 : 0 < nu) (h2 : nu ≤ 0.0001) :
    8.82 ≤ Real.log (((1000 : ℝ) ^ nu - 1) / ((1 / 0.999 : ℝ) ^ nu - 1)) ∧
      Real.log (((1000 : ℝ) ^ nu - 1) / ((1 / 0.999 : ℝ) ^ nu - 1)) ≤ 8.858 := by
  obtain ⟨t1, t2⟩ := log_thousand
  have s1 : (0.001 : ℝ) ≤ Real.log (1 / 0.999) := by
    rw [one_div, Real.log_inv]
    have := Real.log_le_sub_one_of_pos (x := 0.999) (by norm_num)
    norm_num at this ⊢
    linarith
  have s2 : Real.log (1 / 0.999) ≤ 0.001002 := by
    have := Real.log_le_sub_one_of_pos (x := 1 / 0.999) (by norm_num)
    norm_num at this ⊢
    linarith
  obtain ⟨a1, a2⟩ := rpow_sub_one (b := 1000) (by norm_num) h1 (by norm_num at *; nlinarith)
  obtain ⟨b1, b2⟩ := rpow_sub_one (b := 1 / 0.999) (by norm_num) h1 (by norm_num at *; nlinarith)
  generalize Real.log 1000 = L at *
  generalize Real.log (1 / 0.999) = l at *
  generalize (1000 : ℝ) ^ nu - 1 = X at *
  generalize (1 / 0.999 : ℝ) ^ nu - 1 = Y at *
  have hY : 0 < Y := lt_of_lt_of_le (mul_pos h1 (by norm_num at *; linarith)) b1
  have hX : 0 < X := lt_of_lt_of_le (mul_pos h1 (by norm_num at *; linarith)) a1
  have u : X / Y ≤ 6938 := by
    rw [div_le_iff₀ hY]
    have e1 : X ≤ nu * 6.937 := by
      refine a2.trans ?_
      have : nu * L ≤ 0.00069315 := by norm_num at *; nlinarith
      have : L * (1 + nu * L) ≤ 6.937 := by norm_num at *; nlinarith
      nlinarith
    have e2 : nu * 0.001 ≤ Y := le_trans (by nlinarith) b1
    norm_num at *
    nlinarith
  have lo : 6890 ≤ X / Y := by
    rw [le_div_iff₀ hY]
    have e1 : nu * 6.907 ≤ X := le_trans (by nlinarith) a1
    have e2 : Y ≤ nu * 0.0010021 := by
      refine b2.trans ?_
      have : nu * l ≤ 0.0000002 := by norm_num at *; nlinarith
      have : l * (1 + nu * l) ≤ 0.0010021 := by norm_num at *; nlinarith
      nlinarith
    norm_num at *
    nlinarith
  have hq : 0 < X / Y := div_pos hX hY
  obtain ⟨l1, l2⟩ := log_two_bounds
  have e : Real.log 8192 = 13 * Real.log 2 := by
    rw [show (8192 : ℝ) = 2 ^ 13 by norm_num, Real.log_pow]
    norm_num
  constructor
  · have h := Real.log_le_sub_one_of_pos (x := 8192 / (X / Y)) (by positivity)
    rw [Real.log_div (by norm_num) hq.ne', e] at h
    have : 8192 / (X / Y) ≤ 8192 / 6890 := by gcongr
    norm_num at *
    linarith
  · have h := Real.log_le_sub_one_of_pos (x := X / Y / 8192) (by positivity)
    rw [Real.log_div hq.ne' (by norm_num), e] at h
    have : X / Y / 8192 ≤ 6938 / 8192 := by gcongr
    norm_num at *
    linarith

/-- The distance of the two points of a sampled barrier. -/
theorem barrier_distance {b : BarrierGlf} {K : ℝ} (hA : b.g.A = 0) (hK : b.g.K = K) (hpos : 0 < K) (hC : b.g.C = 1) (hB : 0 < b.g.B)
    (h1 : 0 < b.g.nu) (h2 : b.g.nu ≤ 0.0001) (hQ : 0 < b.g.Q) (hp : b.pinchOffPct = 0.001) (hf : b.fullyCondPct = 0.999) :
    8.82 ≤ b.g.B * (b.fullyConductive - b.pinchOff) ∧ b.g.B * (b.fullyConductive - b.pinchOff) ≤ 8.858 := by
  have e : b.g.B * (b.fullyConductive - b.pinchOff) = Real.log (((1000 : ℝ) ^ b.g.nu - 1) / ((1 / 0.999 : ℝ) ^ b.g.nu - 1)) := by
    unfold BarrierGlf.fullyConductive BarrierGlf.pinchOff inverseGlf
    rw [hA, hK, hC, hp, hf, sub_zero, abs_of_pos hpos, min_eq_left hpos.le]
    have e1 : (0 - K) / (0 - (K * 0.999 + 0)) = 1 / 0.999 := by field_simp; norm_num
    have e2 : (0 - K) / (0 - (K * 0.001 + 0)) = 1000 := by field_simp; ring
    rw [e1, e2]
    have x : 0 < (1000 : ℝ) ^ b.g.nu - 1 := sub_pos.2 (Real.one_lt_rpow (by norm_num) h1)
    have y : 0 < (1 / 0.999 : ℝ) ^ b.g.nu - 1 := sub_pos.2 (Real.one_lt_rpow (by norm_num) h1)
    rw [Real.log_div x.ne' hQ.ne', Real.log_div y.ne' hQ.ne', Real.log_div x.ne' y.ne']
    field_simp
    ring
  rw [e]
  exact barrier_quotient h1 h2

/-- The barriers of a sampled sensor. -/
def SampledBarrier (q : ℝ) (b : Barrier) : Prop := ∃ g : BarrierGlf, b = g.barrier ∧ g.pinchOffPct = 0.001 ∧ g.fullyCondPct = 0.999 ∧ g.g.A = 0 ∧
  g.g.K = 0.25 * q ∧ g.g.C = 1 ∧ (20 ≤ g.g.B ∧ g.g.B ≤ 40) ∧ (0.000001 ≤ g.g.nu ∧ g.g.nu ≤ 0.0001) ∧ (0.01 ≤ g.g.Q ∧ g.g.Q ≤ 100)

theorem SampledBarrier.distance {q : ℝ} {b : Barrier} (h0 : 0 < q) (h : SampledBarrier q b) :
    0.22 ≤ b.fullyConductive - b.pinchOff ∧ b.fullyConductive - b.pinchOff ≤ 0.4429 := by
  obtain ⟨g, rfl, p, f, A, K, C, ⟨B1, B2⟩, ⟨n1, n2⟩, Q1, -⟩ := h
  obtain ⟨l, u⟩ := barrier_distance A K (by positivity) C (by linarith) (lt_of_lt_of_le (by norm_num) n1) n2
    (lt_of_lt_of_le (by norm_num) Q1) p f
  change 0.22 ≤ g.fullyConductive - g.pinchOff ∧ g.fullyConductive - g.pinchOff ≤ 0.4429
  generalize g.fullyConductive - g.pinchOff = D at *
  have hD : 0 < D := by
    by_contra hn
    have : g.g.B * D ≤ 0 := mul_nonpos_of_nonneg_of_nonpos (by linarith) (not_lt.1 hn)
    norm_num at *
    linarith
  norm_num at *
  constructor <;> nlinarith

theorem sampleScanSensor_barriers {rng : CfgRng ρ} (hv : rng.Valid) (hz : rng.NormalNonzero) {q : ℝ} (h0 : 0 < q) (h1 : q ≤ 1) (comp : Bool) :
    (sampleScanSensor rng q comp).Ensures fun d => SampledBarrier q d.barrier1 ∧ SampledBarrier q d.barrier2 := by
  unfold sampleScanSensor
  refine (ensures_sampleNormal hv hz (by norm_num)).bind fun ratio hr => ?_
  refine Proc.Ensures.bind (Q := fun v => v = 1 / ratio) (ensures_ofPy (if_neg hr.2.2) rfl) ?_
  rintro _ rfl
  refine (ensures_sampleUniform hv (by norm_num)).bind fun c1 hc1 => ?_
  refine (ensures_sampleUniform hv (by norm_num)).bind fun c2 hc2 => ?_
  refine (sampleAlphas_spec hv h0 h1 comp).bind ?_
  rintro ⟨gate, dot⟩ ha
  refine (ensures_sampleUniform hv (by norm_num)).bind fun x hx => ?_
  refine (ensures_sampleUniform hv (by norm_num)).bind fun y hy => ?_
  refine (sampleSensorFunction_spec hv hz _ q).bind ?_
  rintro ⟨ps, rise⟩ -
  refine (sampleBarrier_spec hv _ _ _ _ _).bind fun b1 hb1 => ?_
  refine (sampleBarrier_spec hv _ _ _ _ _).bind fun b2 hb2 => ?_
  obtain ⟨p1, p2, p3, p4, p5, p6, p7, p8, p9⟩ := hb1
  obtain ⟨r1, r2, r3, r4, r5, r6, r7, r8, r9⟩ := hb2
  exact Proc.ensures_pure ⟨⟨b1, rfl, p1, p2, p3, p4, p5, p6, p7, p8⟩, ⟨b2, rfl, r1, r2, r3, r4, r5, r6, r7, r8⟩⟩

/-! ### What the regions need from a sensor -/

/-- The properties of sampled sensors. -/
structure ScanRegions (q : ℝ) (comp : Bool) (d : ScanSensor) (base : ℝ × ℝ) : Prop where
  scan : SampledScan q comp d base
  pinch1 : PinchesAt (0.25 * q) (d.mu 1 (0, 0) (0, 0) base) d.barrier1
  pinch2 : PinchesAt (0.25 * q) (d.mu 2 (0, 0) (0, 0) base) d.barrier2
  full1 : 0.22 ≤ d.barrier1.fullyConductive - d.barrier1.pinchOff ∧ d.barrier1.fullyConductive - d.barrier1.pinchOff ≤ 0.4429
  full2 : 0.22 ≤ d.barrier2.fullyConductive - d.barrier2.pinchOff ∧ d.barrier2.fullyConductive - d.barrier2.pinchOff ≤ 0.4429

theorem sampled_regions {rng : CfgRng ρ} (hv : rng.Valid) (hz : rng.NormalNonzero) {q : ℝ} (h0 : 0 < q) (h1 : q ≤ 1) {comp : Bool} {s s' : ρ}
    {d : ScanSensor} (h : sampleScanSensor rng q comp s (.ok d, s')) : ∃ base, ScanRegions q comp d base := by
  obtain ⟨base, h2, h3, h4⟩ := C48_scan rng hv hz q h0 h1 comp s s' d h
  obtain ⟨d', s'', e, b1, b2⟩ := sampleScanSensor_barriers hv hz h0 h1 comp s _ h
  cases e
  exact ⟨base, h2, h3, h4, b1.distance h0, b2.distance h0⟩

/-- A configuration with a sensor scan sensor contains a sampled one. -/
theorem sampled_scan {rng : CfgRng ρ} {lab : Labelling} {ty : String} {q : ℝ} {comp steepest : Bool}
    {s s' : ρ} {c : SampledConfig} (h : sampleConfig rng lab ty q comp steepest s (.ok c, s')) {d : ScanSensor} (hd : c.sensor = .scan d) :
    0 < q ∧ q ≤ 1 ∧ ∃ s1 s2, sampleScanSensor rng q comp s1 (.ok d, s2) := by
  have hq : 0 < q ∧ q ≤ 1 := by
    by_contra hn
    exact nomatch (C66_quality rng lab ty q comp steepest hn s _).1 h
  refine ⟨hq.1, hq.2, ?_⟩
  unfold sampleConfig at h
  rw [if_neg (not_not.2 hq)] at h
  rcases h with ⟨i, s1, hi, h⟩ | ⟨e, s1, h, h'⟩
  · rcases h with ⟨x, s2, hx, h⟩ | ⟨e, s2, hx, h⟩
    · cases h
      simp only at hd
      subst hd
      unfold sampleSensorOfType at hx
      by_cases ht : ty = "SensorGeneric"
      · rw [if_pos ht] at hx
        rcases hx with ⟨d', s3, hd', hx⟩ | ⟨e, s3, hx, hx'⟩
        · cases hx
        · exact nomatch hx'
      · rw [if_neg ht] at hx
        by_cases ht' : ty = "SensorScanSensorGeneric"
        · rw [if_pos ht'] at hx
          rcases hx with ⟨d', s3, hd', hx⟩ | ⟨e, s3, hx, hx'⟩
          · cases hx
            exact ⟨s1, _, hd'⟩
          · exact nomatch hx'
        · rw [if_neg ht'] at hx
          exact nomatch hx
    · exact nomatch h
  · exact nomatch h'

/-! ### What a successful sensor scan has -/

theorem ideal_distributes_of {σ : Type} {cfg : IdealCfg} (ok : CfgOk cfg) {lab : Labelling} {g1 g2 : ℝ × ℝ} {res : Resolution} {s s' : σ} {data : CsdData}
    (h : idealGen cfg lab g1 g2 res s = (.ok data, s')) :
    (∀ n f, data.1 = .d1 n f → ∀ i, ∃ k, k ≤ cfg.params.length - 1 ∧ Distributes k (f i)) ∧
      ∀ r c f, data.1 = .d2 r c f → ∀ i j, ∃ k, k ≤ cfg.params.length - 1 ∧ Distributes k (f i j) := by
  unfold idealGen at h
  cases hi : idealCsd cfg lab [g1.1, g1.2] [g2.1, g2.2] res with
  | error e => rw [hi] at h; simp at h
  | ok out =>
    rw [hi] at h
    have hd := C04_ideal cfg ok lab _ _ _ _ hi
    simp only [M.pure_run, Prod.mk.injEq, Except.ok.injEq] at h
    obtain ⟨rfl, -⟩ := h
    cases out with
    | d1 n occ lead =>
      refine ⟨fun n' f hf => ?_, fun r c f hf => nomatch hf⟩
      cases hf
      exact hd
    | d2 r c occ lead =>
      refine ⟨fun n' f hf => (nomatch hf), fun r' c' f hf => ?_⟩
      cases hf
      exact hd

/-- The occupation of a sensor scan is not negative, and 0 without plunger voltages. -/
theorem scan_occupation {σ : Type} {cfg : IdealCfg} (ok : CfgOk cfg) {lab : Labelling} {g1 g2 : VoltArg} {s : σ} {o : ℝ × ℝ} {N : ℕ}
    (hN : cfg.params.length ≤ N + 1) (h : ScanOccupation (some (idealGen cfg lab)) g1 g2 s o) :
    0 ≤ o.1 ∧ 0 ≤ o.2 ∧ o.1 + o.2 ≤ N := by
  unfold ScanOccupation at h
  split at h
  · rename_i gen _ v1 _ v2 hgen
    cases hgen
    obtain ⟨data, s', hd, h⟩ := h
    have := ideal_distributes_of ok hd
    have key : ∀ k, k ≤ cfg.params.length - 1 → Distributes k o → 0 ≤ o.1 ∧ 0 ≤ o.2 ∧ o.1 + o.2 ≤ N := by
      intro k hk hd
      refine ⟨hd.1, hd.2.1, ?_⟩
      rw [hd.2.2]
      exact_mod_cast (by omega : k ≤ N)
    rcases h with ⟨n, f, hf, rfl⟩ | ⟨r, c, f, hf, rfl⟩
    · obtain ⟨k, hk, hk'⟩ := this.1 _ _ hf 0
      exact key k hk hk'
    · obtain ⟨k, hk, hk'⟩ := this.2 _ _ _ hf 0 0
      exact key k hk hk'
  · rw [h]
    simp

/-- The voltages that a sensor scan of a sampled configuration can have. -/
theorem sampled_voltages {rq : ScanRequest} {w1 w2 : ℝ × ℝ}
    (h : scanCheck ⟨some (-0.2, -0.06), some (-0.2, -0.06), some (-1, 0), some (-1, 0)⟩ true rq = .ok (w1, w2)) (h1 : rq.g1.isArr = false)
    (h2 : rq.g2.isArr = false) :
    ((-0.2 ≤ argVoltage rq.g1 1 0 ∧ argVoltage rq.g1 1 0 ≤ 0) ∧ (-0.2 ≤ argVoltage rq.g2 1 0 ∧ argVoltage rq.g2 1 0 ≤ 0)) ∧
      Within (-1) 0 w1.1 w1.2 ∧ Within (-1) 0 w2.1 w2.2 := by
  unfold scanCheck at h
  rw [if_neg (by simp)] at h
  split at h
  · rename_i a1 b1 a2 b2 e1 e2
    split_ifs at h with k1 k2 k3 k4
    have hw : (w1, w2) = ((a1, b1), (a2, b2)) := by
      cases hr : scanResCheck rq.res with
      | error e => rw [hr] at h; cases h
      | ok u => rw [hr] at h; cases h; rfl
    cases hw
    refine ⟨?_, ?_⟩
    · clear h k1 k2 e1 e2
      push Not at k3 k4
      obtain ⟨_, _, g1, g2, _⟩ := rq
      dsimp only at k3 k4 h1 h2 ⊢
      cases g1 with
      | arr _ => cases h1
      | none =>
        cases g2 with
        | arr _ => cases h2
        | none => norm_num [argVoltage]
        | num b v => simp [VoltArg.isNone] at k4
      | num b v =>
        cases g2 with
        | arr _ => cases h2
        | none => simp [VoltArg.isNone] at k4
        | num b' v' =>
          simp only [fixedOutside, ne_eq, decide_eq_true_eq, not_or, not_lt, gt_iff_lt] at k3
          simp only [argVoltage]
          refine ⟨⟨k3.1.1, ?_⟩, ⟨k3.2.1, ?_⟩⟩ <;> linarith [k3.1.1, k3.1.2, k3.2.1, k3.2.2]
    · have hin : ∀ {lo hi a b : ℝ}, ¬ rangeOutside (some (lo, hi)) (a, b) = true → Within lo hi a b := by
        intro lo hi a b h
        unfold rangeOutside at h
        simp only [decide_eq_true_eq, not_or, not_lt, gt_iff_lt, le_min_iff, max_le_iff] at h
        exact ⟨⟨h.1.1, h.2.2.2.1⟩, h.1.2, h.2.2.2.2⟩
      exact ⟨hin fun h => k1 (Or.inl h), hin fun h => k1 (Or.inr h)⟩
  · cases h

/-- The labels of a sensor scan. -/
theorem scan_labels {sim : ScanSim τ} {w1 w2 : ℝ × ℝ} {g1 g2 : VoltArg} {res : Resolution} {s s' : Option ScanState × τ} {scan : Scan ℝ} {m1 m2 : Scan ℕ}
    (h : measureSensorScan sim ⟨[w1.1, w1.2], [w2.1, w2.2], g1, g2, res⟩ s = (.ok (scan, m1, m2), s')) :
    ∃ (o p : ℝ × ℝ) (x : ScanState), ScanOccupation sim.gen g1 g2 s o ∧ g1.isArr = false ∧ g2.isArr = false ∧
      scanCheck sim.lim true ⟨[w1.1, w1.2], [w2.1, w2.2], g1, g2, res⟩ = .ok (w1, w2) ∧
      (x.g1.1, x.g2.1) = (argVoltage g1 1 0, argVoltage g2 1 0) ∧ firstOcc x.occ = .ok o ∧
      sim.sensor.calcPoint x sim.sensor.barrier1.fullyConductive sim.sensor.barrier2.fullyConductive true = .ok p ∧
      (∀ w l, SensorPixel w1 w2 m1 w l → l = sim.sensor.conductive
        (potentialAt sim.sensor 0 o (argVoltage g1 1 0, argVoltage g1 1 0) p)
        fun k => potentialAt sim.sensor k o (argVoltage g1 1 0, argVoltage g2 1 0) w) ∧
      ((∃ n f d, m1 = .d1 n f ∧ m2 = .d1 n d ∧ ∀ i, f i ≠ 1 → d i = 0) ∨
        ∃ r c f d, m1 = .d2 r c f ∧ m2 = .d2 r c d ∧ ∀ i j, f i j ≠ 1 → d i j = 0) := by
  unfold measureSensorScan at h
  cases hc : scanCheck sim.lim true ⟨[w1.1, w1.2], [w2.1, w2.2], g1, g2, res⟩ with
  | error e => rw [hc] at h; simp at h
  | ok g =>
    obtain ⟨u1, u2⟩ := g
    obtain ⟨hr1, hr2⟩ := scanCheck_ranges _ _ _ _ _ hc
    simp only [List.cons.injEq, and_true] at hr1 hr2
    have hu1 : u1 = w1 := Prod.ext hr1.1.symm hr1.2.symm
    have hu2 : u2 = w2 := Prod.ext hr2.1.symm hr2.2.symm
    subst hu1 hu2
    rw [hc] at h
    simp only at h
    unfold scanRun at h
    simp only [M.bind_ok] at h
    obtain ⟨occ, t1, e1, mu, t2, e2, mu0, t3, e3, masks, t4, e4, mu', t5, e5, scan0, t6, e6, scan1, t7, e7, e8⟩ := h
    simp only [M.pure_run, Prod.mk.injEq, Except.ok.injEq] at e8
    obtain ⟨⟨-, rfl, rfl⟩, -⟩ := e8
    clear e5 e6 e7 e2
    rw [onSensor_iff] at e3 e4
    obtain ⟨o, ho, hocc⟩ := scanOcc_ok e1
    obtain ⟨x, o2, q, mid, ps, hx, hfo, hq, -, -, ha1, ha2, -, hout⟩ := labels_ok _ _ _ _ _ _ _ _ _ e4.1
    obtain ⟨hx2, hmu⟩ := potential_full e3.1
    rw [hx] at hx2
    cases hx2
    have ho2 : o2 = o := by
      rcases hocc with ⟨n, -, rfl⟩ | ⟨c, r, l, -, rfl⟩
      · simp only [firstOcc] at hfo
        split_ifs at hfo
        cases hfo
        rfl
      · simp only [firstOcc] at hfo
        split_ifs at hfo
        cases hfo
        rfl
    subst ho2
    refine ⟨o2, q, _, ho, ha1, ha2, rfl, by rw [lims_fixed ha1, lims_fixed ha2], hfo, hq, ?_, ?_⟩
    · intro w l hp
      rw [lims_fixed ha1, mu_at] at hout
      rcases hmu with ⟨n, f, hn, hf, rfl⟩ | ⟨r, c, f, hr, hc', hf, rfl⟩
      · have hfo : ∀ i, f i = o2 := by
          rcases hocc with ⟨n, -, rfl⟩ | ⟨c, r, l, -, rfl⟩
          · cases hf
            exact fun i => rfl
          · cases hf
        rcases hout with ⟨n', f', hm, hout⟩ | ⟨r, c, f', hm, -⟩
        · cases hm
          obtain ⟨hout, -⟩ := Prod.mk.inj hout
          rw [hout] at hp
          rcases hp with ⟨n', f', hm, i, rfl, rfl⟩ | ⟨r, c, f', hm, -⟩
          · cases hm
            simp only [hfo, voltage_fixed n i ha1, voltage_fixed n i ha2]
          · cases hm
        · cases hm
      · have hfo : ∀ i j, f i j = o2 := by
          rcases hocc with ⟨n, -, rfl⟩ | ⟨c, r, l, -, rfl⟩
          · cases hf
          · cases hf
            exact fun i j => rfl
        rcases hout with ⟨n', f', hm, -⟩ | ⟨r, c, f', hm, hout⟩
        · cases hm
        · cases hm
          obtain ⟨hout, -⟩ := Prod.mk.inj hout
          rw [hout] at hp
          rcases hp with ⟨n', f', hm, -⟩ | ⟨r', c', f', hm, i, j, rfl, rfl⟩
          · cases hm
          · cases hm
            simp only [hfo, voltage_fixed c j ha1, voltage_fixed r i ha2]
    · rcases hout with ⟨n, f, -, hout⟩ | ⟨r, c, f, -, hout⟩
      · obtain ⟨h1, h2⟩ := Prod.mk.inj hout
        rw [h1, h2]
        exact Or.inl ⟨_, _, _, rfl, rfl, fun i hi => if_pos hi⟩
      · obtain ⟨h1, h2⟩ := Prod.mk.inj hout
        rw [h1, h2]
        exact Or.inr ⟨_, _, _, _, rfl, rfl, fun i j hi => if_pos hi⟩

/-! ### The regions -/

/-- Occupations and plunger voltages of a sensor scan. -/
structure RegionPoint (o v : ℝ × ℝ) (N : ℕ) : Prop where
  o1 : 0 ≤ o.1
  o2 : 0 ≤ o.2
  sum : o.1 + o.2 ≤ N
  v1 : -0.2 ≤ v.1 ∧ v.1 ≤ 0
  v2 : -0.2 ≤ v.2 ∧ v.2 ≤ 0

/-- Bounds of the lever arms. -/
theorem arms_bounds {q : ℝ} (h1 : q ≤ 1) {comp : Bool} {gate dot : ℝ × ℝ} (h : LeverArms q comp gate dot) :
    (0 < gate.1 ∧ gate.1 ≤ 0.15093) ∧ (0 < gate.2 ∧ gate.2 ≤ 0.30186) ∧ (-0.0007994 ≤ dot.1 ∧ dot.1 ≤ 0) ∧
      (-0.0005214 ≤ dot.2 ∧ dot.2 ≤ 0) := by
  have g1 := h.gate1
  have g2 := h.gate2
  have d1 := h.dot1
  have d2 := h.dot2
  have hg : 0 < gate.1 ∧ gate.1 ≤ 0.15093 := by
    cases comp
    · simp only [Bool.false_eq_true, if_false] at g1
      norm_num at *
      constructor <;> linarith
    · simp only [if_true] at g1
      norm_num at *
      constructor <;> linarith
  norm_num at *
  refine ⟨hg, ⟨by linarith, by linarith⟩, ⟨d1.1, by linarith⟩, ⟨d2.1, by linarith⟩⟩

theorem ScanRegions.pinch {q : ℝ} {comp : Bool} {d : ScanSensor} {base : ℝ × ℝ} (h : ScanRegions q comp d base) :
    d.barrier1.pinchOff = (d.alphaSensor 1).1 * base.1 + (d.alphaSensor 1).2 * base.2 ∧
      d.barrier2.pinchOff = (d.alphaSensor 2).1 * base.1 + (d.alphaSensor 2).2 * base.2 := by
  have h1 := h.pinch1.pinchOff
  have h2 := h.pinch2.pinchOff
  rw [mu_at] at h1 h2
  unfold potentialAt at h1 h2
  rw [h.scan.offset] at h1 h2
  simp only [mul_zero, add_zero, zero_add] at h1 h2
  exact ⟨h1, h2⟩

/-- Below the lowest base point, both barriers are closed. -/
theorem region_closed {q : ℝ} (hq : q ≤ 1) {comp : Bool} {d : ScanSensor} {base o v w : ℝ × ℝ} {N : ℕ} (h : ScanRegions q comp d base)
    (hp : RegionPoint o v N) (h1 : w.1 ≤ -0.688) (h2 : w.2 ≤ -0.688) : potentialAt d 1 o v w ≤ d.barrier1.pinchOff := by
  obtain ⟨gate, dot, ha, hg, hd⟩ := h.scan.arms
  obtain ⟨⟨a1, -⟩, ⟨a2, -⟩, ⟨-, a3⟩, -, a4⟩ := arms_bounds hq ha
  rw [h.pinch.1]
  unfold potentialAt
  rw [h.scan.offset, hg, hd]
  obtain ⟨s1, s2, s3⟩ := h.scan.gate1
  obtain ⟨⟨b1, -⟩, ⟨b2, -⟩⟩ := h.scan.basePoint
  rw [s1]
  obtain ⟨p1, p2, -, ⟨-, p3⟩, ⟨-, p4⟩⟩ := hp
  have m1 := mul_nonpos_of_nonpos_of_nonneg a3 p1
  have m2 := mul_nonpos_of_nonpos_of_nonneg a4 p2
  have m3 := mul_nonpos_of_nonneg_of_nonpos a1.le p3
  have m4 := mul_nonpos_of_nonneg_of_nonpos a2.le p4
  have m5 : (d.alphaSensor 1).2 * w.2 ≤ (d.alphaSensor 1).2 * base.2 :=
    mul_le_mul_of_nonneg_left (h2.trans b2) (by norm_num at s2; linarith)
  norm_num at *
  linarith

/-- Above -0.3 V, both barriers are above their pinch-off points. -/
theorem region_conductive {q : ℝ} (hq : q ≤ 1) {comp : Bool} {d : ScanSensor} {base o v w : ℝ × ℝ} {N : ℕ} (h : ScanRegions q comp d base)
    (hp : RegionPoint o v N) (hN : N ≤ 121) (h1 : -0.3 ≤ w.1) (h2 : -0.3 ≤ w.2) :
    d.barrier1.pinchOff < potentialAt d 1 o v w ∧ d.barrier2.pinchOff < potentialAt d 2 o v w := by
  obtain ⟨gate, dot, ha, hg, hd⟩ := h.scan.arms
  obtain ⟨⟨a1, a1'⟩, ⟨a2, a2'⟩, ⟨a3, a3'⟩, a4, a4'⟩ := arms_bounds hq ha
  rw [h.pinch.1, h.pinch.2]
  unfold potentialAt
  rw [h.scan.offset, h.scan.offset, hg, hd, hg, hd]
  obtain ⟨s1, s2, s3⟩ := h.scan.gate1
  obtain ⟨t1, t2, t3⟩ := h.scan.gate2
  obtain ⟨⟨-, b1⟩, ⟨-, b2⟩⟩ := h.scan.basePoint
  rw [s1, t1]
  obtain ⟨p1, p2, p, ⟨p3, -⟩, ⟨p4, -⟩⟩ := hp
  have hN' : o.1 + o.2 ≤ 121 := p.trans (by exact_mod_cast hN)
  have m1 : 0 ≤ dot.1 * o.1 + 0.0007994 * o.1 := by
    rw [← add_mul]
    exact mul_nonneg (by linarith) p1
  have m2 : 0 ≤ dot.2 * o.2 + 0.0007994 * o.2 := by
    rw [← add_mul]
    exact mul_nonneg (by norm_num at a4 ⊢; linarith) p2
  have m3 : -0.030186 ≤ gate.1 * v.1 := by norm_num at *; nlinarith
  have m4 : -0.060372 ≤ gate.2 * v.2 := by norm_num at *; nlinarith
  have m5 : 0.0209 ≤ (d.alphaSensor 1).2 * (w.2 - base.2) := by norm_num at *; nlinarith
  have m6 : 0.0209 ≤ (d.alphaSensor 2).1 * (w.1 - base.1) := by norm_num at *; nlinarith
  rw [mul_sub] at m5 m6
  norm_num at *
  constructor <;> linarith

/-- Solutions of the equations for the point at which both barriers are fully open. -/
theorem point_bound {c1 c2 x y r1 r2 U T : ℝ} (hc1 : 0.1 ≤ c1 ∧ c1 ≤ 0.3) (hc2 : 0.1 ≤ c2 ∧ c2 ≤ 0.3) (e1 : 0.99 * x + c1 * y = r1)
    (e2 : c2 * x + 0.99 * y = r2) (h1 : r1 ≤ U) (h2 : 0.22 ≤ r2) (hT : 0 ≤ T) (hT' : T ≤ 0.7) (h : 0.99 * U - 0.022 ≤ 0.9501 * T) : x ≤ T := by
  norm_num at *
  have e : (0.9801 - c1 * c2) * x = 0.99 * r1 - c1 * r2 := by
    rw [← e1, ← e2]
    norm_num
    ring
  have hdet : 0 < 0.9801 - c1 * c2 := by
    norm_num
    nlinarith
  refine le_of_mul_le_mul_left ?_ hdet
  rw [e]
  have m1 : c1 * (11 / 50) ≤ c1 * r2 := mul_le_mul_of_nonneg_left h2 (by linarith)
  have m2 : c1 * c2 ≤ 3 / 10 * c1 := by nlinarith
  have m3 : c1 * c2 * T ≤ 3 / 10 * c1 * T := mul_le_mul_of_nonneg_right m2 hT
  norm_num
  nlinarith

/-- The point at which the code expects both barriers to be fully open, relative to the base point. -/
theorem region_point {q : ℝ} {comp : Bool} {d : ScanSensor} {base o p u gate dot : ℝ × ℝ} (h : ScanRegions q comp d base)
    (hg : ∀ k, d.alphaGate k = gate) (hd : ∀ k, d.alphaDot k = dot) {x : ScanState} (hx : (x.g1.1, x.g2.1) = u) (ho : firstOcc x.occ = .ok o)
    (hp : d.calcPoint x d.barrier1.fullyConductive d.barrier2.fullyConductive true = .ok p) :
    0.99 * (p.1 - base.1) + (d.alphaSensor 1).2 * (p.2 - base.2) = d.barrier1.fullyConductive - d.barrier1.pinchOff -
      (gate.1 * u.1 + gate.2 * u.2 + (dot.1 * o.1 + dot.2 * o.1)) ∧
    (d.alphaSensor 2).1 * (p.1 - base.1) + 0.99 * (p.2 - base.2) = d.barrier2.fullyConductive - d.barrier2.pinchOff -
      (gate.1 * u.1 + gate.2 * u.2 + (dot.1 * o.1 + dot.2 * o.2)) := by
  subst hx
  obtain ⟨s1, s2, s3⟩ := h.scan.gate1
  obtain ⟨t1, t2, t3⟩ := h.scan.gate2
  unfold ScanSensor.calcPoint at hp
  rw [ho] at hp
  simp only [Except.ok.injEq] at hp
  have hs := solvePoint_spec (d.alphaSensor 1) (d.alphaSensor 2)
    (d.barrier1.fullyConductive - (d.gateOffset x true 1 + d.offset 1 + (d.alphaDot 1).1 * o.1 + (d.alphaDot 1).2 * o.1))
    (d.barrier2.fullyConductive - (d.gateOffset x true 2 + d.offset 2 + (d.alphaDot 2).1 * o.1 + (d.alphaDot 2).2 * o.2))
    (by
      rw [s1, t1]
      norm_num at *
      nlinarith) (Or.inr (by
      unfold floatEps
      rw [abs_of_nonneg (le_trans (by norm_num) s2)]
      refine le_trans ?_ s2
      norm_num))
  rw [hp, hd, hd, h.scan.offset, h.scan.offset] at hs
  simp only [ScanSensor.gateOffset, if_true, dot2, hg] at hs
  rw [h.pinch.1, h.pinch.2]
  rw [s1, t1] at *
  obtain ⟨k1, k2⟩ := hs
  constructor
  · linarith
  · linarith

/-- The label 2 without plunger voltages. -/
theorem region_open {q : ℝ} {comp : Bool} {d : ScanSensor} {base p w : ℝ × ℝ} (h : ScanRegions q comp d base)
    {x : ScanState} (hx : (x.g1.1, x.g2.1) = (0, 0)) (ho : firstOcc x.occ = .ok (0, 0))
    (hp : d.calcPoint x d.barrier1.fullyConductive d.barrier2.fullyConductive true = .ok p) (h1 : -0.07 ≤ w.1) (h2 : -0.07 ≤ w.2) :
    potentialAt d 0 (0, 0) (0, 0) p < potentialAt d 0 (0, 0) (0, 0) w := by
  obtain ⟨gate, dot, ha, hg, hd⟩ := h.scan.arms
  obtain ⟨e1, e2⟩ := region_point h hg hd hx ho hp
  have f1 := h.full1
  have f2 := h.full2
  simp only [mul_zero, add_zero, sub_zero] at e1 e2
  have k1 := point_bound (T := 0.4385) h.scan.gate1.2 h.scan.gate2.2 e1 e2 f1.2 f2.1 (by norm_num) (by norm_num) (by norm_num)
  have k2 := point_bound (T := 0.4385) h.scan.gate2.2 h.scan.gate1.2 ((add_comm _ _).trans e2) ((add_comm _ _).trans e1) f2.2 f1.1 (by norm_num) (by norm_num)
    (by norm_num)
  obtain ⟨⟨-, b1⟩, ⟨-, b2⟩⟩ := h.scan.basePoint
  obtain ⟨a1, a2, -⟩ := h.scan.sensor
  unfold potentialAt
  have m1 : (d.alphaSensor 0).1 * p.1 < (d.alphaSensor 0).1 * w.1 := mul_lt_mul_of_pos_left (by norm_num at *; linarith) a1
  have m2 : (d.alphaSensor 0).2 * p.2 < (d.alphaSensor 0).2 * w.2 := mul_lt_mul_of_pos_left (by norm_num at *; linarith) a2
  linarith

/-- The label 2 of compensated sensors. -/
theorem region_open_compensated {q : ℝ} (hq : q ≤ 1) {d : ScanSensor} {base p o v w : ℝ × ℝ} (h : ScanRegions q true d base)
    (hpt : RegionPoint o v 25) {x : ScanState} (hx : (x.g1.1, x.g2.1) = v) (ho : firstOcc x.occ = .ok o)
    (hp : d.calcPoint x d.barrier1.fullyConductive d.barrier2.fullyConductive true = .ok p) (h1 : -0.03 ≤ w.1) (h2 : -0.03 ≤ w.2) :
    potentialAt d 0 o (v.1, v.1) p < potentialAt d 0 o v w := by
  obtain ⟨gate, dot, ha, hg, hd⟩ := h.scan.arms
  obtain ⟨-, -, ⟨a3, a3'⟩, a4, a4'⟩ := arms_bounds hq ha
  obtain ⟨e1, e2⟩ := region_point h hg hd hx ho hp
  have f1 := h.full1
  have f2 := h.full2
  have g1 := ha.gate1
  simp only [if_true] at g1
  obtain ⟨g2, g2'⟩ := ha.gate2
  obtain ⟨p1, p2, ps, ⟨p3, p3'⟩, ⟨p4, p4'⟩⟩ := hpt
  have n1 : -0.0001 ≤ gate.1 * v.1 ∧ gate.1 * v.1 ≤ 0 := by norm_num at *; constructor <;> nlinarith
  have n2 : -0.0002 ≤ gate.2 * v.2 ∧ gate.2 * v.2 ≤ 0 := by norm_num at *; constructor <;> nlinarith
  have os : o.1 + o.2 ≤ 25 := by norm_num at ps; exact ps
  have o1 : o.1 ≤ 25 := by norm_num at ps; linarith
  have n3 : 0 ≤ dot.1 * o.1 + 0.0007994 * o.1 ∧ dot.1 * o.1 + 0 ≤ 0 := ⟨by
    rw [← add_mul]
    exact mul_nonneg (by linarith) p1, by
    rw [add_zero]
    exact mul_nonpos_of_nonpos_of_nonneg a3' p1⟩
  have n4 : 0 ≤ dot.2 * o.1 + 0.0005214 * o.1 ∧ dot.2 * o.1 + 0 ≤ 0 := ⟨by
    rw [← add_mul]
    exact mul_nonneg (by linarith) p1, by
    rw [add_zero]
    exact mul_nonpos_of_nonpos_of_nonneg a4' p1⟩
  have n5 : 0 ≤ dot.2 * o.2 + 0.0005214 * o.2 ∧ dot.2 * o.2 + 0 ≤ 0 := ⟨by
    rw [← add_mul]
    exact mul_nonneg (by linarith) p2, by
    rw [add_zero]
    exact mul_nonpos_of_nonpos_of_nonneg a4' p2⟩
  have k1 := point_bound (T := 0.474) (U := 0.477) h.scan.gate1.2 h.scan.gate2.2 e1 e2 (by norm_num at *; linarith) (by norm_num at *; linarith) (by norm_num)
    (by norm_num) (by norm_num)
  have k2 := point_bound (T := 0.474) (U := 0.477) h.scan.gate2.2 h.scan.gate1.2 ((add_comm _ _).trans e2) ((add_comm _ _).trans e1) (by norm_num at *; linarith)
    (by norm_num at *; linarith) (by norm_num) (by norm_num) (by norm_num)
  obtain ⟨⟨-, b1⟩, ⟨-, b2⟩⟩ := h.scan.basePoint
  obtain ⟨a1, a2, am⟩ := h.scan.sensor
  unfold potentialAt
  rw [hg, hd]
  have hsum : 0.1 ≤ (d.alphaSensor 0).1 + (d.alphaSensor 0).2 := by
    rw [← am]
    exact max_le (by linarith) (by linarith)
  have m1 : (d.alphaSensor 0).1 * 0.005 ≤ (d.alphaSensor 0).1 * (w.1 - p.1) := mul_le_mul_of_nonneg_left (by norm_num at *; linarith) a1.le
  have m2 : (d.alphaSensor 0).2 * 0.005 ≤ (d.alphaSensor 0).2 * (w.2 - p.2) := mul_le_mul_of_nonneg_left (by norm_num at *; linarith) a2.le
  rw [mul_sub] at m1 m2
  have m3 : gate.2 * v.1 ≤ 0 := mul_nonpos_of_nonneg_of_nonpos (by norm_num at *; linarith) p3'
  dsimp only
  norm_num at *
  linarith

/-! ### Sensor scans of sampled configurations -/

theorem sampled_view {rng : CfgRng ρ} (hv : rng.Valid) (hz : rng.NormalNonzero) {lab lab' : Labelling} {ty : String} {q : ℝ} {comp steepest : Bool}
    {t t' : ρ} {c : SampledConfig} (hc : sampleConfig rng lab ty q comp steepest t (.ok c, t')) {d : ScanSensor} (hd : c.sensor = .scan d)
    {sim : ScanSim τ} (e1 : sim.lim = c.limits) (e2 : sim.gen = some (idealGen c.ideal lab')) (e3 : sim.sensor = d) {N : ℕ}
    (hN : c.ideal.params.length ≤ N + 1) {w1 w2 : ℝ × ℝ} {g1 g2 : VoltArg} {res : Resolution} {s s' : Option ScanState × τ} {scan : Scan ℝ}
    {cond peaks : Scan ℕ} (h : measureSensorScan sim ⟨[w1.1, w1.2], [w2.1, w2.2], g1, g2, res⟩ s = (.ok (scan, cond, peaks), s')) :
    0 < q ∧ q ≤ 1 ∧ ∃ (base o p : ℝ × ℝ) (x : ScanState), ScanRegions q comp d base ∧ ScanOccupation sim.gen g1 g2 s o ∧
      RegionPoint o (argVoltage g1 1 0, argVoltage g2 1 0) N ∧ Within (-1) 0 w1.1 w1.2 ∧ Within (-1) 0 w2.1 w2.2 ∧
      (x.g1.1, x.g2.1) = (argVoltage g1 1 0, argVoltage g2 1 0) ∧ firstOcc x.occ = .ok o ∧
      d.calcPoint x d.barrier1.fullyConductive d.barrier2.fullyConductive true = .ok p ∧
      (∀ w l, SensorPixel w1 w2 cond w l → l = d.conductive
        (potentialAt d 0 o (argVoltage g1 1 0, argVoltage g1 1 0) p)
        fun k => potentialAt d k o (argVoltage g1 1 0, argVoltage g2 1 0) w) ∧
      ((∃ n f d, cond = .d1 n f ∧ peaks = .d1 n d ∧ ∀ i, f i ≠ 1 → d i = 0) ∨
        ∃ r c f d, cond = .d2 r c f ∧ peaks = .d2 r c d ∧ ∀ i j, f i j ≠ 1 → d i j = 0) := by
  subst e3
  obtain ⟨h0, h1, s1, s2, hs⟩ := sampled_scan hc hd
  obtain ⟨base, hbase⟩ := sampled_regions hv hz h0 h1 hs
  obtain ⟨s3, hi⟩ := sampled_ideal hv hz hc
  obtain ⟨cfg, s4, e, ok, -⟩ := C46_geometry rng hv lab _ _ hi
  cases e
  obtain ⟨o, p, x, ho, ha1, ha2, hck, hx, hfo, hp, hl, hz⟩ := scan_labels h
  rw [e1, (sampled_parts hv ‹rng.NormalNonzero› hc).lim] at hck
  obtain ⟨⟨v1, v2⟩, hw1, hw2⟩ := sampled_voltages hck ha1 ha2
  obtain ⟨o1, o2, os⟩ := scan_occupation ok hN (by rw [← e2]; exact ho)
  exact ⟨h0, h1, base, o, p, x, hbase, ho, ⟨o1, o2, os, v1, v2⟩, hw1, hw2, hx, hfo, hp, hl, hz⟩

/-- Sampled configurations have at most 122 transitions. -/
theorem sampled_transitions {rng : CfgRng ρ} (hv : rng.Valid) (hz : rng.NormalNonzero) {lab : Labelling} {ty : String} {q : ℝ} {comp steepest : Bool}
    {t t' : ρ} {c : SampledConfig} (hc : sampleConfig rng lab ty q comp steepest t (.ok c, t')) : c.ideal.params.length ≤ 121 + 1 := by
  obtain ⟨s3, hi⟩ := sampled_ideal hv hz hc
  obtain ⟨_, _, e, p, v, k, ⟨-, h2, -⟩, hk⟩ := sampleIdealCSD_tested hv lab _ _ hi
  cases e
  rw [hk]
  simp only [sampledIdeal, ladder_length]
  omega

theorem measureScan_scan {env : SampledEnv τ} {lab : Labelling} {c : SampledConfig} {rq : ScanRequest} {s s' : Option ScanState × NoiseState τ}
    {r : Scan ℝ × Scan ℕ × Scan ℕ} (h : c.measureScan env lab rq s = (.ok r, s')) :
    ∃ d, c.sensor = .scan d ∧ measureSensorScan (c.scanSim env lab d) rq s = (.ok r, s') := by
  unfold SampledConfig.measureScan at h
  cases hs : c.sensor with
  | generic d => rw [hs] at h; simp at h
  | scan d =>
    rw [hs] at h
    exact ⟨d, rfl, h⟩

theorem conductive_closed {d : ScanSensor} {full : ℝ} {mu : Fin 3 → ℝ} (h : mu 1 ≤ d.barrier1.pinchOff) : d.conductive full mu = 0 := by
  unfold ScanSensor.conductive
  rw [if_neg fun hh => absurd hh.1 (not_lt.2 h)]

theorem conductive_ne_zero {d : ScanSensor} {full : ℝ} {mu : Fin 3 → ℝ} (h : d.barrier1.pinchOff < mu 1 ∧ d.barrier2.pinchOff < mu 2) :
    d.conductive full mu ≠ 0 := by
  unfold ScanSensor.conductive
  rw [if_pos h]
  split_ifs <;> norm_num

theorem conductive_open {d : ScanSensor} {full : ℝ} {mu : Fin 3 → ℝ} (h : d.barrier1.pinchOff < mu 1 ∧ d.barrier2.pinchOff < mu 2)
    (hf : full < mu 0) : d.conductive full mu = 2 := by
  unfold ScanSensor.conductive
  rw [if_pos h, if_pos hf]

theorem conductive_not_open {d : ScanSensor} {full : ℝ} {mu : Fin 3 → ℝ} (hf : mu 0 ≤ full) : d.conductive full mu ≠ 2 := by
  unfold ScanSensor.conductive
  rw [if_neg (not_lt.2 hf)]
  split_ifs <;> norm_num

/-- The signal of a closed sensor. -/
theorem region_signal {q : ℝ} (h0 : 0 < q) {comp : Bool} {d : ScanSensor} {base o v w : ℝ × ℝ} (h : ScanRegions q comp d base) (off : ℝ)
    (hc : potentialAt d 1 o v w ≤ d.barrier1.pinchOff) : 0 ≤ signalFrom d off o v w ∧ signalFrom d off o v w ≤ 0.00025 * q := by
  obtain ⟨rise, ps, hr, hps, -⟩ := h.scan.rise
  obtain ⟨ps', hps', hpk⟩ := h.scan.peaks
  rw [hps] at hps'
  cases hps'
  unfold signalFrom
  rw [hr]
  simp only
  unfold riseSignal
  rw [hps]
  simp only
  have hsum : 0 ≤ (ps.map fun p => peakSignal p (potentialAt d 0 o v w)).sum := by
    refine List.sum_nonneg ?_
    rintro y hy
    obtain ⟨p, hp, rfl⟩ := List.mem_map.1 hy
    unfold peakSignal
    rw [hpk.kind p hp, hpk.offset p hp]
    have := hpk.height p hp
    have := hpk.width p hp
    simp only [zero_add]
    positivity
  have hb : d.barrier1.value (potentialAt d 1 o v w) ≤ 0.00025 * q := by
    refine (h.pinch1.rising.monotone hc).trans (le_of_eq ?_)
    rw [h.pinch1.low]
    norm_num
    ring
  rcases (le_max_of_le_left hsum : (0 : ℝ) ≤ max _ (RiseGlf.sensorFunction rise (potentialAt d 0 o v w) off)).eq_or_lt with e | e
  · rw [← e]
    unfold inSeries
    rw [if_pos (Or.inl rfl)]
    exact ⟨le_rfl, by positivity⟩
  · obtain ⟨k1, k2⟩ := inSeries_le e (h.pinch1.between (potentialAt d 1 o v w)).1 (h.pinch2.between (potentialAt d 2 o v w)).1
    exact ⟨k1.le, k2.trans hb⟩

/-! ### A sensor that cannot be opened -/

open Classical in
/-- The lower or upper limit of some intervals, the centre of all others. -/
noncomputable def steer (a b : ℝ) : ℝ :=
  if a = 20 ∨ a = 0.1 then a else if a = -0.688 ∨ a = 0.02805 ∨ a = 0.5 * 0.15093 then b else (a + b) / 2

theorem steer_mem {a b : ℝ} (h : a ≤ b) : a ≤ steer a b ∧ steer a b ≤ b := by
  unfold steer
  split_ifs
  · exact ⟨le_rfl, h⟩
  · exact ⟨h, le_rfl⟩
  · constructor <;> linarith

/-- A generator with strong lever arms of the plunger gates, weak cross-talk, and slowly rising barriers. -/
noncomputable def steeredRng : CfgRng ℕ :=
  { fairRng with uniform := fun a b k => open Classical in if a ≤ b then (.ok (steer a b), k) else (.error .valueError, k) }

theorem steered_valid : steeredRng.Valid where
  draws := by
    refine ⟨?_, fairRng_valid.draws.lognormal, fairRng_valid.draws.exponential⟩
    intro a b s v s' hab h
    simp only [steeredRng, if_pos hab] at h
    cases h
    exact steer_mem hab
  uniform_ok a b s h := ⟨_, _, if_pos h⟩
  uniform_error a b s h := ⟨s, if_neg (not_le.2 h)⟩
  normal_ok := fairRng_valid.normal_ok
  exponential_ok := fairRng_valid.exponential_ok
  choice_ok := fairRng_valid.choice_ok

theorem steered_nonzero : steeredRng.NormalNonzero := fairRng_nonzero

/-- Every value that the procedure returns has the property; it may also raise. -/
def Proc.Gives {α : Type} (x : Proc ρ α) (P : α → Prop) : Prop := ∀ s a s', x s (.ok a, s') → P a

theorem Proc.Gives.bind {α β : Type} {x : Proc ρ α} {f : α → Proc ρ β} {P : β → Prop} (Q : α → Prop) (hx : x.Gives Q) (hf : ∀ a, Q a → (f a).Gives P) :
    (x >>= f).Gives P := by
  rintro s b s' (⟨a, t, ha, hb⟩ | ⟨e, t, -, h⟩)
  · exact hf a (hx _ _ _ ha) _ _ _ hb
  · exact nomatch h

theorem Proc.gives_true {α : Type} (x : Proc ρ α) : x.Gives fun _ => True := fun _ _ _ _ => trivial

theorem Proc.gives_pure {α : Type} {a : α} {P : α → Prop} (h : P a) : (pure a : Proc ρ α).Gives P := by
  rintro s b s' e
  cases e
  exact h

theorem Proc.Ensures.gives {α : Type} {x : Proc ρ α} {P : α → Prop} (h : x.Ensures P) : x.Gives P := by
  intro s a s' hx
  obtain ⟨b, t, e, hb⟩ := h _ _ hx
  cases e
  exact hb

theorem steered_uniform {a b v : ℝ} (h : a ≤ b) (hv : steer a b = v) : (Proc.call (steeredRng.uniform a b)).Ensures fun x => x = v := by
  intro s r hx
  refine ⟨_, s, ?_, hv⟩
  rw [← hx]
  exact if_pos h

theorem steered_sample {a b v : ℝ} (h : a ≤ b) (hv : steer a b = v) : (sampleUniform steeredRng (a, b)).Ensures fun x => x = v := by
  intro s r hx
  rw [sampleUniform_iff] at hx
  refine ⟨_, s, ?_, hv⟩
  rw [hx]
  exact if_pos h

theorem steer_low {a b : ℝ} (h : a = 20 ∨ a = 0.1) : steer a b = a := by
  unfold steer
  rw [if_pos h]

theorem steer_high {a b : ℝ} (h : a = -0.688 ∨ a = 0.02805 ∨ a = 0.5 * 0.15093) : steer a b = b := by
  unfold steer
  rw [if_neg, if_pos h]
  rcases h with rfl | rfl | rfl <;> norm_num

theorem steer_centre {a b : ℝ} (h : a ≠ 20 ∧ a ≠ 0.1 ∧ a ≠ -0.688 ∧ a ≠ 0.02805 ∧ a ≠ 0.5 * 0.15093) : steer a b = (a + b) / 2 := by
  unfold steer
  rw [if_neg (by tauto), if_neg (by tauto)]

theorem steered_alphas (q : ℝ) : (sampleAlphas steeredRng q false).Gives fun a => a.1 = (0.15093, 0.30186) := by
  unfold sampleAlphas
  refine Proc.Gives.bind (fun x => x = 0.15093) (steered_uniform (by norm_num) (steer_high (by norm_num))).gives ?_
  rintro _ rfl
  refine Proc.Gives.bind (fun x => x = 2 * 0.15093) (steered_uniform (by norm_num) (steer_high (by norm_num))).gives ?_
  rintro _ rfl
  refine Proc.Gives.bind (fun _ => True) (Proc.gives_true _) fun _ _ => Proc.Gives.bind (fun _ => True) (Proc.gives_true _) fun _ _ => Proc.gives_pure ?_
  norm_num

theorem steered_barrier {offset q : ℝ} (hq : 0 < q) : (sampleBarrier steeredRng offset 0.25 q 0.001 0.999).Gives fun b =>
    b.pinchOff = offset ∧ 0.44 ≤ b.fullyConductive - b.pinchOff ∧ b.fullyConductive - b.pinchOff ≤ 0.4429 := by
  have hB : (sampleBarrier steeredRng offset 0.25 q 0.001 0.999).Gives fun b => b.g.B = 20 := by
    unfold sampleBarrier
    refine Proc.Gives.bind (fun x => x = 20) (steered_sample (by norm_num) (steer_low (Or.inl rfl))).gives ?_
    rintro _ rfl
    refine Proc.Gives.bind (fun _ => True) (Proc.gives_true _) fun nu _ => Proc.Gives.bind (fun _ => True) (Proc.gives_true _) fun sh _ => ?_
    intro s b s' h
    unfold Proc.ofPy BarrierGlf.mk? at h
    dsimp only at h
    split_ifs at h
    · cases h
    · cases h
      rfl
  intro s b s' h
  have h20 := hB s b s' h
  obtain ⟨b', s'', e, hp⟩ := C48_pinch_off steeredRng steered_valid offset 0.25 q (by norm_num) hq s _ h
  cases e
  obtain ⟨b', s'', e, p1, p2, p3, p4, p5, p6, p7, p8, -⟩ := sampleBarrier_spec steered_valid offset 0.25 q 0.001 0.999 s _ h
  cases e
  obtain ⟨l, u⟩ := barrier_distance p3 p4 (by positivity) p5 (by rw [h20]; norm_num) (lt_of_lt_of_le (by norm_num) p7.1) p7.2
    (lt_of_lt_of_le (by norm_num) p8.1) p1 p2
  rw [h20] at l u
  refine ⟨hp.pinchOff, ?_⟩
  norm_num at *
  constructor <;> linarith

/-- The sensor of the steered generator. -/
structure Steered (d : ScanSensor) : Prop where
  gate : ∀ k, d.alphaGate k = (0.15093, 0.30186)
  gate1 : d.alphaSensor 1 = (0.99, 0.1)
  gate2 : d.alphaSensor 2 = (0.1, 0.99)
  pinch1 : d.barrier1.pinchOff = 0.99 * -0.509 + 0.1 * -0.509
  pinch2 : d.barrier2.pinchOff = 0.1 * -0.509 + 0.99 * -0.509
  full1 : 0.44 ≤ d.barrier1.fullyConductive - d.barrier1.pinchOff ∧ d.barrier1.fullyConductive - d.barrier1.pinchOff ≤ 0.4429
  full2 : 0.44 ≤ d.barrier2.fullyConductive - d.barrier2.pinchOff ∧ d.barrier2.fullyConductive - d.barrier2.pinchOff ≤ 0.4429

theorem steered_scan {q : ℝ} (hq : 0 < q) : (sampleScanSensor steeredRng q false).Gives Steered := by
  unfold sampleScanSensor
  refine Proc.Gives.bind (fun _ => True) (Proc.gives_true _) fun ratio _ => Proc.Gives.bind (fun _ => True) (Proc.gives_true _) fun inv _ => ?_
  refine Proc.Gives.bind (fun x => x = 0.1) (steered_sample (by norm_num) (steer_low (Or.inr rfl))).gives ?_
  rintro _ rfl
  refine Proc.Gives.bind (fun x => x = 0.1) (steered_sample (by norm_num) (steer_low (Or.inr rfl))).gives ?_
  rintro _ rfl
  refine Proc.Gives.bind _ (steered_alphas q) ?_
  rintro ⟨_, dot⟩ rfl
  refine Proc.Gives.bind (fun x => x = -0.509) (steered_sample (by norm_num) (steer_high (Or.inl rfl))).gives ?_
  rintro _ rfl
  refine Proc.Gives.bind (fun x => x = -0.509) (steered_sample (by norm_num) (steer_high (Or.inl rfl))).gives ?_
  rintro _ rfl
  refine Proc.Gives.bind (fun _ => True) (Proc.gives_true _) fun f _ => ?_
  refine Proc.Gives.bind _ (steered_barrier hq) fun b1 hb1 => ?_
  refine Proc.Gives.bind _ (steered_barrier hq) fun b2 hb2 => ?_
  exact Proc.gives_pure ⟨fun _ => rfl, rfl, rfl, hb1.1, hb2.1, hb1.2, hb2.2⟩

/-- A configuration with the steered sensor. -/
theorem steered_config (lab : Labelling) (steepest : Bool) :
    ∃ c t', sampleConfig steeredRng lab "SensorScanSensorGeneric" 1 false steepest 0 (.ok c, t') := by
  have c4 : ∀ a b : ℝ, a ≤ b → (a ≠ 20 ∧ a ≠ 0.1 ∧ a ≠ -0.688 ∧ a ≠ 0.02805 ∧ a ≠ 0.5 * 0.15093) →
      (Proc.call (steeredRng.uniform a b)).Ensures fun v => v = (a + b) / 2 := fun a b h h' => steered_uniform h (steer_centre h')
  obtain ⟨⟨x, s1⟩, hi⟩ := ends_of_centres steered_valid lab (c4 _ _ (by norm_num) (by norm_num)) (c4 _ _ (by norm_num) (by norm_num))
    (c4 _ _ (by norm_num) (by norm_num)) (c4 _ _ (by norm_num) (by norm_num)) 0
  obtain ⟨cfg, s', e, -⟩ := C46_geometry steeredRng steered_valid lab _ _ hi
  cases e
  obtain ⟨r, hr⟩ := scanSensor_ends (rng := steeredRng) fairRng_fair.normal 1 false s1
  obtain ⟨d, s2, base, rfl, -⟩ := C46_sensor_scan steeredRng steered_valid steered_nonzero 1 (by norm_num) (by norm_num) false s1 r hr
  have hx : sampleSensorOfType steeredRng "SensorScanSensorGeneric" 1 false steepest s1 (.ok (.scan d), s2) := by
    unfold sampleSensorOfType
    rw [if_neg (by decide), if_pos rfl]
    exact Or.inl ⟨d, s2, hr, rfl⟩
  have key : ∃ r, sampleConfig steeredRng lab "SensorScanSensorGeneric" 1 false steepest 0 r := by
    unfold sampleConfig
    rw [if_neg (by norm_num)]
    exact ⟨_, Or.inl ⟨cfg, s1, hi, Or.inl ⟨.scan d, s2, hx, rfl⟩⟩⟩
  obtain ⟨r, hr⟩ := key
  obtain ⟨c, t', rfl, -⟩ := C66_valid steeredRng steered_valid steered_nonzero lab _ 1 (by norm_num) (by norm_num) false steepest (Or.inr rfl) 0 r hr
  exact ⟨c, t', hr⟩

/-- The pixels of a scan lie in its range. -/
theorem pixel_mem {α : Type} {w1 w2 w : ℝ × ℝ} {scan : Scan α} {y : α} (h : SensorPixel w1 w2 scan w y) {lo hi : ℝ} (h1 : Within lo hi w1.1 w1.2)
    (h2 : Within lo hi w2.1 w2.2) : (lo ≤ w.1 ∧ w.1 ≤ hi) ∧ (lo ≤ w.2 ∧ w.2 ≤ hi) := by
  rcases h with ⟨n, f, -, i, -, rfl⟩ | ⟨r, c, f, -, i, j, -, rfl⟩
  · exact ⟨argVoltage_mem h1 i.2, argVoltage_mem h2 i.2⟩
  · exact ⟨argVoltage_mem h1 j.2, argVoltage_mem h2 i.2⟩

/-- The sensor of the steered generator cannot be opened with the plunger gates at -0.06 V and -0.2 V. -/
theorem steered_closed {q : ℝ} (hq : q ≤ 1) {d : ScanSensor} {base o p w : ℝ × ℝ} {N : ℕ} (hN : N ≤ 121) (h : ScanRegions q false d base) (hst : Steered d)
    (hpt : RegionPoint o (-0.06, -0.2) N) {x : ScanState} (hx : (x.g1.1, x.g2.1) = (-0.06, -0.2)) (ho : firstOcc x.occ = .ok o)
    (hp : d.calcPoint x d.barrier1.fullyConductive d.barrier2.fullyConductive true = .ok p) (h1 : w.1 ≤ 0) (h2 : w.2 ≤ 0) :
    potentialAt d 0 o (-0.06, -0.2) w ≤ potentialAt d 0 o (-0.06, -0.06) p := by
  obtain ⟨gate, dot, ha, hg, hd⟩ := h.scan.arms
  obtain ⟨-, -, ⟨a3, a3'⟩, a4, a4'⟩ := arms_bounds hq ha
  have hgate : gate = (0.15093, 0.30186) := by rw [← hg 0, hst.gate 0]
  obtain ⟨e1, e2⟩ := region_point h hg hd hx ho hp
  have hb := h.pinch
  rw [hst.gate1, hst.gate2, hst.pinch1, hst.pinch2] at hb
  rw [hst.gate1] at e1
  rw [hst.gate2] at e2
  have f1 := hst.full1
  have f2 := hst.full2
  subst hgate
  obtain ⟨p1, p2, ps, -, -⟩ := hpt
  have os : o.1 + o.2 ≤ 121 := ps.trans (by exact_mod_cast hN)
  obtain ⟨k1, k2⟩ := hb
  dsimp only at e1 e2 k1 k2
  have b1 : base.1 = -0.509 := by norm_num at k1 k2 ⊢; linarith
  have b2 : base.2 = -0.509 := by norm_num at k1 k2 ⊢; linarith
  have n3 : 0 ≤ dot.1 * o.1 + 0.0007994 * o.1 ∧ dot.1 * o.1 + 0 ≤ 0 := ⟨by
    rw [← add_mul]
    exact mul_nonneg (by linarith) p1, by
    rw [add_zero]
    exact mul_nonpos_of_nonpos_of_nonneg a3' p1⟩
  have n4 : 0 ≤ dot.2 * o.1 + 0.0005214 * o.1 ∧ dot.2 * o.1 + 0 ≤ 0 := ⟨by
    rw [← add_mul]
    exact mul_nonneg (by linarith) p1, by
    rw [add_zero]
    exact mul_nonpos_of_nonpos_of_nonneg a4' p1⟩
  have n5 : 0 ≤ dot.2 * o.2 + 0.0005214 * o.2 ∧ dot.2 * o.2 + 0 ≤ 0 := ⟨by
    rw [← add_mul]
    exact mul_nonneg (by linarith) p2, by
    rw [add_zero]
    exact mul_nonpos_of_nonpos_of_nonneg a4' p2⟩
  rw [b1, b2] at e1 e2
  have q1 : -0.2 ≤ p.1 := by norm_num at *; linarith
  have q2 : -0.2 ≤ p.2 := by norm_num at *; linarith
  obtain ⟨s1, s2, sm⟩ := h.scan.sensor
  have t1 : (d.alphaSensor 0).1 ≤ 0.1 := by rw [← sm]; exact le_max_left _ _
  have t2 : (d.alphaSensor 0).2 ≤ 0.1 := by rw [← sm]; exact le_max_right _ _
  unfold potentialAt
  rw [hst.gate, hd]
  have m1 : (d.alphaSensor 0).1 * (w.1 - p.1) ≤ 0.02 := by
    refine (mul_le_mul_of_nonneg_left (by linarith : w.1 - p.1 ≤ 0.2) s1.le).trans ?_
    norm_num at t1 ⊢
    linarith
  have m2 : (d.alphaSensor 0).2 * (w.2 - p.2) ≤ 0.02 := by
    refine (mul_le_mul_of_nonneg_left (by linarith : w.2 - p.2 ≤ 0.2) s2.le).trans ?_
    norm_num at t2 ⊢
    linarith
  rw [mul_sub] at m1 m2
  dsimp only
  norm_num at *
  linarith

/-- The number of electrons in the region below the transition 25. -/
theorem sampled_few {σ : Type} {rng : CfgRng ρ} (hv : rng.Valid) {lab lab' : Labelling} {s s' : ρ} {cfg : IdealCfg}
    (h : sampleIdealCSD rng lab s (.ok cfg, s')) {b1 b2 : Bool} {v1 v2 : ℝ} (hlow : v1 + v2 + 0.54688 * |v1 - v2| ≤ -0.244) {st : σ} {o : ℝ × ℝ}
    (ho : ScanOccupation (some (idealGen cfg lab')) (.num b1 v1) (.num b2 v2) st o) : o.1 + o.2 ≤ 25 := by
  obtain ⟨_, _, e, ok, -⟩ := C46_geometry rng hv lab _ _ h
  cases e
  obtain ⟨_, _, e, p, v, k, ⟨h1, -⟩, hk⟩ := sampleIdealCSD_tested hv lab _ _ h
  cases e
  by_cases hN : cfg.params.length ≤ 25 + 1
  · have := (scan_occupation ok hN ho).2.2
    exact_mod_cast this
  obtain ⟨data, st', hd, ho⟩ : ∃ data s', idealGen cfg lab' (v1, v1) (v2, v2) (.int 1) st = (.ok data, s') ∧
      ((∃ n f, data.1 = .d1 (n + 1) f ∧ o = f 0) ∨ ∃ r c f, data.1 = .d2 (r + 1) (c + 1) f ∧ o = f 0 0) := ho
  obtain ⟨curves, hcv⟩ := C05_curves_exist cfg ok
  unfold idealGen at hd
  cases hi : idealCsd cfg lab' [v1, v1] [v2, v2] (.int 1) with
  | error e => rw [hi] at hd; simp at hd
  | ok out =>
    rw [hi] at hd
    simp only [M.pure_run, Prod.mk.injEq, Except.ok.injEq] at hd
    obtain ⟨rfl, -⟩ := hd
    obtain ⟨occ, lead, rfl⟩ : ∃ occ lead, out = .d1 1 occ lead := by
      unfold idealCsd at hi
      simp only [Resolution.entries, idealCheck_1d] at hi
      rw [if_neg (by omega)] at hi
      split at hi
      · cases hi
      · cases hi
        exact ⟨_, _, rfl⟩
    rcases ho with ⟨n, f, hf, rfl⟩ | ⟨r, c, f, hf, -⟩
    swap
    · exact nomatch hf
    cases hf
    have hlen : 25 < curves.length := by
      rw [hcv.length]
      omega
    set q := rotatePoint (-cfg.rotation) (v1, v2) with hq
    have hrot : cfg.rotation = -Real.pi / 4 := by rw [hk]; rfl
    have hq' : q = (kap * v1 - kap * v2, kap * v1 + kap * v2) := by
      rw [hq, hrot, show -(-Real.pi / 4) = Real.pi / 4 by ring, rotate_pos]
    have hcv' : IsCurves (some 1000) 1 (ladder p v (k + 1)) curves := by
      rw [hk] at hcv
      exact hcv
    have hnear := abs_le.1 ((ladder_near h1 hcv' (List.getElem?_eq_getElem hlen)).2 q.1)
    have hge := ladderCurve_ge h1 25 q.1
    have habove : q.2 < curves[25] q.1 := by
      have hx : |q.1| = kap * |v1 - v2| := by
        rw [hq', ← mul_sub, abs_mul, abs_of_nonneg (by linarith [kap_bounds.1])]
      have hy : q.2 = kap * (v1 + v2) := by rw [hq']; ring
      rw [hx] at hge
      rw [hy]
      have hm : kap * (v1 + v2 + 0.54688 * |v1 - v2|) ≤ 0.7071 * (-0.244) := by
        have := kap_bounds.1
        nlinarith
      have := hnear.1
      norm_num at *
      linarith
    have := C05_api_1d cfg ok lab' curves hcv v1 v1 v2 v2 1 occ lead (by exact_mod_cast hi) 0 q (by
      rw [hq]
      norm_num) ⟨_, List.getElem_mem hlen, habove⟩
    change (occ 0).1 + (occ 0).2 ≤ 25
    rw [this.2.2]
    have hr : region curves q ≤ 25 := by
      unfold region
      by_contra hcon
      push Not at hcon
      have := List.not_of_lt_findIdx hcon
      simp only [decide_eq_false_iff_not] at this
      exact absurd habove (by simpa using this)
    exact_mod_cast hr

/-- Sensor scan images without distortions succeed. -/
theorem sampled_quiet {c : SampledConfig} (hp : SampledParts c) {d : ScanSensor} (hd : c.sensor = .scan d) (env : SampledEnv τ) (lab : Labelling)
    {a1 b1 a2 b2 : ℝ} (w1 : Within (-1) 0 a1 b1) (w2 : Within (-1) 0 a2 b2)
    (n1 : a1 ≠ b1) (n2 : a2 ≠ b2) (m n : ℕ) (hm : 2 ≤ m) (hn : 2 ≤ n) {g1 g2 : VoltArg} (hg : SampledFixed g1 g2)
    (st : Option ScanState × NoiseState τ) :
    ∃ scan cond peaks st', measureSensorScan (quiet (c.scanSim env lab d)) ⟨[a1, b1], [a2, b2], g1, g2, .arr [n, m]⟩ st =
      (.ok (.d2 m n scan, .d2 m n cond, .d2 m n peaks), st') := by
  obtain ⟨ps, hps⟩ := (hp.scan d hd).2
  have hrun : measureSensorScan (quiet (c.scanSim env lab d)) ⟨[a1, b1], [a2, b2], g1, g2, .arr [n, m]⟩ st =
      scanRun (quiet (c.scanSim env lab d)) ⟨[a1, b1], [a2, b2], g1, g2, .arr [n, m]⟩ (a1, b1) (a2, b2) st := by
    have hout : fixedOutside (some (-0.2, -0.06)) g1 = false ∧ fixedOutside (some (-0.2, -0.06)) g2 = false := by
      rcases hg with ⟨rfl, rfl⟩ | ⟨v1, v2, rfl, rfl, h1, h2⟩
      · exact ⟨rfl, rfl⟩
      · unfold fixedOutside
        simp only [decide_eq_false_iff_not, not_or, not_lt, gt_iff_lt]
        exact ⟨h1, h2⟩
    have hf : ¬ fixedIn2d (a1, b1) (a2, b2) (.arr [n, m]) := by
      unfold fixedIn2d
      simp [n1, n2]
    have hres : scanResCheck (.arr [n, m]) = .ok () := by
      unfold scanResCheck
      simp
      omega
    unfold measureSensorScan
    rw [show (quiet (c.scanSim env lab d)).lim = c.limits from rfl, hp.lim]
    rw [show scanCheck ⟨some (-0.2, -0.06), some (-0.2, -0.06), some (-1, 0), some (-1, 0)⟩ true ⟨[a1, b1], [a2, b2], g1, g2, .arr [n, m]⟩ =
      .ok ((a1, b1), (a2, b2)) from ?_]
    unfold scanCheck
    simp only [Bool.true_eq_false, if_false]
    rw [w1.not_outside, w2.not_outside, hout.1, hout.2, hg.flat.2.2.2.2]
    simp only [Bool.false_eq_true, or_self, if_false, hf, ne_eq, not_true_eq_false, hres]
  rw [hrun]
  obtain ⟨o, ho⟩ := sampled_occ2d hp lab hg [a1, b1] [a2, b2] m n st
  obtain ⟨f, ef⟩ := potential_d2 d (r := m) (c := n) (by omega) (by omega) (fun _ _ => o) g1 g2 (.arr (a1, b1)) (.arr (a2, b2))
    (Or.inl ⟨hg.flat.2.2.1, hg.flat.2.2.2.1⟩)
  obtain ⟨cond, peaks, y, e1, hy, hcond, hpeaks⟩ := labels_total d (hp.scan d hd).1 hps hg.flat.1 hg.flat.2.1 (a1, b1) (a2, b2)
    (mu := .d2 m n f) (.d2 _ _ _ _) (x := ⟨g1.lims, g2.lims, (VoltArg.arr (a1, b1)).lims, (VoltArg.arr (a2, b2)).lims, .d2 m n fun _ _ => o⟩)
    (show firstOcc (.d2 m n fun _ _ => o) = .ok o from dif_pos ⟨by omega, by omega⟩)
  obtain ⟨t, e3⟩ := response_run d (.d2 m n f) y o hy (Or.inl (hp.scan d hd).1)
  obtain ⟨m1, rfl⟩ : ∃ m1, cond = .d2 m n m1 := by
    cases hcond
    exact ⟨_, rfl⟩
  obtain ⟨m2, rfl⟩ : ∃ m2, peaks = .d2 m n m2 := by
    cases hpeaks
    exact ⟨_, rfl⟩
  refine ⟨fun i j => dotSeries d (riseOff d y o) (f i j), m1, m2, (t, st.2), ?_⟩
  unfold scanRun
  rw [M.bind_eq (show scanOcc (quiet (c.scanSim env lab d)).gen _ st = _ from ho),
    show (quiet (c.scanSim env lab d)).sensor = d from rfl, M.bind_eq (onSensor_ok (ef st.1)),
    M.bind_eq (onSensor_ok (ef _)), M.bind_eq (onSensor_ok e1),
    M.bind_eq (show distortScanPot (a1, b1) (a2, b2) (quiet (c.scanSim env lab d)).potD _ _ = _ from rfl), M.bind_eq (onSensor_ok e3)]
  rfl

/-- Pixels in the corners of sensor scan images of the whole range. -/
theorem corner_pixels {α : Type} (f : Fin 100 → Fin 100 → α) :
    SensorPixel (-1, 0) (-1, 0) (.d2 100 100 f) (-1, -1) (f 0 0) ∧ SensorPixel (-1, 0) (-1, 0) (.d2 100 100 f) (0, 0) (f 99 99) := by
  refine ⟨Or.inr ⟨_, _, _, rfl, 0, 0, rfl, ?_⟩, Or.inr ⟨_, _, _, rfl, 99, 99, rfl, ?_⟩⟩
  · norm_num [argVoltage]
  · change _ = (argVoltage _ _ 99, argVoltage _ _ 99)
    norm_num [argVoltage]

/-- Sensor scan images of the whole range of a configuration sampled with compensated lever arms. -/
theorem fair_image {lab : Labelling} (lab' : Labelling) {c : SampledConfig} {s' : ℕ}
    (h : sampleConfig fairRng lab "SensorScanSensorGeneric" 0.5 true false 0 (.ok c, s')) (g1 g2 : VoltArg) (hg : SampledFixed g1 g2)
    (st : Option ScanState × NoiseState Unit) : ∃ scan cond peaks st',
      c.measureScan (plainSampledEnv (fun _ => true) true) lab' ⟨[-1, 0], [-1, 0], g1, g2, .arr [(100 : ℕ), (100 : ℕ)]⟩ st =
        (.ok (.d2 100 100 scan, .d2 100 100 cond, .d2 100 100 peaks), st') := by
  refine C91_scan_image_partial fairRng fairRng_valid fairRng_nonzero lab 0.5 true false 0 s' c h _ (plainSampledEnv_total _ _) lab' _ _ _ _
    (by unfold Within; norm_num) (by unfold Within; norm_num) (by norm_num) (by norm_num) 100 100 (by norm_num) (by norm_num) (Or.inl ?_) _ _ hg st
  rw [abs_of_nonneg (by norm_num)]; norm_num

end SimCATS
