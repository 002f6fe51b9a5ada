import Verif.Lemmas.ScanSampler
import Verif.Lemmas.SamplerEnds
import Verif.Props.Glf
import Mathlib.MeasureTheory.Measure.Lebesgue.Basic
import Mathlib.Data.Finset.Max

/-!
Property theorems: sampled sensors (C46, C48, C64).
-/

namespace SimCATS

open Spec

variable {τ : Type}

/-! ### C46: generic sensors -/

/-- The possible results of the sampler, in terms of the drawn lever arms and peaks. -/
theorem sampleSensorGeneric_spec {rng : CfgRng τ} (hv : rng.Valid) {q : ℝ} (h0 : 0 < q) (h1 : q ≤ 1) (comp steepest : Bool) :
    (sampleSensorGeneric rng q comp steepest).Ensures fun d => LeverArms q comp d.alphaGate d.alphaDot ∧
      ∃ ps, d.peaks = some ps ∧ GenericPeaks (potLow d.alphaGate d.alphaDot) (potHigh d.alphaGate d.alphaDot) ps ∧
        (steepest = false → d.offset = 0) ∧
        (steepest = true → ∃ i, IsArgmax (gradient 999998 fun j =>
            sumPeaks ps (steepGrid (potLow d.alphaGate d.alphaDot) (potHigh d.alphaGate d.alphaDot) j)) i ∧
          d.offset = steepGrid (potLow d.alphaGate d.alphaDot) (potHigh d.alphaGate d.alphaDot) i) := by
  unfold sampleSensorGeneric
  refine (sampleAlphas_spec hv h0 h1 comp).bind ?_
  rintro ⟨gate, dot⟩ ha
  refine Proc.Ensures.bind (Q := fun p => p = .d1 2 fun i => if i = 0 then potEmpty gate else potFull gate dot)
    (ensures_ofPy (testPotential gate dot) rfl) ?_
  rintro _ rfl
  refine Proc.Ensures.bind (Q := fun l => l = (potLow gate dot, potHigh gate dot)) (Proc.ensures_pure rfl) ?_
  rintro _ rfl
  have hle : potLow gate dot ≤ potHigh gate dot := min_le_max
  refine (ensures_choice hv (by norm_num)).bind fun n hn => ?_
  refine (peakLoop_spec (Inv := GenericInv n (potLow gate dot) (potHigh gate dot)) (n := n)
    (fun ps hi _ => sampleGenericPeak_spec hv h0 n hle hi) n [] (genericInv_nil _ _ _) (by simp)).bind fun ps hps => ?_
  obtain ⟨hi, hl⟩ := hps
  rw [List.length_nil, zero_add] at hl
  have hp := genericPeaks_of_inv hi hl hn.1 hn.2
  cases steepest with
  | false => exact Proc.ensures_pure ⟨ha, ps, rfl, hp, fun _ => rfl, fun h => by cases h⟩
  | true =>
    refine Proc.Ensures.bind (Q := fun i => IsArgmax (gradient 999998 fun j =>
      sumPeaks ps (steepGrid (potLow gate dot) (potHigh gate dot) j)) i) ?_ fun i h => ?_
    · rintro s r ⟨i, h, rfl⟩
      exact ⟨i, s, rfl, h⟩
    · exact Proc.ensures_pure ⟨ha, ps, rfl, hp, fun h => (by cases h), fun _ => ⟨i, h, rfl⟩⟩

/-- C46, generic sensor: with a quality multiplier in (0, 1] sampling never raises (no sampling interval is empty, no parameter is
invalid), and every sampled sensor has lever arms and peaks in the documented ranges. -/
theorem C46_sensor_generic (rng : CfgRng τ) (hv : rng.Valid) (q : ℝ) (h0 : 0 < q) (h1 : q ≤ 1) (comp steepest : Bool) (s : τ)
    (r : Py SensorGeneric × τ) (h : sampleSensorGeneric rng q comp steepest s r) :
    ∃ d s' ps, r = (.ok d, s') ∧ LeverArms q comp d.alphaGate d.alphaDot ∧ d.peaks = some ps ∧
      GenericPeaks (potLow d.alphaGate d.alphaDot) (potHigh d.alphaGate d.alphaDot) ps := by
  obtain ⟨d, s', rfl, ha, ps, hp, hg, -⟩ := sampleSensorGeneric_spec hv h0 h1 comp steepest s r h
  exact ⟨d, s', ps, rfl, ha, hp, hg⟩

/-! ### C46: sensor scan sensors -/

/-- The possible results of the sampler. -/
theorem sampleScanSensor_spec {rng : CfgRng τ} (hv : rng.Valid) (hz : rng.NormalNonzero) {q : ℝ} (h0 : 0 < q) (h1 : q ≤ 1)
    (comp : Bool) :
    (sampleScanSensor rng q comp).Ensures fun d => ∃ gate dot base ps rise b1 b2 c1 c2,
      LeverArms q comp gate dot ∧ (∀ k, d.alphaGate k = gate) ∧ (∀ k, d.alphaDot k = dot) ∧ (∀ k, d.offset k = 0) ∧ d.defs = [] ∧
      (0.1 ≤ c1 ∧ c1 ≤ 0.3) ∧ (0.1 ≤ c2 ∧ c2 ≤ 0.3) ∧ d.alphaSensor 1 = (0.99, c1) ∧ d.alphaSensor 2 = (c2, 0.99) ∧
      (0 < (d.alphaSensor 0).1 ∧ 0 < (d.alphaSensor 0).2 ∧ max (d.alphaSensor 0).1 (d.alphaSensor 0).2 = 0.1) ∧
      ((-0.688 ≤ base.1 ∧ base.1 ≤ -0.509) ∧ (-0.688 ≤ base.2 ∧ base.2 ≤ -0.509)) ∧
      d.peaks = some ps ∧ ScanPeaks (dot2 (d.alphaSensor 0) base - 0.05) ps ∧
      d.rise = some (RiseGlf.sensorFunction rise) ∧
      (rise.mu0 = 0 ∧ rise.g.A = 0 ∧ rise.g.C = 1 ∧ rise.fullyCondPct = 0.95 ∧ (400 ≤ rise.g.B ∧ rise.g.B ≤ 600) ∧
        (0.01 ≤ rise.g.nu ∧ rise.g.nu ≤ 1) ∧ (0.01 ≤ rise.g.Q ∧ rise.g.Q ≤ 100)) ∧
      (∀ i : Fin 500000, 1.05 * sumPeaks ps (linspace (-5) 5 500000 i) ≤ rise.g.K) ∧
      d.barrier1 = BarrierGlf.barrier b1 ∧ d.barrier2 = BarrierGlf.barrier b2 ∧
      b1.pinchOffPct = 0.001 ∧ b2.pinchOffPct = 0.001 ∧ b1.g.Ok ∧ b2.g.Ok ∧
      b1.fullyCondPct = 0.999 ∧ b2.fullyCondPct = 0.999 ∧ b1.g.C = 1 ∧ b2.g.C = 1 ∧ 0 < b1.g.B ∧ 0 < b2.g.B ∧
      b1.g.A = 0 ∧ b2.g.A = 0 ∧ b1.g.K = 0.25 * q ∧ b2.g.K = 0.25 * q ∧
      b1.offset = dot2 (d.alphaSensor 1) base - inverseGlf b1.g 0 (0.25 * q * 0.001) ∧
      b2.offset = dot2 (d.alphaSensor 2) base - inverseGlf b2.g 0 (0.25 * q * 0.001) := by
  unfold sampleScanSensor
  refine (ensures_sampleNormal hv hz (by norm_num)).bind fun ratio hr => ?_
  have hpos : 0 < ratio := lt_of_le_of_ne hr.1 (Ne.symm hr.2.2)
  refine Proc.Ensures.bind (Q := fun v => v = 1 / ratio) (ensures_ofPy (if_neg hr.2.2) rfl) ?_
  rintro _ rfl
  have hinv : 0 < 1 / ratio := by positivity
  have hmax : 0 < max 1 (1 / ratio) := lt_max_of_lt_left one_pos
  have hs : 0 < 1 / max 1 (1 / ratio) * 0.1 ∧ 0 < 1 / ratio / max 1 (1 / ratio) * 0.1 ∧
      max (1 / max 1 (1 / ratio) * 0.1) (1 / ratio / max 1 (1 / ratio) * 0.1) = 0.1 := by
    refine ⟨by positivity, by positivity, ?_⟩
    rw [← max_mul_of_nonneg _ _ (by norm_num), max_div_div_right hmax.le, div_self hmax.ne', one_mul]
  generalize 1 / max 1 (1 / ratio) * 0.1 = sens1 at hs ⊢
  generalize 1 / ratio / max 1 (1 / ratio) * 0.1 = sens2 at hs ⊢
  refine (ensures_sampleUniform hv (by norm_num)).bind fun c1 hc1 => ?_
  refine (ensures_sampleUniform hv (by norm_num)).bind fun c2 hc2 => ?_
  refine (sampleAlphas_spec hv h0 h1 comp).bind ?_
  rintro ⟨gate, dot⟩ ha
  refine (ensures_sampleUniform hv (by norm_num)).bind fun x hx => ?_
  refine (ensures_sampleUniform hv (by norm_num)).bind fun y hy => ?_
  refine (sampleSensorFunction_spec hv hz _ q).bind ?_
  rintro ⟨ps, rise⟩ ⟨f1, f2, f3, -⟩
  refine (sampleBarrier_spec hv _ _ _ _ _).bind fun b1 hb1 => ?_
  refine (sampleBarrier_spec hv _ _ _ _ _).bind fun b2 hb2 => ?_
  obtain ⟨p1, p2, p3, p4, p5, p6, p7, p8, p9⟩ := hb1
  obtain ⟨r1, r2, r3, r4, r5, r6, r7, r8, r9⟩ := hb2
  have e0 : sens1 * x + sens2 * y - 0.005 * 10 = dot2 (sens1, sens2) (x, y) - 0.05 := by
    unfold dot2; norm_num
  simp only at f1 f2 f3
  rw [e0] at f1
  have p6' := p6.1; have p7' := p7.1; have p8' := p8.1; have r6' := r6.1; have r7' := r7.1; have r8' := r8.1
  norm_num at p6' p7' p8' r6' r7' r8'
  have hk : (0 : ℝ) < 0.25 * q := by positivity
  have k1 : b1.g.A ≠ b1.g.K := by rw [p3, p4]; exact hk.ne
  have k2 : b2.g.A ≠ b2.g.K := by rw [r3, r4]; exact hk.ne
  refine Proc.ensures_pure ⟨gate, dot, (x, y), ps, rise, b1, b2, c1, c2, ha, fun _ => rfl, fun _ => rfl, fun _ => rfl, rfl, hc1, hc2,
    rfl, rfl, hs, ⟨hx, hy⟩, rfl, f1, rfl, f2, f3, rfl, rfl, p1, r1, ?_, ?_, p2, r2, p5, r5, by linarith, by linarith, p3, r3, p4, r4,
    p9, r9⟩
  · exact ⟨by linarith, by linarith, by rw [p5]; norm_num, k1, by linarith⟩
  · exact ⟨by linarith, by linarith, by rw [r5]; norm_num, k2, by linarith⟩

/-- C46, sensor scan sensor: with a quality multiplier in (0, 1] sampling never raises (if no normally distributed value is exactly 0),
and every sampled sensor has the documented lever arms, peaks and rise. -/
theorem C46_sensor_scan (rng : CfgRng τ) (hv : rng.Valid) (hz : rng.NormalNonzero) (q : ℝ) (h0 : 0 < q) (h1 : q ≤ 1) (comp : Bool)
    (s : τ) (r : Py ScanSensor × τ) (h : sampleScanSensor rng q comp s r) :
    ∃ d s' base, r = (.ok d, s') ∧ SampledScan q comp d base := by
  obtain ⟨d, s', rfl, gate, dot, base, ps, rise, b1, b2, c1, c2, ha, hg, hd, ho, hdef, hc1, hc2, a1, a2, hs, hb, hp, hsp, hr, hrise,
    hK, -⟩ := sampleScanSensor_spec hv hz h0 h1 comp s r h
  refine ⟨d, s', base, rfl, hb, ⟨gate, dot, ha, hg, hd⟩, hs, by rw [a1]; exact ⟨rfl, hc1⟩, by rw [a2]; exact ⟨rfl, hc2⟩,
    ⟨ps, hp, hsp⟩, hdef, ho, ⟨rise, ps, hr, hp, hrise.1, hrise.2.1, hrise.2.2.1, ?_, ?_, ?_, hrise.2.2.2.1, hK⟩⟩
  · linarith [hrise.2.2.2.2.1.1]
  · have := hrise.2.2.2.2.2.1.1; norm_num at this; linarith
  · have := hrise.2.2.2.2.2.2.1; norm_num at this; linarith

/-! ### C48 -/

/-- C48 for the barriers that can be built from the sampled parameters. -/
theorem pinchesAt_of {b : BarrierGlf} {K start : ℝ} (ok : b.g.Ok) (hC : b.g.C = 1) (hA : b.g.A = 0) (hK : b.g.K = K) (hpos : 0 < K)
    (hB : 0 < b.g.B) (hp : b.pinchOffPct = 0.001) (hf : b.fullyCondPct = 0.999)
    (ho : b.offset = start - inverseGlf b.g 0 (K * 0.001)) : PinchesAt K start b.barrier := by
  have hm : 0 < b.g.B * (b.g.K - b.g.A) := by rw [hA, hK, sub_zero]; exact mul_pos hB hpos
  have hp' : 0 < b.pinchOffPct ∧ b.pinchOffPct < 1 := by rw [hp]; norm_num
  have hf' : 0 < b.fullyCondPct ∧ b.fullyCondPct < 1 := by rw [hf]; norm_num
  have hmin : min b.g.A b.g.K = 0 := by rw [hA, hK]; exact min_eq_left hpos.le
  have habs : |b.g.K - b.g.A| = K := by rw [hA, hK, sub_zero]; exact abs_of_pos hpos
  obtain ⟨v1, v2⟩ := C18_barrier_points_partial b ok hC hp' hf'
  refine ⟨?_, ?_, (C17_glf_monotone b.g ok b.offset).1 hm, fun t => ?_, ?_, ?_⟩
  · simp only [BarrierGlf.barrier]
    unfold BarrierGlf.pinchOff
    rw [habs, hmin, hp, add_zero, ho]
    have := inverseGlf_shift ok.B 0 (start - inverseGlf b.g 0 (K * 0.001)) (K * 0.001)
    rw [zero_add] at this
    rw [this]
    ring
  · exact ((C18_barrier_order b ok hC hp' hf').1 hm).2 (by rw [hp, hf]; norm_num)
  · have := C18_barrier_between b ok hC t
    rw [hmin, hA, hK, max_eq_right hpos.le] at this
    exact this
  · simp only [BarrierGlf.barrier]
    rw [v1, hmin, habs, hp]; ring
  · simp only [BarrierGlf.barrier]
    rw [v2, hmin, habs, hf]; ring

/-- C48: a sampled barrier function rises from 0 to `height * quality_multiplier` and its pinch-off point is exactly the requested
offset. -/
theorem C48_pinch_off (rng : CfgRng τ) (hv : rng.Valid) (offset height q : ℝ) (hh : 0 < height) (hq : 0 < q) (s : τ)
    (r : Py BarrierGlf × τ) (h : sampleBarrier rng offset height q 0.001 0.999 s r) :
    ∃ b s', r = (.ok b, s') ∧ PinchesAt (height * q) offset b.barrier := by
  obtain ⟨b, s', rfl, p1, p2, p3, p4, p5, p6, p7, p8, p9⟩ := sampleBarrier_spec hv offset height q 0.001 0.999 s r h
  have p6' := p6.1; have p7' := p7.1; have p8' := p8.1
  norm_num at p6' p7' p8'
  have hk : 0 < height * q := mul_pos hh hq
  exact ⟨b, s', rfl, pinchesAt_of ⟨by linarith, by linarith, by rw [p5]; norm_num, by rw [p3, p4]; exact hk.ne, by linarith⟩ p5 p3 p4 hk
    (by linarith) p1 p2 p9⟩

/-- C48: the offset only moves the barrier function: with the same random numbers, barriers sampled with two offsets are copies of each
other, shifted by the difference of the offsets. -/
theorem C48_shifted (rng : CfgRng τ) (o1 o2 height q pct full : ℝ) (s s1 s2 : τ) (b1 b2 : BarrierGlf)
    (h1 : sampleBarrier rng o1 height q pct full s (.ok b1, s1)) (h2 : sampleBarrier rng o2 height q pct full s (.ok b2, s2)) (t : ℝ) :
    b2.getValue (t + (o2 - o1)) = b1.getValue t ∧ s1 = s2 := by
  have key : ∀ (o : ℝ) (b : BarrierGlf) (t : τ), sampleBarrier rng o height q pct full s (.ok b, t) →
      ∃ B nu sh ta tb, rng.uniform 20 40 s = (.ok B, ta) ∧ rng.uniform 0.000001 0.0001 ta = (.ok nu, tb) ∧
        rng.uniform 0.01 100 tb = (.ok sh, t) ∧ b = ⟨pct, full, ⟨0, height * q, B, nu, sh, 1⟩,
          o - inverseGlf ⟨0, height * q, B, nu, sh, 1⟩ 0 (height * q * pct)⟩ := by
    intro o b t h
    unfold sampleBarrier at h
    rcases h with ⟨B, ta, hB, h⟩ | ⟨e, ta, -, h⟩
    · rcases h with ⟨nu, tb, hnu, h⟩ | ⟨e, tb, -, h⟩
      · rcases h with ⟨sh, tc, hsh, h⟩ | ⟨e, tc, -, h⟩
        · have h' : (Except.ok b, t) = ((BarrierGlf.mk? ⟨pct, full, ⟨0, height * q, B, nu, sh, 1⟩,
              o - inverseGlf ⟨0, height * q, B, nu, sh, 1⟩ 0 (height * q * pct)⟩, tc) : Py BarrierGlf × τ) := h
          unfold BarrierGlf.mk? at h'
          split_ifs at h' with hc
          · cases h'
          · cases h'
            exact ⟨B, nu, sh, ta, tb, (sampleUniform_iff.1 hB).symm, (sampleUniform_iff.1 hnu).symm, (sampleUniform_iff.1 hsh).symm, rfl⟩
        · exact nomatch h
      · exact nomatch h
    · exact nomatch h
  obtain ⟨B, nu, sh, ta, tb, e1, e2, e3, rfl⟩ := key o1 b1 s1 h1
  obtain ⟨B', nu', sh', ta', tb', f1, f2, f3, rfl⟩ := key o2 b2 s2 h2
  rw [e1] at f1
  cases f1
  rw [e2] at f2
  cases f2
  rw [e3] at f3
  cases f3
  refine ⟨?_, rfl⟩
  unfold BarrierGlf.getValue
  simp only
  rw [← glf_shift _ _ (o2 - o1) t]
  congr 1
  ring

/-- C48 for complete sensors: in a sampled sensor scan sensor, both barriers pinch off exactly at the base point, that is, at these
voltages of the sensor gates, without voltages and electrons on the double dot. -/
theorem C48_scan (rng : CfgRng τ) (hv : rng.Valid) (hz : rng.NormalNonzero) (q : ℝ) (h0 : 0 < q) (h1 : q ≤ 1) (comp : Bool) (s s' : τ)
    (d : ScanSensor) (h : sampleScanSensor rng q comp s (.ok d, s')) :
    ∃ base, SampledScan q comp d base ∧ PinchesAt (0.25 * q) (d.mu 1 (0, 0) (0, 0) base) d.barrier1 ∧
      PinchesAt (0.25 * q) (d.mu 2 (0, 0) (0, 0) base) d.barrier2 := by
  obtain ⟨d', s'', e, gate, dot, base, ps, rise, b1, b2, c1, c2, ha, hg, hd, ho, hdef, hc1, hc2, a1, a2, hs, hb, hp, hsp, hr, hrise,
    hK, e1, e2, p1, p2, ok1, ok2, f1, f2, C1, C2, B1, B2, A1, A2, K1, K2, o1, o2⟩ := sampleScanSensor_spec hv hz h0 h1 comp s _ h
  cases e
  have hpos : (0 : ℝ) < 0.25 * q := by positivity
  refine ⟨base, ⟨hb, ⟨gate, dot, ha, hg, hd⟩, hs, by rw [a1]; exact ⟨rfl, hc1⟩, by rw [a2]; exact ⟨rfl, hc2⟩,
    ⟨ps, hp, hsp⟩, hdef, ho, ⟨rise, ps, hr, hp, hrise.1, hrise.2.1, hrise.2.2.1, ?_, ?_, ?_, hrise.2.2.2.1, hK⟩⟩, ?_, ?_⟩
  · linarith [hrise.2.2.2.2.1.1]
  · have := hrise.2.2.2.2.2.1.1; norm_num at this; linarith
  · have := hrise.2.2.2.2.2.2.1; norm_num at this; linarith
  · have : d.mu 1 (0, 0) (0, 0) base = dot2 (d.alphaSensor 1) base := by
      unfold ScanSensor.mu dot2
      rw [ho]
      ring
    rw [this, e1]
    exact pinchesAt_of ok1 C1 A1 K1 hpos B1 p1 f1 o1
  · have : d.mu 2 (0, 0) (0, 0) base = dot2 (d.alphaSensor 2) base := by
      unfold ScanSensor.mu dot2
      rw [ho]
      ring
    rw [this, e2]
    exact pinchesAt_of ok2 C2 A2 K2 hpos B2 p2 f2 o2

end SimCATS
