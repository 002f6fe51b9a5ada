import Verif.Lemmas.GeometryEnds
import Verif.Props.GeometrySampler
import Verif.Props.SteepestPoint
import Verif.Spec.SampledConfig

/-!
Sampled configurations (C47, C61, C66).
-/

namespace SimCATS

open Spec

variable {τ : Type}

/-! ### C61: the geometry sampler and fair generators -/

/-- C61: with a generator that reaches all intervals of positive probability, sampling an ideal charge stability diagram ends with a
configuration. -/
theorem C61_fair_ends (rng : CfgRng τ) (hv : rng.Valid) (hf : FairRng rng) (lab : Labelling) (s : τ) :
    ∃ cfg s', sampleIdealCSD rng lab s (.ok cfg, s') :=
  C61_ends rng hv lab (sampleSlopes_ends hf) (sampleInterdotSize_ends hv hf) s

/-! ### C47 -/

theorem quantile_expScale {q : ℝ} (h : 0 < q) : Quantile99 (expScale q) (0.6 * q) := by
  refine ⟨expScale_pos h, ?_⟩
  unfold expScale
  have hl : Real.log (1 / (1 - 0.99)) ≠ 0 := (Real.log_pos (by norm_num)).ne'
  rw [div_div_cancel₀ (by positivity), ← Real.log_inv, Real.exp_log (by norm_num)]
  norm_num

/-- C47, part that holds: each sampler of distortions of the sensor that is given the quality multiplier scales the strength of the
noise and the frequency of telegraph noise with it. -/
theorem C47_samplers_partial (q : ℝ) (h : 0 < q) : ScaledDistortions q (samplePotDistortions q) (sampleRespDistortions q) := by
  have e1 : 1 / 6 * q = q / 6 := by ring
  have e2 : (0.01 : ℝ) * q = q / 100 := by ring
  refine ⟨⟨.exponential (1e-10, 0.0005) (expScale q), 74.56704 * 0.03 / 100, 3.491734e-05, 2.53855325e-05, ?_, _, rfl,
    quantile_expScale h⟩, ⟨.exponential (1e-10, 0.0005) (expScale q), 10000 * 0.03 / 100, 0.047453767599999995, 0.0152373696, ?_, _,
    rfl, quantile_expScale h⟩⟩
  · rw [← e1]; rfl
  · rw [← e2]; rfl

/-- The distortions of a sampled configuration. -/
theorem sampleConfig_distortions {rng : CfgRng τ} {lab : Labelling} {ty : String} {q : ℝ} {comp steepest : Bool} {s s' : τ}
    {c : SampledConfig} (h : sampleConfig rng lab ty q comp steepest s (.ok c, s')) :
    c.occ = sampleOccDistortions 1 ∧ c.pot = samplePotDistortions 1 ∧ c.resp = sampleRespDistortions 1 := by
  unfold sampleConfig at h
  by_cases hq : 0 < q ∧ q ≤ 1
  · rw [if_neg (not_not.2 hq)] at h
    rcases h with ⟨i, s1, -, h⟩ | ⟨e, s1, -, h⟩
    · rcases h with ⟨d, s2, -, h⟩ | ⟨e, s2, -, h⟩
      · cases h
        exact ⟨rfl, rfl, rfl⟩
      · exact nomatch h
    · exact nomatch h
  · rw [if_pos hq] at h
    exact nomatch h

/-- C47, actual behaviour: whatever the quality multiplier is, the distortions are those for the multiplier 1. -/
theorem C47_actual (rng : CfgRng τ) (lab : Labelling) (ty : String) (q : ℝ) (comp steepest : Bool) (s s' : τ) (c : SampledConfig)
    (h : sampleConfig rng lab ty q comp steepest s (.ok c, s')) : ScaledDistortions 1 c.pot c.resp := by
  obtain ⟨-, h1, h2⟩ := sampleConfig_distortions h
  rw [h1, h2]
  exact C47_samplers_partial 1 one_pos

/-- C47 is violated: no configuration sampled with a quality multiplier below 1 has distortions that are scaled with it. -/
theorem C47_refuted (rng : CfgRng τ) (lab : Labelling) (ty : String) (q : ℝ) (h1 : q < 1) (comp steepest : Bool) (s s' : τ)
    (c : SampledConfig) (h : sampleConfig rng lab ty q comp steepest s (.ok c, s')) : ¬ ScaledDistortions q c.pot c.resp := by
  intro hs
  obtain ⟨_, _, _, _, e1, -⟩ := (C47_actual rng lab ty q comp steepest s s' c h).potential
  obtain ⟨_, _, _, _, e2, -⟩ := hs.potential
  rw [e1] at e2
  simp only [List.cons.injEq, SigDistortion.telegraph.injEq] at e2
  have := e2.2.1.2.2.2
  linarith

/-! ### C66 -/

/-- C66: a quality multiplier outside of (0, 1] raises `ValueError` before anything is drawn. -/
theorem C66_quality (rng : CfgRng τ) (lab : Labelling) (ty : String) (q : ℝ) (comp steepest : Bool) (hq : ¬ (0 < q ∧ q ≤ 1)) (s : τ)
    (r : Py SampledConfig × τ) : sampleConfig rng lab ty q comp steepest s r ↔ r = (.error .valueError, s) := by
  unfold sampleConfig
  rw [if_pos hq]
  exact Iff.rfl

example (lab : Labelling) (r : Py SampledConfig × Unit) := C66_quality midRng lab "SensorGeneric" 1.5 true false (by norm_num) () r

/-- C66: an unknown type of sensor raises `ValueError`. -/
theorem C66_type (rng : CfgRng τ) (hv : rng.Valid) (lab : Labelling) (ty : String) (q : ℝ) (comp steepest : Bool)
    (h1 : ty ≠ "SensorGeneric") (h2 : ty ≠ "SensorScanSensorGeneric") (s : τ) (r : Py SampledConfig × τ)
    (h : sampleConfig rng lab ty q comp steepest s r) : r.1 = .error .valueError := by
  by_cases hq : 0 < q ∧ q ≤ 1
  · unfold sampleConfig at h
    rw [if_neg (not_not.2 hq)] at h
    rcases h with ⟨i, s1, -, h⟩ | ⟨e, s1, h, -⟩
    · unfold sampleSensorOfType at h
      rw [if_neg h1, if_neg h2] at h
      rcases h with ⟨d, s2, h, -⟩ | ⟨e, s2, h, h'⟩
      · have h' : ((.ok d, s2) : Py SensorObject × τ) = (.error .valueError, s1) := h
        exact nomatch h'
      · have h'' : ((.error e, s2) : Py SensorObject × τ) = (.error .valueError, s1) := h
        cases h''
        rw [h']
    · obtain ⟨_, _, h', -⟩ := C46_geometry rng hv lab s _ h
      exact nomatch h'
  · rw [(C66_quality rng lab ty q comp steepest hq s r).1 h]

example (lab : Labelling) (r : Py SampledConfig × Unit) := C66_type midRng midRng_valid lab "SensorRiseGLF" 0.5 true false (by decide) (by decide) () r

/-- C66: with valid arguments the sampler never raises; the configuration has the voltage limits for which it was sampled, a valid
ideal charge stability diagram and a valid sensor of the requested type. -/
theorem C66_valid (rng : CfgRng τ) (hv : rng.Valid) (hz : rng.NormalNonzero) (lab : Labelling) (ty : String) (q : ℝ) (h0 : 0 < q)
    (h1 : q ≤ 1) (comp steepest : Bool) (hty : ty = "SensorGeneric" ∨ ty = "SensorScanSensorGeneric") (s : τ)
    (r : Py SampledConfig × τ) (h : sampleConfig rng lab ty q comp steepest s r) :
    ∃ c s', r = (.ok c, s') ∧ c.limG1 = (-0.2, -0.06) ∧ c.limG2 = (-0.2, -0.06) ∧ c.limS1 = (-1, 0) ∧ c.limS2 = (-1, 0) ∧
      CfgOk c.ideal ∧ (∃ s1, sampleIdealCSD rng lab s (.ok c.ideal, s1)) ∧ SensorOk ty q comp c.sensor := by
  unfold sampleConfig at h
  rw [if_neg (not_not.2 ⟨h0, h1⟩)] at h
  rcases h with ⟨i, s1, hi, h⟩ | ⟨e, s1, h, -⟩
  · obtain ⟨_, _, e, hcfg, -⟩ := C46_geometry rng hv lab s _ hi
    cases e
    have key : ∀ x, sampleSensorOfType rng ty q comp steepest s1 x → ∃ d s2, x = (.ok d, s2) ∧ SensorOk ty q comp d := by
      intro x hx
      unfold sampleSensorOfType at hx
      by_cases ht : ty = "SensorGeneric"
      · rw [if_pos ht] at hx
        rcases hx with ⟨d, s2, hd, hx⟩ | ⟨e, s2, hx, -⟩
        · obtain ⟨_, _, ps, e, a1, a2, a3⟩ := C46_sensor_generic rng hv q h0 h1 comp steepest s1 _ hd
          cases e
          exact ⟨.generic d, s2, hx, ht, a1, ps, a2, a3⟩
        · obtain ⟨_, _, _, e, -⟩ := C46_sensor_generic rng hv q h0 h1 comp steepest s1 _ hx
          exact nomatch e
      · have ht' := hty.resolve_left ht
        rw [if_neg ht, if_pos ht'] at hx
        rcases hx with ⟨d, s2, hd, hx⟩ | ⟨e, s2, hx, -⟩
        · exact ⟨.scan d, s2, hx, ht', C48_scan rng hv hz q h0 h1 comp s1 s2 d hd⟩
        · obtain ⟨_, _, _, e, -⟩ := C46_sensor_scan rng hv hz q h0 h1 comp s1 _ hx
          exact nomatch e
    rcases h with ⟨d, s2, hd, h⟩ | ⟨e, s2, h, -⟩
    · obtain ⟨_, _, e, hok⟩ := key _ hd
      cases e
      exact ⟨_, s2, h, rfl, rfl, rfl, rfl, hcfg, ⟨s1, hi⟩, hok⟩
    · obtain ⟨_, _, e, -⟩ := key _ h
      exact nomatch e
  · obtain ⟨_, _, h', -⟩ := C46_geometry rng hv lab s _ h
    exact nomatch h'

/-- C66: with a generator that reaches all intervals of positive probability, sampling a configuration ends - always for sensor scan
sensors and compensated sensors, and for other sensors unless the sensor has the same potential at both voltage limits. -/
theorem C66_ends (rng : CfgRng τ) (hv : rng.Valid) (hf : FairRng rng) (lab : Labelling) (ty : String) (q : ℝ) (comp steepest : Bool)
    (hr : ty = "SensorGeneric" → comp = false → ∀ s gate dot s', sampleAlphas rng q comp s (.ok (gate, dot), s') →
      potEmpty gate ≠ potFull gate dot) (s : τ) :
    ∃ r, sampleConfig rng lab ty q comp steepest s r := by
  by_cases hq : 0 < q ∧ q ≤ 1
  · obtain ⟨i, s1, hi⟩ := C61_fair_ends rng hv hf lab s
    have key : ∃ x, sampleSensorOfType rng ty q comp steepest s1 x := by
      unfold sampleSensorOfType
      by_cases ht : ty = "SensorGeneric"
      · rw [if_pos ht]
        refine Proc.Ends.bind' (fun t => ?_) (fun _ => Proc.ends_pure _) s1
        cases hc : comp with
        | true => exact C64_compensated_ends rng hv hf q hq.1 hq.2 steepest t
        | false =>
          subst hc
          exact C64_ends rng hv hf q hq.1 hq.2 false steepest t fun gate dot s' h => hr ht rfl t gate dot s' h
      · rw [if_neg ht]
        by_cases ht' : ty = "SensorScanSensorGeneric"
        · rw [if_pos ht']
          exact Proc.Ends.bind' (C64_scan_ends rng hf q comp) (fun _ => Proc.ends_pure _) s1
        · rw [if_neg ht']
          exact ends_ofPy _ s1
    obtain ⟨⟨x, s2⟩, hx⟩ := key
    unfold sampleConfig
    rw [if_neg (not_not.2 hq)]
    cases x with
    | ok d => exact ⟨_, Or.inl ⟨i, s1, hi, Or.inl ⟨d, s2, hx, rfl⟩⟩⟩
    | error e => exact ⟨_, Or.inl ⟨i, s1, hi, Or.inr ⟨e, s2, hx, rfl⟩⟩⟩
  · exact ⟨_, (C66_quality rng lab ty q comp steepest hq s _).2 rfl⟩

/-- Both types of configurations are sampled by a concrete generator, also with a quality multiplier below 1. -/
theorem fair_config (lab : Labelling) (ty : String) (hty : ty = "SensorGeneric" ∨ ty = "SensorScanSensorGeneric") (steepest : Bool) :
    ∃ c s', sampleConfig fairRng lab ty 0.5 true steepest 0 (.ok c, s') := by
  obtain ⟨r, hr⟩ := C66_ends fairRng fairRng_valid fairRng_fair lab ty 0.5 true steepest (by simp) 0
  obtain ⟨c, s', rfl, -⟩ := C66_valid fairRng fairRng_valid fairRng_nonzero lab ty 0.5 (by norm_num) (by norm_num) true steepest hty 0 r hr
  exact ⟨c, s', hr⟩

/-- The hypotheses of C47 and C66 can be met. -/
example (lab : Labelling) : ∃ c s', sampleConfig fairRng lab "SensorGeneric" 0.5 true true 0 (.ok c, s') ∧
    ¬ ScaledDistortions 0.5 c.pot c.resp := by
  obtain ⟨c, s', h⟩ := fair_config lab "SensorGeneric" (Or.inl rfl) true
  exact ⟨c, s', h, C47_refuted fairRng lab _ 0.5 (by norm_num) true true 0 s' c h⟩

end SimCATS
