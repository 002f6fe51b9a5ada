import Verif.Lemmas.SamplerLaws
import Mathlib.Analysis.SpecialFunctions.Pow.Real

/-!
Property theorems: distributions of sampled parameters (C104).
-/

namespace SimCATS

open Spec MeasureTheory ProbabilityTheory

section laws

variable {τ : Type} [MeasurableSpace τ] (P : Measure τ) [IsProbabilityMeasure P] (rng : DrawRng τ) (hP : NumpyLaws P rng)
  (total : ℝ × ℝ) (width : Option ℝ) (hw : ∀ w ∈ width, 0 < w)
include hP hw

/-- C104, normal samplers: the sampled values are independent and have the normal distribution with the given mean (by default the centre of
the range) and standard deviation, restricted to the range of the sampler.  In particular, sampling ends with probability 1. -/
theorem C104_normal (ht : total.1 < total.2) (std : ℝ) (hs : 0 < std) (mean : Option ℝ) (s s' : τ) (d : Sampler τ)
    (h : normalSampler rng total std mean width s = (.ok d, s')) :
    SamplesFrom P d ((gaussianReal (mean.getD ((d.range.1 + d.range.2) / 2)) (std ^ 2).toNNReal)[|Set.Icc d.range.1 d.range.2]) := by
  obtain ⟨r, t, hr, h⟩ := M.bind_ok.mp h
  have hlt := narrow_lt ht hw hr
  cases h
  exact samplesFrom_cond (hP.normal _ _ hs) measurableSet_Icc (gaussian_interval _ _ hs hlt) fun v => by
    simp only [not_or, not_lt, Set.mem_Icc]

/-- C104, uniform samplers: the sampled values are independent and uniformly distributed in the range of the sampler. -/
theorem C104_uniform (ht : total.1 < total.2) (s s' : τ) (d : Sampler τ) (h : uniformSampler rng total width s = (.ok d, s')) :
    SamplesFrom P d (volume[|Set.Icc d.range.1 d.range.2]) := by
  obtain ⟨r, t, hr, h⟩ := M.bind_ok.mp h
  have hlt := narrow_lt ht hw hr
  cases h
  have : IsProbabilityMeasure (volume[|Set.Icc r.1 r.2]) := by
    refine cond_isProbabilityMeasure_of_finite ?_ ?_
    · rw [Real.volume_Icc, ne_eq, ENNReal.ofReal_eq_zero]; linarith
    · rw [Real.volume_Icc]; exact ENNReal.ofReal_ne_top
  have := samplesFrom_cond (d := ⟨r, rng.uniform r.1 r.2, fun _ => True⟩) (hP.uniform _ _ hlt) MeasurableSet.univ
    (by rw [measure_univ]; exact one_ne_zero) fun v => by simp
  rwa [cond_univ] at this

/-- C104, log-normal samplers: the sampled values are independent and have the log-normal distribution with the given parameters, restricted to
the range of the sampler. -/
theorem C104_lognormal (ht : total.1 < total.2) (mean sigma : ℝ) (hs : 0 < sigma) (s s' : τ) (d : Sampler τ)
    (h : lognormalSampler rng total width mean sigma s = (.ok d, s')) (h0 : 0 < d.range.2) :
    SamplesFrom P d (((gaussianReal mean (sigma ^ 2).toNNReal).map Real.exp)[|Set.Icc d.range.1 d.range.2]) := by
  obtain ⟨r, t, hr, h⟩ := M.bind_ok.mp h
  have hlt := narrow_lt ht hw hr
  cases h
  have : IsProbabilityMeasure ((gaussianReal mean (sigma ^ 2).toNNReal).map Real.exp) :=
    Measure.isProbabilityMeasure_map Real.measurable_exp.aemeasurable
  refine samplesFrom_cond (hP.lognormal _ _ hs) measurableSet_Icc ?_ fun v => by simp only [not_or, not_lt, Set.mem_Icc]
  rw [Measure.map_apply Real.measurable_exp measurableSet_Icc]
  have hm : 0 < max r.1 (r.2 / 2) := lt_max_of_lt_right (half_pos h0)
  have hm' : max r.1 (r.2 / 2) < r.2 := max_lt hlt (half_lt_self h0)
  refine fun h => gaussian_interval mean sigma hs (Real.log_lt_log hm hm') (measure_mono_null ?_ h)
  intro x hx
  refine ⟨(le_max_left r.1 (r.2 / 2)).trans ?_, ?_⟩
  · rw [← Real.exp_log hm]; exact Real.exp_le_exp.2 hx.1
  · rw [← Real.exp_log h0]; exact Real.exp_le_exp.2 hx.2

/-- C104, exponential samplers: the sampled values are independent; their distance from the first limit of the range, in units of the width of
the range, has the exponential distribution with the given scale, restricted to the range of the sampler. -/
theorem C104_exponential (ht : total.1 ≠ total.2) (scale : ℝ) (hs : 0 < scale) (s s' : τ) (d : Sampler τ)
    (h : exponentialSampler rng total scale width s = (.ok d, s')) :
    SamplesFrom P d (((expMeasure (1 / scale)).map fun e => d.range.1 + e * (d.range.2 - d.range.1))[|Set.uIcc d.range.1 d.range.2]) := by
  obtain ⟨r, t, hr, h⟩ := M.bind_ok.mp h
  have hne := narrowExp_ne ht hw hr
  cases h
  have hp : IsProbabilityMeasure (expMeasure (1 / scale)) := isProbabilityMeasure_expMeasure (by positivity)
  have hm : Measurable fun e : ℝ => r.1 + e * (r.2 - r.1) := by fun_prop
  have : IsProbabilityMeasure ((expMeasure (1 / scale)).map fun e => r.1 + e * (r.2 - r.1)) :=
    Measure.isProbabilityMeasure_map hm.aemeasurable
  refine samplesFrom_cond (d := ⟨r, do
    let e ← rng.exponential scale
    pure (r.1 + e * (r.2 - r.1)), fun v => ¬ (v < min r.1 r.2 ∨ max r.1 r.2 < v)⟩) ?_ measurableSet_uIcc ?_
    fun v => by simp only [not_or, not_lt, Set.uIcc, Set.mem_Icc]
  · exact draws_map (hP.exponential _ hs) hm
  · rw [Measure.map_apply hm measurableSet_uIcc, uIcc_preimage hne, exp_interval (by positivity) zero_le_one, ne_eq, ENNReal.ofReal_eq_zero]
    have : Real.exp (-(1 / scale * 1)) < 1 := Real.exp_lt_one_iff.2 (by simpa using hs)
    linarith

/-- C104, exact proportions of exponential samplers: the probability of a value in the part of the range next to the first limit whose size is
the fraction `q` of the range. -/
theorem C104_quantile_actual (ht : total.1 ≠ total.2) (scale : ℝ) (hs : 0 < scale) (s s' : τ) (d : Sampler τ)
    (h : exponentialSampler rng total scale width s = (.ok d, s')) (q : ℝ) (h0 : 0 ≤ q) (h1 : q ≤ 1) (o : Option ℝ) :
    P (FirstSamples d o [{v | |v - d.range.1| ≤ q * |d.range.2 - d.range.1|}]) =
      ENNReal.ofReal ((1 - Real.exp (-q / scale)) / (1 - Real.exp (-1 / scale))) := by
  have hl := C104_exponential P rng hP total width hw ht scale hs s s' d h
  have hne : d.range.1 ≠ d.range.2 := by
    obtain ⟨r, t, hr, h⟩ := M.bind_ok.mp h
    have hne := narrowExp_ne ht hw hr
    cases h
    exact hne
  have hm : Measurable fun e : ℝ => d.range.1 + e * (d.range.2 - d.range.1) := by fun_prop
  have hB : MeasurableSet {v : ℝ | |v - d.range.1| ≤ q * |d.range.2 - d.range.1|} :=
    measurableSet_le (by fun_prop) measurable_const
  rw [hl o _ (by simpa using hB), List.map_cons, List.map_nil, List.prod_cons, List.prod_nil, mul_one, cond_apply measurableSet_uIcc,
    Measure.map_apply hm measurableSet_uIcc, Measure.map_apply hm (measurableSet_uIcc.inter hB), Set.preimage_inter, uIcc_preimage hne,
    near_preimage hne, exp_interval (by positivity) zero_le_one, show Set.Icc (0 : ℝ) 1 ∩ Set.Icc (-q) q = Set.Icc 0 q by
      ext x; simp only [Set.mem_inter_iff, Set.mem_Icc]; constructor
      · rintro ⟨⟨a, b⟩, c, d⟩; exact ⟨a, d⟩
      · rintro ⟨a, b⟩; exact ⟨⟨a, b.trans h1⟩, by linarith, b⟩, exp_interval (by positivity) h0]
  have hpos : 0 < 1 - Real.exp (-1 / scale) := by
    have : Real.exp (-1 / scale) < 1 := Real.exp_lt_one_iff.2 (by rw [div_lt_iff₀ hs]; linarith)
    linarith
  rw [ENNReal.ofReal_div_of_pos hpos, ENNReal.div_eq_inv_mul, show -(1 / scale * 1) = -1 / scale by ring, show -(1 / scale * q) = -q / scale by ring]

/-- C104, the documented choice of the scale: with the scale `q / ln(1 / (1 - p))`, documented to put the proportion `p` of the values into the
fraction `q` of the range, the proportion is `p / (1 - (1 - p) ^ (1 / q))`, which is always larger. -/
theorem C104_documented_scale_actual (ht : total.1 ≠ total.2) (p q : ℝ) (hp0 : 0 < p) (hp1 : p < 1) (hq0 : 0 < q) (hq1 : q < 1) (s s' : τ)
    (d : Sampler τ) (h : exponentialSampler rng total (q / Real.log (1 / (1 - p))) width s = (.ok d, s')) (o : Option ℝ) :
    P (FirstSamples d o [{v | |v - d.range.1| ≤ q * |d.range.2 - d.range.1|}]) = ENNReal.ofReal (p / (1 - (1 - p) ^ (1 / q))) ∧
      p < p / (1 - (1 - p) ^ (1 / q)) := by
  have hl : 0 < Real.log (1 / (1 - p)) := Real.log_pos (by rw [lt_div_iff₀ (by linarith)]; linarith)
  have hs : 0 < q / Real.log (1 / (1 - p)) := div_pos hq0 hl
  have hlog : Real.log (1 / (1 - p)) = -Real.log (1 - p) := by rw [one_div, Real.log_inv]
  rw [C104_quantile_actual P rng hP total width hw ht _ hs s s' d h q hq0.le hq1.le o]
  have e1 : Real.exp (-q / (q / Real.log (1 / (1 - p)))) = 1 - p := by
    rw [show -q / (q / Real.log (1 / (1 - p))) = Real.log (1 - p) by rw [hlog] at hl ⊢; field_simp, Real.exp_log (by linarith)]
  have e2 : Real.exp (-1 / (q / Real.log (1 / (1 - p)))) = (1 - p) ^ (1 / q) := by
    rw [Real.rpow_def_of_pos (by linarith), show -1 / (q / Real.log (1 / (1 - p))) = Real.log (1 - p) * (1 / q) by
      rw [hlog] at hl ⊢; field_simp]
  rw [e1, e2]
  have h3 : 0 < (1 - p) ^ (1 / q) := Real.rpow_pos_of_pos (by linarith) _
  have h4 : (1 - p) ^ (1 / q) < 1 := Real.rpow_lt_one (by linarith) (by linarith) (by positivity)
  refine ⟨by rw [sub_sub_cancel], ?_⟩
  rw [lt_div_iff₀ (by linarith)]
  nlinarith

end laws

/-- C104 is refuted for the documented choice of the scale of exponential samplers: in the documented example, 90% of the values in 50% of the
range, the proportion is 10/11. -/
theorem C104_quantile_refuted : ∃ (τ : Type) (_ : MeasurableSpace τ) (P : Measure τ) (_ : IsProbabilityMeasure P) (rng : DrawRng τ) (s s' : τ)
    (d : Sampler τ), NumpyLaws P rng ∧ exponentialSampler rng (0, 1) (0.5 / Real.log (1 / (1 - 0.9))) none s = (.ok d, s') ∧
    P (FirstSamples d none [{v | |v - 0| ≤ 0.5 * |1 - 0|}]) = 10 / 11 := by
  refine ⟨_, _, streamLaw, inferInstance, streamRng, fun _ _ => 0, fun _ _ => 0, _, streamRng_laws, rfl, ?_⟩
  have h := (C104_documented_scale_actual streamLaw streamRng streamRng_laws (0, 1) none (by simp) (by norm_num) 0.9 0.5 (by norm_num) (by norm_num)
    (by norm_num) (by norm_num) (fun _ _ => 0) (fun _ _ => 0) _ rfl none).1
  refine h.trans ?_
  rw [show ((1 : ℝ) / 0.5) = (2 : ℕ) by norm_num, Real.rpow_natCast, show (0.9 : ℝ) / (1 - (1 - 0.9) ^ 2) = 10 / 11 by norm_num,
    ENNReal.ofReal_div_of_pos (by norm_num)]
  norm_num

/-- There are generators with the documented distributions. -/
example : NumpyLaws streamLaw streamRng := streamRng_laws

/-- Example: the values of a normal sampler of the range from 0 to 4 with standard deviation 1 are distributed around 2. -/
example : ∃ d s', normalSampler streamRng (0, 4) 1 none none (fun _ _ => 0) = (.ok d, s') ∧ d.range = (0, 4) ∧
    SamplesFrom streamLaw d ((gaussianReal ((0 + 4) / 2) ((1 : ℝ) ^ 2).toNNReal)[|Set.Icc 0 4]) :=
  ⟨_, _, rfl, rfl, C104_normal streamLaw streamRng streamRng_laws (0, 4) none (by simp) (by norm_num) 1 one_pos none (fun _ _ => 0) _ _ rfl⟩

/-- Example: two values of a uniform sampler of the range from 0 to 4 are both below 1 with probability 1/16. -/
example : ∃ d s', uniformSampler streamRng (0, 4) none (fun _ _ => 0) = (.ok d, s') ∧
    streamLaw (FirstSamples d none [Set.Iio 1, Set.Iio 1]) = (1 / 4) * (1 / 4) := by
  refine ⟨_, _, rfl, ?_⟩
  rw [C104_uniform streamLaw streamRng streamRng_laws (0, 4) none (by simp) (by norm_num) (fun _ _ => 0) _ _ rfl none _
    (by simp [measurableSet_Iio])]
  simp only [List.map_cons, List.map_nil, List.prod_cons, List.prod_nil, mul_one]
  have hi : Set.Icc (0 : ℝ) 4 ∩ Set.Iio 1 = Set.Ico 0 1 := by
    ext x
    simp only [Set.mem_inter_iff, Set.mem_Icc, Set.mem_Iio, Set.mem_Ico]
    constructor
    · rintro ⟨⟨h1, -⟩, h2⟩; exact ⟨h1, h2⟩
    · rintro ⟨h1, h2⟩; exact ⟨⟨h1, by linarith⟩, h2⟩
  rw [cond_apply measurableSet_Icc, hi, Real.volume_Icc, Real.volume_Ico]
  norm_num

end SimCATS
