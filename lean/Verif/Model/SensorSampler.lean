import Verif.Model.Proc
import Verif.Model.ScanSensor
import Mathlib.Analysis.SpecialFunctions.Log.Basic
import Mathlib.Data.Finset.Max
import Mathlib.Data.Finset.Lattice.Fold

/-!
Model of the sensor samplers in simcats/config_samplers/_GaAs_v1_random_variations_v3_config_sampler.py.
Line numbers without a file name refer to this file.

The code uses several generators (`rng` and the default generators of the sampling classes); `τ` is their joint state.
-/

namespace SimCATS

/-- The lever arms of the plunger gates and of the dots.
Models simcats/config_samplers/_GaAs_v1_random_variations_v3_config_sampler.py:266-314 and the same code in 737-782. -/
noncomputable def sampleAlphas {τ : Type} (rng : CfgRng τ) (q : ℝ) (compensated : Bool) : Proc τ ((ℝ × ℝ) × (ℝ × ℝ)) := do
  let range1 : ℝ × ℝ := if compensated then (0.0001, 0.0005) else (0.02805, 0.15093)
  let dot1Max : ℝ := -0.0007994 + q * (-0.0000961 - -0.0007994)
  let dot2Max : ℝ := -0.0005214 + q * (-0.0000630 - -0.0005214)
  let gate1 ← Proc.call (rng.uniform range1.1 range1.2)
  let gate2 ← Proc.call (rng.uniform (0.5 * gate1) (2 * gate1))
  let dot1 ← Proc.call (rng.uniform (-0.0007994) (min (2 * gate1 * (-0.03) / 100) dot1Max))
  let high2 := min (min (0.5 * dot1) (2 * gate2 * (-0.03) / 100)) dot2Max
  let high2' := open Classical in if high2 < -0.0005214 then dot2Max else high2
  let dot2 ← Proc.call (rng.uniform (max (2 * dot1) (-0.0005214)) high2')
  pure ((gate1, gate2), (dot1, dot2))

/-- `np.min([np.abs(mu - p.mu0) for p in peaks])` for a non-empty list; `ValueError` otherwise is unreachable (`i > 0`).
Library function, used in simcats/config_samplers/_GaAs_v1_random_variations_v3_config_sampler.py:349 and 350-351. -/
noncomputable def minDist (ps : List Peak) (mu : ℝ) : ℝ := ((ps.map fun p => |mu - p.mu0|).min?).getD 0

/-- The test that ends the search for a position; the state is the position and the counter.
Models simcats/config_samplers/_GaAs_v1_random_variations_v3_config_sampler.py:349-352 (negated). -/
def placed (n : ℕ) (lo hi : ℝ) (ps : List Peak) (st : ℝ × ℕ) : Prop :=
  ¬ (minDist ps st.1 ≤ (hi - lo) / (n * 1.5) ∧ st.2 < 1000 ∨ minDist ps st.1 ≤ (hi - lo) / (n * 2))

/-- The position of a peak.
Models simcats/config_samplers/_GaAs_v1_random_variations_v3_config_sampler.py:342-354. -/
noncomputable def samplePosition {τ : Type} (rng : CfgRng τ) (n : ℕ) (lo hi : ℝ) (ps : List Peak) : Proc τ ℝ := do
  let mu ← Proc.call (rng.uniform lo hi)
  match ps with
  | [] => pure mu
  | _ :: _ => do
    let st ← (fun s r => Proc.While (placed n lo hi ps) (fun st => do
      let mu ← Proc.call (rng.uniform lo hi)
      pure (mu, st.2 + 1)) (mu, 0) s r : Proc τ (ℝ × ℕ))
    pure st.1

/-- The scale of the exponential distribution used for heights and noise: 99% of the values are below `0.6 * q` of the range.
Models simcats/config_samplers/_GaAs_v1_random_variations_v3_config_sampler.py:279-281. -/
noncomputable def expScale (q : ℝ) : ℝ := 0.6 * q / Real.log (1 / (1 - 0.99))

/-- One pass of the loop over the peaks; `ps` are the peaks sampled so far.
Models simcats/config_samplers/_GaAs_v1_random_variations_v3_config_sampler.py:334-374. -/
noncomputable def sampleGenericPeak {τ : Type} (rng : CfgRng τ) (q : ℝ) (n : ℕ) (lo hi : ℝ) (ps : List Peak) : Proc τ Peak := do
  let gamma ← Proc.call (rng.uniform 0.0009636 0.0029509)
  let mu ← samplePosition rng n lo hi ps
  let offset ← match ps with
    | [] => Proc.call (rng.uniform (-0.42275) (-0.0838))
    | p :: _ => Proc.call (rng.uniform (p.offset * 1.2) (p.offset * 0.8))
  let height ← match ps with
    | [] => Proc.sample (exponentialSampler rng.toDrawRng (0.19204, 0.02245) (expScale q) none)
    | p :: _ => Proc.call (rng.uniform (p.height * 0.8) (p.height * 1.2))
  Proc.ofPy (Peak.mk? ⟨.lorentzian, mu, gamma, height, offset⟩)

/-- `for i in range(m): peaks.append(...)`.
Models simcats/config_samplers/_GaAs_v1_random_variations_v3_config_sampler.py:340-374 and 522-523. -/
noncomputable def peakLoop {τ : Type} (add : List Peak → Proc τ Peak) : ℕ → List Peak → Proc τ (List Peak)
  | 0, ps => pure ps
  | m + 1, ps => do
    let p ← add ps
    peakLoop add m (ps ++ [p])

/-- `np.gradient(y)`: central differences, one-sided at the ends.
Library function (numpy), used in simcats/config_samplers/_GaAs_v1_random_variations_v3_config_sampler.py:384. -/
noncomputable def gradient (n : ℕ) (y : Fin (n + 2) → ℝ) (i : Fin (n + 2)) : ℝ :=
  if h0 : i.val = 0 then y ⟨1, by omega⟩ - y ⟨0, by omega⟩
  else if h1 : i.val = n + 1 then y ⟨n + 1, by omega⟩ - y ⟨n, by omega⟩
  else (y ⟨i.val + 1, by omega⟩ - y ⟨i.val - 1, by omega⟩) / 2

/-- `np.argmax(y)` is the first index of the greatest value.
Library function, used in simcats/config_samplers/_GaAs_v1_random_variations_v3_config_sampler.py:385. -/
def IsArgmax {n : ℕ} (y : Fin n → ℝ) (i : Fin n) : Prop := (∀ j, y j ≤ y i) ∧ ∀ j, j < i → y j < y i

/-- The grid on which the steepest point is searched.
Models simcats/config_samplers/_GaAs_v1_random_variations_v3_config_sampler.py:380-382. -/
noncomputable def steepGrid (lo hi : ℝ) : Fin 1000000 → ℝ := linspace (lo - 0.2 * (hi - lo)) (hi + 0.2 * (hi - lo)) 1000000

/-- `sample_SensorGeneric(quality_multiplier, compensated_sensor, set_sensor_potential_offset_to_steepest_point)`.
Models simcats/config_samplers/_GaAs_v1_random_variations_v3_config_sampler.py:234-387. -/
noncomputable def sampleSensorGeneric {τ : Type} (rng : CfgRng τ) (q : ℝ) (compensated steepest : Bool) : Proc τ SensorGeneric := do
  let a ← sampleAlphas rng q compensated
  let sensor : SensorGeneric := ⟨none, a.2, a.1, 0⟩
  let pot ← Proc.ofPy (sensor.potential (.d1 2 fun i => if i = 0 then (0, 0) else (5, 5)) (-0.2, -0.06) (-0.2, -0.06))
  let lim ← match pot with
    | .d1 2 f => pure (min (f 0) (f 1), max (f 0) (f 1))
    | _ => Proc.ofPy (.error .valueError)
  let n ← Proc.call (rng.choice 3 6)
  let ps ← peakLoop (sampleGenericPeak rng q n lim.1 lim.2) n []
  if steepest then
    let i ← (fun s r => ∃ i, IsArgmax (gradient 999998 fun j => sumPeaks ps (steepGrid lim.1 lim.2 j)) i ∧ r = (.ok i, s) :
      Proc τ (Fin 1000000))
    pure ⟨some ps, a.2, a.1, steepGrid lim.1 lim.2 i⟩
  else pure ⟨some ps, a.2, a.1, 0⟩

/-- `NormalSamplingRange(total_range=(lo, np.inf), std, mean).sample_parameter()`.
Models simcats/support_functions/_parameter_sampling.py:44-102 for an infinite upper limit. -/
def sampleAbove {τ : Type} (rng : CfgRng τ) (lo std mean : ℝ) : Proc τ ℝ := fun s r =>
  Redraw (rng.normal mean std) (fun v => ¬ v < lo) s r

/-- `NormalSamplingRange(total_range, std, mean).sample_parameter()`.
Models simcats/support_functions/_parameter_sampling.py:44-102. -/
noncomputable def sampleNormal {τ : Type} (rng : CfgRng τ) (range : ℝ × ℝ) (std mean : ℝ) : Proc τ ℝ :=
  Proc.sample (normalSampler rng.toDrawRng range std (some mean) none)

/-- `UniformSamplingRange(total_range).sample_parameter()`.
Models simcats/support_functions/_parameter_sampling.py:116-159. -/
noncomputable def sampleUniform {τ : Type} (rng : CfgRng τ) (range : ℝ × ℝ) : Proc τ ℝ :=
  Proc.sample (uniformSampler rng.toDrawRng range none)

/-- Position and width of the next peak of a sensor scan.
Models simcats/config_samplers/_GaAs_v1_random_variations_v3_config_sampler.py:409-490. -/
noncomputable def nextPeak {τ : Type} (rng : CfgRng τ) (base : ℝ) : List Peak → Proc τ (ℝ × ℝ)
  | [] => do
    let gamma ← sampleAbove rng 0 (3.6990706645585366e-05 / 2) (9.878642853157584e-05 * 2.5)
    pure (base, gamma)
  | [p0] => do
    let d ← sampleNormal rng (0, 0.00367179654343025 * 4) (0.00023884164727643042 / 2) (0.002902416771776037 * 2.5)
    let g ← sampleNormal rng (0.85, 1.5) (0.4695086254881995 / 2) 1.25
    pure (p0.mu0 + d, p0.width * g)
  | p0 :: p1 :: rest => do
    let last := (p1 :: rest).getLast (by simp)
    let len := rest.length + 2
    let num : ℕ := if len < 10 then len else 10
    let d ← sampleNormal rng (-1 * (0.09509839063162284 / 2), 1 * (0.09509839063162284 / 2)) (0.09509839063162284 / 2) 0
    let rel := d + (-0.0374000174907983 / 4) * ((num : ℝ) - 1) + 1.0189427890611187
    let g ← sampleNormal rng (0.85, 1.5) (0.4695086254881995 / 2) 1.25
    let gamma := last.width * g
    let gamma' ← (open Classical in
      if 0.002 < gamma then sampleUniform rng (0.002 * (1 - 0.1), 0.002 * (1 + 0.1)) else pure gamma)
    pure (last.mu0 + rel * (p1.mu0 - p0.mu0), gamma')

/-- `_sensor_peak_list_add_peak(peak_list, ref_height, base_offset)`; returns only the new peak.
Models simcats/config_samplers/_GaAs_v1_random_variations_v3_config_sampler.py:390-499. -/
noncomputable def addScanPeak {τ : Type} (rng : CfgRng τ) (ref base : ℝ) (ps : List Peak) : Proc τ Peak := do
  let mg ← nextPeak rng base ps
  let h ← sampleAbove rng (-ref) (0.04720315300812465 / 2) 0
  Proc.ofPy (Peak.mk? ⟨.lorentzian, mg.1, mg.2, ref + h, 0⟩)

/-- The maximum of `n + 1` numbers (`np.max`).
Library function, used in simcats/config_samplers/_GaAs_v1_random_variations_v3_config_sampler.py:577. -/
noncomputable def maxOf (n : ℕ) (f : Fin (n + 1) → ℝ) : ℝ := Finset.univ.sup' ⟨0, Finset.mem_univ 0⟩ f

/-- Constructor of `SensorRiseGLF`; the asymmetry setter rejects non-positive values.
Models simcats/sensor/_sensor_rise_glf.py:48-55 and 144-146. -/
noncomputable def RiseGlf.mk? (r : RiseGlf) : Py RiseGlf := if r.g.nu ≤ 0 then .error .valueError else .ok r

/-- `sample_sensor_function(offset, quality_multiplier)`.
Models simcats/config_samplers/_GaAs_v1_random_variations_v3_config_sampler.py:528-596. -/
noncomputable def sampleSensorFunction {τ : Type} (rng : CfgRng τ) (offset q : ℝ) : Proc τ (List Peak × RiseGlf) := do
  let ref ← sampleNormal rng (0, 1) 0.04804196857755959 (0.07543071921134054 * q)
  let x ← sampleUniform rng (20, 30)
  let ps ← peakLoop (addScanPeak rng ref offset) ⌊x⌋₊ []
  let top := maxOf 499999 fun i => sumPeaks ps (linspace (-5) 5 500000 i)
  let b ← sampleUniform rng (400, 600)
  let nu ← sampleUniform rng (0.01, 1)
  let sh ← sampleUniform rng (0.01, 100)
  let rise ← Proc.ofPy (RiseGlf.mk? ⟨0, ⟨0, top * 1.05, b, nu, sh, 1⟩, 0.95⟩)
  pure (ps, rise)

/-- `_sample_simple_barrier_function(offset, height, quality_multiplier, pinch_off_percentage, fully_conductive_percentage)`.
Models simcats/config_samplers/_GaAs_v1_random_variations_v3_config_sampler.py:624-673. -/
noncomputable def sampleBarrier {τ : Type} (rng : CfgRng τ) (offset height q pinchPct fullPct : ℝ) : Proc τ BarrierGlf := do
  let b ← sampleUniform rng (20, 40)
  let nu ← sampleUniform rng (0.000001, 0.0001)
  let sh ← sampleUniform rng (0.01, 100)
  let g : GlfParams := ⟨0, height * q, b, nu, sh, 1⟩
  let pinch := inverseGlf g 0 (height * q * pinchPct)
  Proc.ofPy (BarrierGlf.mk? ⟨pinchPct, fullPct, g, offset - pinch⟩)

/-- `sample_SensorScanSensorGeneric(quality_multiplier, compensated_sensor)`.  The lever arms of the plunger gates and of the dots
have shape `(2,)` and are used for all three potentials (setters of the sensor).  The ratio is a Python float, so the division by 0
raises.
Models simcats/config_samplers/_GaAs_v1_random_variations_v3_config_sampler.py:676-843; lines 801-821 (deformations) are switched off by a constant. -/
noncomputable def sampleScanSensor {τ : Type} (rng : CfgRng τ) (q : ℝ) (compensated : Bool) : Proc τ ScanSensor := do
  let ratio ← sampleNormal rng (0, 2) 0.0846429965722433 0.9986776964521298
  let inv ← Proc.ofPy (open Classical in if ratio = 0 then .error .zeroDivisionError else .ok (1 / ratio))
  let sens : ℝ × ℝ := (1 / max 1 inv * 0.1, inv / max 1 inv * 0.1)
  let c1 ← sampleUniform rng (0.1, 0.3)
  let c2 ← sampleUniform rng (0.1, 0.3)
  let a ← sampleAlphas rng q compensated
  let b1 ← sampleUniform rng (-0.688, -0.509)
  let b2 ← sampleUniform rng (-0.688, -0.509)
  let start1 := 0.99 * b1 + c1 * b2
  let start2 := c2 * b1 + 0.99 * b2
  let f ← sampleSensorFunction rng (sens.1 * b1 + sens.2 * b2 - 0.005 * 10) q
  let bar1 ← sampleBarrier rng start1 0.25 q 0.001 0.999
  let bar2 ← sampleBarrier rng start2 0.25 q 0.001 0.999
  pure {
    peaks := some f.1
    defs := []
    rise := some f.2.sensorFunction
    barrier1 := bar1.barrier
    barrier2 := bar2.barrier
    alphaDot := fun _ => a.2
    alphaGate := fun _ => a.1
    alphaSensor := ![sens, (0.99, c1), (c2, 0.99)]
    offset := fun _ => 0 }

end SimCATS
