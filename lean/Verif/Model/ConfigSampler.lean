import Verif.Model.GeometrySampler
import Verif.Model.SensorSampler

/-!
Model of `sample_random_variations_v3_config` and of the samplers of the distortions in
simcats/config_samplers/_GaAs_v1_random_variations_v3_config_sampler.py.
Line numbers without a file name refer to this file.

The samplers of the distortions draw no numbers: they create distortion objects with fixed parameters.  A distortion is represented by
the arguments of its constructor.
-/

namespace SimCATS

/-- A sampler object: the arguments of its constructor (the other arguments keep their default value).
Models simcats/config_samplers/_GaAs_v1_random_variations_v3_config_sampler.py:922-940. -/
inductive StrengthSampler
  | normal (total : ℝ × ℝ) (std : ℝ)
  | exponential (total : ℝ × ℝ) (scale : ℝ)

/-- An occupation distortion; the axis is the integer passed to the constructor.
Models simcats/config_samplers/_GaAs_v1_random_variations_v3_config_sampler.py:846-862 and 922-966. -/
inductive OccDistortion
  | fermiDirac (sigma : StrengthSampler)
  | dotJumps (ratio scale lam : ℝ) (axis : ℕ)

/-- A distortion of the sensor potential or of the sensor response.
Models simcats/config_samplers/_GaAs_v1_random_variations_v3_config_sampler.py:865-898 and 969-1059. -/
inductive SigDistortion
  | pinkNoise (sigma : StrengthSampler)
  | whiteNoise (sigma : StrengthSampler)
  | telegraph (scale std height ratio : ℝ)

/-- `_sample_occupation_transition_blurring_fermi_dirac()`.
Models simcats/config_samplers/_GaAs_v1_random_variations_v3_config_sampler.py:922-940. -/
noncomputable def sampledFermi : OccDistortion :=
  let lo : ℝ := 0.25 * 0.03 / 100
  let hi : ℝ := 2 * 0.03 / 100
  .fermiDirac (.normal (lo, hi) ((hi - lo) / 6))

/-- `_sample_occupation_dot_jumps_g1()`.
Models simcats/config_samplers/_GaAs_v1_random_variations_v3_config_sampler.py:943-953. -/
noncomputable def sampledJumps1 : OccDistortion := .dotJumps (0.01 / 6) (100 * 0.03 / 100) (6 * 0.03 / 100) 1

/-- `_sample_occupation_dot_jumps_g2()`.
Models simcats/config_samplers/_GaAs_v1_random_variations_v3_config_sampler.py:956-966. -/
noncomputable def sampledJumps2 : OccDistortion := .dotJumps 0.01 (100 * 0.03 / 100) (6 * 0.03 / 100) 0

/-- `sample_occupation_distortions(quality_multiplier)`: the multiplier is not used.
Models simcats/config_samplers/_GaAs_v1_random_variations_v3_config_sampler.py:846-862. -/
noncomputable def sampleOccDistortions (_q : ℝ) : List OccDistortion := [sampledFermi, sampledJumps2, sampledJumps1]

/-- `_sample_sensor_potential_pink_noise(quality_multiplier)`.
Models simcats/config_samplers/_GaAs_v1_random_variations_v3_config_sampler.py:969-991. -/
noncomputable def sampledPink (q : ℝ) : SigDistortion := .pinkNoise (.exponential (1e-10, 0.0005) (expScale q))

/-- `_sample_sensor_potential_rtn(quality_multiplier)`.
Models simcats/config_samplers/_GaAs_v1_random_variations_v3_config_sampler.py:994-1012. -/
noncomputable def sampledPotentialRtn (q : ℝ) : SigDistortion := .telegraph (74.56704 * 0.03 / 100) 3.491734e-05 2.53855325e-05 (1 / 6 * q)

/-- `_sample_sensor_response_rtn(quality_multiplier)`.
Models simcats/config_samplers/_GaAs_v1_random_variations_v3_config_sampler.py:1015-1034. -/
noncomputable def sampledResponseRtn (q : ℝ) : SigDistortion := .telegraph (10000 * 0.03 / 100) 0.047453767599999995 0.0152373696 (0.01 * q)

/-- `_sample_sensor_response_white_noise(quality_multiplier)`.
Models simcats/config_samplers/_GaAs_v1_random_variations_v3_config_sampler.py:1037-1059. -/
noncomputable def sampledWhite (q : ℝ) : SigDistortion := .whiteNoise (.exponential (1e-10, 0.0005) (expScale q))

/-- `sample_sensor_potential_distortions(quality_multiplier)`.
Models simcats/config_samplers/_GaAs_v1_random_variations_v3_config_sampler.py:865-880. -/
noncomputable def samplePotDistortions (q : ℝ) : List SigDistortion := [sampledPink q, sampledPotentialRtn q]

/-- `sample_sensor_response_distortions(quality_multiplier)`.
Models simcats/config_samplers/_GaAs_v1_random_variations_v3_config_sampler.py:883-898. -/
noncomputable def sampleRespDistortions (q : ℝ) : List SigDistortion := [sampledResponseRtn q, sampledWhite q]

/-- The sensor of a configuration.
Models simcats/config_samplers/_GaAs_v1_random_variations_v3_config_sampler.py:71-78. -/
inductive SensorObject
  | generic (d : SensorGeneric)
  | scan (d : ScanSensor)

/-- The dictionary returned by the sampler.
Models simcats/config_samplers/_GaAs_v1_random_variations_v3_config_sampler.py:65-86. -/
structure SampledConfig where
  limG1 : ℝ × ℝ
  limG2 : ℝ × ℝ
  limS1 : ℝ × ℝ
  limS2 : ℝ × ℝ
  ideal : IdealCfg
  sensor : SensorObject
  occ : List OccDistortion
  pot : List SigDistortion
  resp : List SigDistortion

/-- The sensor sampler chosen by `sensor_type`.
Models simcats/config_samplers/_GaAs_v1_random_variations_v3_config_sampler.py:71-82. -/
noncomputable def sampleSensorOfType {τ : Type} (rng : CfgRng τ) (sensorType : String) (q : ℝ) (compensated steepest : Bool) :
    Proc τ SensorObject :=
  if sensorType = "SensorGeneric" then do
    let d ← sampleSensorGeneric rng q compensated steepest
    pure (.generic d)
  else if sensorType = "SensorScanSensorGeneric" then do
    let d ← sampleScanSensor rng q compensated
    pure (.scan d)
  else Proc.ofPy (.error .valueError)

/-- `sample_random_variations_v3_config(sensor_type, quality_multiplier, compensated_sensor,
set_sensor_potential_offset_to_steepest_point)`.  The samplers of the distortions are called without the quality multiplier, so that it
has its default value 1.
Models simcats/config_samplers/_GaAs_v1_random_variations_v3_config_sampler.py:38-86. -/
noncomputable def sampleConfig {τ : Type} (rng : CfgRng τ) (lab : Labelling) (sensorType : String) (q : ℝ) (compensated steepest : Bool) :
    Proc τ SampledConfig :=
  open Classical in
  if ¬ (0 < q ∧ q ≤ 1) then Proc.ofPy (.error .valueError)
  else do
    let ideal ← sampleIdealCSD rng lab
    let sensor ← sampleSensorOfType rng sensorType q compensated steepest
    pure {
      limG1 := (-0.2, -0.06)
      limG2 := (-0.2, -0.06)
      limS1 := (-1, 0)
      limS2 := (-1, 0)
      ideal := ideal
      sensor := sensor
      occ := sampleOccDistortions 1
      pot := samplePotDistortions 1
      resp := sampleRespDistortions 1 }

end SimCATS
