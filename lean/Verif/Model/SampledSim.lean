import Verif.Model.ConfigSampler
import Verif.Model.ExtendedConfig

/-!
A simulation that is created from a sampled configuration, `Simulation(**sample_random_variations_v3_config(...))`, with all its
distortions.  Line numbers without a file name refer to simcats/config_samplers/_GaAs_v1_random_variations_v3_config_sampler.py.

The descriptions of the distortions (see `Model/ConfigSampler.lean`) become objects with a state.  A sampled configuration contains at most
one object of every kind, so that the places of `NoiseState` suffice.
-/

namespace SimCATS

/-- The random numbers of the objects: generators of the dot jumps and of the telegraph noise, calls of the samplers of the strengths, and
the noise of the pink and white noise; `np2` and `nan` as for `DotJumps`.
Library objects: the generators and tables of the sampled distortions,
simcats/config_samplers/_GaAs_v1_random_variations_v3_config_sampler.py:846-1059. -/
structure SampledEnv (τ : Type) where
  jumps0 : Rng τ
  jumps1 : Rng τ
  pot : Rng τ
  resp : Rng τ
  draw : StrengthSampler → M τ ℝ
  pinkNoise : ℝ → ℕ → M τ (List ℝ)
  whiteNoise : ℝ → ℕ → M τ (List ℝ)
  np2 : Bool
  nan : ℝ

variable {τ : Type}

/-- `OccupationTransitionBlurringFermiDirac(sigma=sampler)`.
Models simcats/config_samplers/_GaAs_v1_random_variations_v3_config_sampler.py:934-940
and simcats/distortions/_transition_blurring.py:20-30. -/
noncomputable def SampledEnv.blur (env : SampledEnv τ) (sigma : StrengthSampler) : Blur (NoiseState τ) := fermiBlur (onGens (env.draw sigma))

/-- `OccupationDotJumps(ratio, scale, lam, axis=0)`: jumps along gate 2.
Models simcats/config_samplers/_GaAs_v1_random_variations_v3_config_sampler.py:956-966. -/
noncomputable def SampledEnv.jumpsG2 (env : SampledEnv τ) (ratio scale lam : ℝ) : DotJumps (NoiseState τ) :=
  ⟨pure scale, pure lam, .g2, ratio, env.jumps0.onGens, env.np2, env.nan⟩

/-- `OccupationDotJumps(ratio, scale, lam, axis=1)`: jumps along gate 1.
Models simcats/config_samplers/_GaAs_v1_random_variations_v3_config_sampler.py:943-953. -/
noncomputable def SampledEnv.jumpsG1 (env : SampledEnv τ) (ratio scale lam : ℝ) : DotJumps (NoiseState τ) :=
  ⟨pure scale, pure lam, .g1, ratio, env.jumps1.onGens, env.np2, env.nan⟩

/-- The object of an occupation distortion.
Models simcats/config_samplers/_GaAs_v1_random_variations_v3_config_sampler.py:846-862.  Simplification: every axis other than 0 is axis 1 (the sampler uses only these two). -/
noncomputable def SampledEnv.occDist (env : SampledEnv τ) : OccDistortion → OccDist (NoiseState τ)
  | .fermiDirac sigma => OccDist.on (blurSlot τ) (env.blur sigma).noiseFunction
  | .dotJumps ratio scale lam axis =>
    if axis = 0 then OccDist.on (jumps0Slot τ) (env.jumpsG2 ratio scale lam).noiseFunction
    else OccDist.on (jumps1Slot τ) (env.jumpsG1 ratio scale lam).noiseFunction

/-- Pink and white noise: `SensorPotentialPinkNoise(sigma=sampler)`, `SensorResponseWhiteNoise(sigma=sampler)`.
Models simcats/config_samplers/_GaAs_v1_random_variations_v3_config_sampler.py:969-991 and 1037-1059. -/
noncomputable def SampledEnv.addNoise (env : SampledEnv τ) (sigma : StrengthSampler) (noise : ℝ → ℕ → M τ (List ℝ)) : WhiteNoise (NoiseState τ) :=
  ⟨onGens (env.draw sigma), fun s n => onGens (noise s n)⟩

/-- Telegraph noise: `SensorPotentialRTN(scale, std, height, ratio)`, `SensorResponseRTN(scale, std, height, ratio)`.
Models simcats/config_samplers/_GaAs_v1_random_variations_v3_config_sampler.py:994-1012 and 1015-1034. -/
noncomputable def sampledRtn (rng : Rng τ) (scale std height ratio : ℝ) : Rtn (NoiseState τ) :=
  ⟨pure scale, pure std, pure height, ratio, rng.onGens⟩

/-- The object of a distortion of the sensor potential.
Models simcats/config_samplers/_GaAs_v1_random_variations_v3_config_sampler.py:865-880. -/
noncomputable def SampledEnv.potDist (env : SampledEnv τ) : SigDistortion → SigDist (NoiseState τ)
  | .pinkNoise sigma => SigDist.on (pinkSlot τ) (env.addNoise sigma env.pinkNoise).noiseFunction
  | .whiteNoise sigma => SigDist.on (whiteSlot τ) (env.addNoise sigma env.whiteNoise).noiseFunction
  | .telegraph scale std height ratio => SigDist.on (potRtnSlot τ) (sampledRtn env.pot scale std height ratio).noiseFunction

/-- The object of a distortion of the sensor response.
Models simcats/config_samplers/_GaAs_v1_random_variations_v3_config_sampler.py:883-898. -/
noncomputable def SampledEnv.respDist (env : SampledEnv τ) : SigDistortion → SigDist (NoiseState τ)
  | .pinkNoise sigma => SigDist.on (pinkSlot τ) (env.addNoise sigma env.pinkNoise).noiseFunction
  | .whiteNoise sigma => SigDist.on (whiteSlot τ) (env.addNoise sigma env.whiteNoise).noiseFunction
  | .telegraph scale std height ratio => SigDist.on (respRtnSlot τ) (sampledRtn env.resp scale std height ratio).noiseFunction

/-- The voltage limits of the configuration.
Models simcats/config_samplers/_GaAs_v1_random_variations_v3_config_sampler.py:66-69. -/
def SampledConfig.limits (c : SampledConfig) : Limits := ⟨some c.limG1, some c.limG2, some c.limS1, some c.limS2⟩

/-- A simulation with a sampled configuration and a `SensorGeneric`.
Models simcats/config_samplers/_GaAs_v1_random_variations_v3_config_sampler.py:65-86 passed to the constructor,
simcats/_simulation.py:95-104. -/
noncomputable def SampledConfig.genericSim (env : SampledEnv τ) (lab : Labelling) (c : SampledConfig) (d : SensorGeneric) :
    Simulation (NoiseState τ) where
  lim := c.limits
  gen := some (idealGen c.ideal lab)
  sensor := genericSensor d
  occD := some (c.occ.map env.occDist)
  potD := some (c.pot.map env.potDist)
  respD := some (c.resp.map env.respDist)

/-- A simulation with a sampled configuration and a `SensorScanSensorGeneric`.
Models simcats/config_samplers/_GaAs_v1_random_variations_v3_config_sampler.py:65-86 passed to the constructor,
simcats/_simulation.py:95-104. -/
noncomputable def SampledConfig.scanSim (env : SampledEnv τ) (lab : Labelling) (c : SampledConfig) (d : ScanSensor) : ScanSim (NoiseState τ) where
  lim := c.limits
  gen := some (idealGen c.ideal lab)
  sensor := d
  occD := some ((c.occ.map env.occDist).map OccDist.beside)
  potD := some ((c.pot.map env.potDist).map SigDist.beside)
  respD := some ((c.resp.map env.respDist).map SigDist.beside)

/-- `Simulation(**config).measure(...)`; the state is that of a sensor scan sensor (unused by a `SensorGeneric`) and of the distortions.
Models simcats/_simulation.py:106-321. -/
noncomputable def SampledConfig.measure (env : SampledEnv τ) (lab : Labelling) (c : SampledConfig) (rq : Request) :
    M (Option ScanState × NoiseState τ) (Scan ℝ × Scan (ℝ × ℝ) × Scan ℕ) :=
  match c.sensor with
  | .generic d => onRest (SimCATS.measure (c.genericSim env lab d) rq)
  | .scan d => SimCATS.measure (c.scanSim env lab d).csd rq

/-- `Simulation(**config).measure_sensor_scan(...)`; a `SensorGeneric` does not support sensor scans.
Models simcats/_simulation.py:323-564 (the sensor is checked in lines 361-366). -/
noncomputable def SampledConfig.measureScan (env : SampledEnv τ) (lab : Labelling) (c : SampledConfig) (rq : ScanRequest) :
    M (Option ScanState × NoiseState τ) (Scan ℝ × Scan ℕ × Scan ℕ) :=
  match c.sensor with
  | .generic _ => M.raise .valueError
  | .scan d => measureSensorScan (c.scanSim env lab d) rq

end SimCATS
