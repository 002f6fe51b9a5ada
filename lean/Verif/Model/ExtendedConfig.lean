import Verif.Model.DefaultNoise
import Verif.Model.SensorScan

/-!
The default configuration "GaAs_v2_extended_sensor" with its distortions (simcats/_default_configs.py:89-206).

The sensor of this configuration has a state (see `ScanSensor`).  The distortions and the ideal data have no access to the sensor:
`OccDist.beside` and `SigDist.beside` are distortions of a simulation that keeps a further state `X` beside theirs.
-/

namespace SimCATS

/-- An occupation distortion in a simulation with a further state `X`.
Simplification: the CSD generator handed to a distortion starts with the current state `X`, its changes of `X` are lost.  (The
generators of a simulation, the ideal data and the distortions before, do not change `X`.)
Auxiliary definition, used for the configuration simcats/_default_configs.py:182-198. -/
def OccDist.beside {X σ : Type} (d : OccDist σ) : OccDist (X × σ) := fun data g1 g2 gen freeze p =>
  match d data g1 g2 (fun v1 v2 res s => match gen v1 v2 res (p.1, s) with | (r, q) => (r, q.2)) freeze p.2 with
  | (r, s) => (r, (p.1, s))

/-- A potential or response distortion in a simulation with a further state `X`.
Auxiliary definition, used for the configuration simcats/_default_configs.py:182-198. -/
def SigDist.beside {X σ : Type} (d : SigDist σ) : SigDist (X × σ) := fun x g1 g2 => onRest (d x g1 g2)

/-- The first barrier.  Models simcats/_default_configs.py:129-137. -/
noncomputable def extendedBarrier1 : BarrierGlf := ⟨0.001, 0.999, ⟨0, 0.3, 80, 8.948499659663527e-05, 25.64528635013381, 1⟩, -0.78⟩

/-- The second barrier.  Models simcats/_default_configs.py:138-146. -/
noncomputable def extendedBarrier2 : BarrierGlf := ⟨0.001, 0.999, ⟨0, 0.3, 72, 7.784390241302876e-05, 97.5062459999433, 1⟩, -0.88⟩

/-- The 19 peaks.  Models simcats/_default_configs.py:148-168. -/
noncomputable def extendedPeaks : List Peak :=
  [⟨.lorentzian, -0.151, 0.0002, 0.09, 0⟩, ⟨.lorentzian, -0.148, 0.000225, 0.09, 0⟩, ⟨.lorentzian, -0.145, 0.00025, 0.09, 0⟩,
    ⟨.lorentzian, -0.142, 0.000275, 0.09, 0⟩, ⟨.lorentzian, -0.139, 0.0003, 0.09, 0⟩, ⟨.lorentzian, -0.136, 0.000325, 0.09, 0⟩,
    ⟨.lorentzian, -0.133, 0.00035, 0.09, 0⟩, ⟨.lorentzian, -0.130, 0.000375, 0.09, 0⟩, ⟨.lorentzian, -0.127, 0.0004, 0.09, 0⟩,
    ⟨.lorentzian, -0.124, 0.000425, 0.09, 0⟩, ⟨.lorentzian, -0.121, 0.00045, 0.09, 0⟩, ⟨.lorentzian, -0.118, 0.000475, 0.09, 0⟩,
    ⟨.lorentzian, -0.115, 0.0005, 0.09, 0⟩, ⟨.lorentzian, -0.112, 0.00055, 0.09, 0⟩, ⟨.lorentzian, -0.109, 0.0006, 0.09, 0⟩,
    ⟨.lorentzian, -0.106, 0.00065, 0.09, 0⟩, ⟨.lorentzian, -0.103, 0.0007, 0.09, 0⟩, ⟨.lorentzian, -0.100, 0.00075, 0.09, 0⟩,
    ⟨.lorentzian, -0.097, 0.0008, 0.09, 0⟩]

/-- The final rise.  Models simcats/_default_configs.py:169-175. -/
noncomputable def extendedRise : RiseGlf := ⟨0, ⟨0, 0.1, 2500, 0.035, 2, 1⟩, 0.999⟩

/-- The sensor; the setters repeat the lever arms of the dots and of the plunger gates for the three potentials.
Models simcats/_default_configs.py:127-181. -/
noncomputable def extendedSensor : ScanSensor where
  peaks := some extendedPeaks
  defs := []
  rise := some extendedRise.sensorFunction
  barrier1 := extendedBarrier1.barrier
  barrier2 := extendedBarrier2.barrier
  alphaDot := fun _ => (-0.00044775, -0.0002922)
  alphaGate := fun _ => (0.08949, 0.116395)
  alphaSensor := ![(0.096754, 0.1), (0.99, 0.15), (0.15, 0.99)]
  offset := fun _ => 0

variable {τ : Type}

/-- The distortions of the occupations, which are those of "GaAs_v1".
Models simcats/_default_configs.py:182-188. -/
noncomputable def extendedOcc (env : NoiseEnv τ) : List (OccDist (NoiseState τ)) :=
  [defaultBlur, OccDist.on (jumps0Slot τ) (defaultJumps0 env).noiseFunction, OccDist.on (jumps1Slot τ) (defaultJumps1 env).noiseFunction]

/-- The distortions of the potential, which are those of "GaAs_v1".
Models simcats/_default_configs.py:189-194. -/
noncomputable def extendedPot (env : NoiseEnv τ) : List (SigDist (NoiseState τ)) :=
  [SigDist.on (pinkSlot τ) (defaultPink env).noiseFunction, SigDist.on (potRtnSlot τ) (defaultPotRtn env).noiseFunction]

/-- The distortions of the response: the white noise of "GaAs_v1".
Models simcats/_default_configs.py:195-198. -/
noncomputable def extendedResp (env : NoiseEnv τ) : List (SigDist (NoiseState τ)) :=
  [SigDist.on (whiteSlot τ) (defaultWhite env).noiseFunction]

/-- A simulation with the configuration "GaAs_v2_extended_sensor" as used by `measure_sensor_scan`.
Models simcats/_default_configs.py:89-199 passed to the constructor, simcats/_simulation.py:95-104. -/
noncomputable def extendedSim (env : NoiseEnv τ) (lab : Labelling) : ScanSim (NoiseState τ) where
  lim := ⟨some (-0.2, -0.087), some (-0.2, -0.047), some (-1, 0.4), some (-1, 0.4)⟩
  gen := some (idealGen defaultIdeal lab)
  sensor := extendedSensor
  occD := some ((extendedOcc env).map OccDist.beside)
  potD := some ((extendedPot env).map SigDist.beside)
  respD := some ((extendedResp env).map SigDist.beside)

/-- A simulation with a `SensorScanSensorGeneric` as used by `measure`.
Models simcats/_simulation.py:33-104 (the same object used by `measure`). -/
noncomputable def ScanSim.csd (sim : ScanSim τ) : Simulation (Option ScanState × τ) where
  lim := sim.lim
  gen := sim.gen
  sensor := sim.sensor.toSensor
  occD := sim.occD
  potD := sim.potD
  respD := sim.respD

end SimCATS
