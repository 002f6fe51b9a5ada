import Verif.Model.Simulation

/-!
Model of simcats/_default_configs.py: the charge stability diagram shared by both default configurations and the sensor of
"GaAs_v1".  The distortions of the configurations are left out.
-/

namespace SimCATS

/-- The parameters of the 14 transitions (the same in both configurations).
Models simcats/_default_configs.py:26-54 and 94-122. -/
noncomputable def defaultTcts : List TctParams :=
  [⟨0.01075474, 0.01549732, 0.42465033, -0.38038481, -0.02750187, -0.17179705, -0.02674207, -0.17171497⟩,
    ⟨0.01075474, 0.01549732, 0.40341781, -0.36136557, -0.04171389, -0.16351316, -0.04012621, -0.16343108⟩,
    ⟨0.01075474, 0.01549732, 0.38324692, -0.34329729, -0.05592591, -0.15564346, -0.05351035, -0.15556138⟩,
    ⟨0.01075474, 0.01549732, 0.36408457, -0.32613243, -0.07013794, -0.14816725, -0.06689448, -0.14808517⟩,
    ⟨0.01075474, 0.01549732, 0.34588034, -0.30982581, -0.08434996, -0.14106485, -0.08027862, -0.14098277⟩,
    ⟨0.01075474, 0.01549732, 0.32858633, -0.29433452, -0.09856198, -0.13431757, -0.09366276, -0.13423549⟩,
    ⟨0.01075474, 0.01549732, 0.31215701, -0.27961779, -0.112774, -0.12790766, -0.1070469, -0.12782558⟩,
    ⟨0.01075474, 0.01549732, 0.20758441, -0.18594583, -0.12698603, -0.12181824, -0.12125892, -0.12173616⟩,
    ⟨0.01075474, 0.01549732, 0.13804363, -0.12365398, -0.14119805, -0.11603329, -0.13547094, -0.11595121⟩,
    ⟨0.01075474, 0.01549732, 0.09179902, -0.0822299, -0.15541007, -0.11053759, -0.14968296, -0.1104555⟩,
    ⟨0.01075474, 0.01549732, 0.06104635, -0.05468288, -0.16962209, -0.10531667, -0.16389499, -0.10523459⟩,
    ⟨0.01075474, 0.01549732, 0.04059582, -0.03636412, -0.18383412, -0.1003568, -0.17810701, -0.10027472⟩,
    ⟨0.01075474, 0.01549732, 0.02699622, -0.02418214, -0.19804614, -0.09564492, -0.19231903, -0.09556284⟩,
    ⟨0.01075474, 0.01549732, 0.01795249, -0.01608112, -0.21225816, -0.09116864, -0.20653105, -0.09108656⟩]

/-- The ideal CSD of both configurations.
Models simcats/_default_configs.py:26-58 and 94-126. -/
noncomputable def defaultIdeal : IdealCfg := ⟨defaultTcts, -Real.pi / 4, some 1000, .sigmoid, none⟩

/-- The sensor of "GaAs_v1".
Models simcats/_default_configs.py:59-68. -/
noncomputable def defaultSensor : SensorGeneric where
  peaks := some [⟨.lorentzian, -0.12096, 0.00095, 0.026245, -0.253275⟩, ⟨.lorentzian, -0.11596, 0.001, 0.027245, -0.253275⟩,
    ⟨.lorentzian, -0.11096, 0.00105, 0.028245, -0.253275⟩, ⟨.lorentzian, -0.10596, 0.0011, 0.029245, -0.253275⟩,
    ⟨.lorentzian, -0.10096, 0.00115, 0.030245, -0.253275⟩]
  alphaDot := (-0.00044775, -0.0002922)
  alphaGate := (0.08949, 0.116395)
  offset := -0.0818745

/-- A simulation with the default configuration "GaAs_v1", its distortions switched off.  The configuration has no limits for the
sensor gates.
Models simcats/_default_configs.py:24-88 passed to the constructor, simcats/_simulation.py:95-104. -/
noncomputable def defaultSim {σ : Type} (lab : Labelling) : Simulation σ where
  lim := ⟨some (-0.2, -0.087), some (-0.2, -0.047), none, none⟩
  gen := some (idealGen defaultIdeal lab)
  sensor := genericSensor defaultSensor
  occD := none
  potD := none
  respD := none

end SimCATS
