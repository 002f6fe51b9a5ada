import Verif.Model.Proc
import Verif.Model.Simulation
import Mathlib.Analysis.SpecialFunctions.Trigonometric.Inverse

/-!
Model of `sample_IdealCSDGeometric` in simcats/config_samplers/_GaAs_v1_random_variations_v3_config_sampler.py.
Line numbers without a file name refer to this file.
-/

namespace SimCATS

/-- The angle between the directions `(1, a)` and `(1, b)`.
Models simcats/config_samplers/_GaAs_v1_random_variations_v3_config_sampler.py:136 and 149. -/
noncomputable def leadAngle (s : ℝ × ℝ) : ℝ :=
  Real.arccos ((1 * 1 + s.1 * s.2) / (norm2 (1, s.1) * norm2 (1, s.2)))

/-- Both slopes are drawn until the angle between the lead transitions is in the range.
Models simcats/config_samplers/_GaAs_v1_random_variations_v3_config_sampler.py:97-103, 133-136 and 146-149. -/
noncomputable def sampleSlopes {τ : Type} (rng : CfgRng τ) : Proc τ (ℝ × ℝ) :=
  Proc.until (fun s => 0.43760867228 ≤ leadAngle s ∧ leadAngle s ≤ 1.6789624091) do
    let a ← Proc.call (rng.uniform 0.21429 0.54688)
    let b ← Proc.call (rng.uniform (-0.44) (-0.07692))
    pure (a, b)

/-- The direction of the interdot transition: slope 1 rotated by a drawn angle, redrawn while it goes backwards in voltage space;
normalized.
Models simcats/config_samplers/_GaAs_v1_random_variations_v3_config_sampler.py:108-109 and 158-166. -/
noncomputable def sampleInterdotDir {τ : Type} (rng : CfgRng τ) (slope1 : ℝ) : Proc τ (ℝ × ℝ) := do
  let v ← Proc.until (fun v => ¬ ((rotatePoint (-Real.pi / 4) v).1 < 0 ∨ (rotatePoint (-Real.pi / 4) v).2 < 0)) do
    let t ← Proc.call (rng.uniform 0.58153916891 1.396938844)
    pure (rotatePoint t (1, slope1))
  pure (v.1 / norm2 v, v.2 / norm2 v)

/-- Length and width of the interdot transition.
Models simcats/config_samplers/_GaAs_v1_random_variations_v3_config_sampler.py:111-120 and 170-182. -/
noncomputable def sampleInterdotSize {τ : Type} (rng : CfgRng τ) : Proc τ (ℝ × ℝ) := do
  let l ← Proc.until (fun l => ¬ (l < 0.00261 ∨ 0.00987 < l)) (Proc.call (rng.uniform 0.00261 0.00987))
  let w ← Proc.call (rng.uniform 0.00043 0.00814)
  fun s r => Proc.While (fun lw => 0.8692269873603532 ≤ lw.1 / lw.2 ∧ lw.1 / lw.2 ≤ 9.055385138137407) (fun _ => do
    let l ← Proc.call (rng.uniform 0.00261 0.00987)
    let w ← Proc.call (rng.uniform 0.00043 0.00814)
    pure (l, w)) (l, w) s r

/-- The parameters of the first transition and the shift to the next one.
Models simcats/config_samplers/_GaAs_v1_random_variations_v3_config_sampler.py:130-210 (without the object of lines 138-143). -/
noncomputable def sampleFirstTct {τ : Type} (rng : CfgRng τ) : Proc τ (TctParams × (ℝ × ℝ)) := do
  let s ← sampleSlopes rng
  let l1 ← Proc.call (rng.uniform 0.01 0.025)
  let l2 ← Proc.call (rng.uniform 0.01 0.025)
  let d ← sampleInterdotDir rng s.1
  let lw ← sampleInterdotSize rng
  let iv := (d.1 * lw.1, d.2 * lw.1)
  let b1 ← Proc.call (rng.uniform (-0.14) (-0.14))
  let b2 ← Proc.call (rng.uniform (-0.14) (-0.14))
  let b := rotatePoint (Real.pi / 4) (b1, b2)
  let m := (s.1 + s.2) / 2
  pure (⟨l1, l2, s.1, s.2, b.1, b.2, b.1 + lw.2 * (1 / norm2 (1, m)), b.2 + lw.2 * (m / norm2 (1, m))⟩,
    (-l2 + iv.1, iv.2 - l2 * s.2))

/-- The parameters of one transition moved by the shift vector.
Models simcats/config_samplers/_GaAs_v1_random_variations_v3_config_sampler.py:901-919. -/
def TctParams.shift (p : TctParams) (v : ℝ × ℝ) : TctParams :=
  ⟨p.lenL, p.lenR, p.gradL, p.gradR, p.x0 + v.1, p.y0 + v.2, p.x2 + v.1, p.y2 + v.2⟩

/-- `_add_one_tct(tct_params, shift_vec)`; an empty list raises `IndexError`.
Models simcats/config_samplers/_GaAs_v1_random_variations_v3_config_sampler.py:901-919. -/
def addOneTct (ps : List TctParams) (v : ℝ × ℝ) : Py (List TctParams) :=
  match ps.getLast? with
  | none => .error .indexError
  | some p => .ok (ps ++ [p.shift v])

/-- The `IdealCSDGeometric` object with the given transitions; the other attributes are those of the default configuration.
Models simcats/config_samplers/_GaAs_v1_random_variations_v3_config_sampler.py:140 with simcats/_default_configs.py:55-58, and line 143. -/
noncomputable def sampledIdeal (ps : List TctParams) : IdealCfg := ⟨ps, -Real.pi / 4, some 1000, .sigmoid, none⟩

/-- The simulation used for the test measurement; the sensor is `SensorGeneric()`.
Models simcats/config_samplers/_GaAs_v1_random_variations_v3_config_sampler.py:219-223 and simcats/_simulation.py:33-44,
simcats/sensor/_sensor_generic.py:20-26. -/
noncomputable def testSim (lab : Labelling) (ps : List TctParams) : Simulation Unit where
  lim := ⟨some (-0.2, -0.06), some (-0.2, -0.06), none, none⟩
  gen := some (idealGen (sampledIdeal ps) lab)
  sensor := genericSensor ⟨none, (-1, -1), (0, 0), 0⟩
  occD := none
  potD := none
  respD := none

/-- The request of the test measurement.
Models simcats/config_samplers/_GaAs_v1_random_variations_v3_config_sampler.py:225. -/
noncomputable def testRequest : Request := ⟨[-0.2, -0.06], [-0.2, -0.06], none, none, .arr [10, 10]⟩

/-- The loop that adds transitions as long as the test measurement raises `IndexError`.
Models simcats/config_samplers/_GaAs_v1_random_variations_v3_config_sampler.py:214-229. -/
inductive AddTcts (lab : Labelling) (v : ℝ × ℝ) : List TctParams → Py (List TctParams) → Prop
  | stop {ps x} : (measure (testSim lab ps) testRequest ()).1 = .ok x → AddTcts lab v ps (.ok ps)
  | again {ps qs r} : (measure (testSim lab ps) testRequest ()).1 = .error .indexError → addOneTct ps v = .ok qs →
      AddTcts lab v qs r → AddTcts lab v ps r
  | fail {ps e} : (measure (testSim lab ps) testRequest ()).1 = .error .indexError → addOneTct ps v = .error e →
      AddTcts lab v ps (.error e)
  | other {ps e} : (measure (testSim lab ps) testRequest ()).1 = .error e → e ≠ .indexError → AddTcts lab v ps (.error e)

/-- `sample_IdealCSDGeometric()`.
Models simcats/config_samplers/_GaAs_v1_random_variations_v3_config_sampler.py:89-231. -/
noncomputable def sampleIdealCSD {τ : Type} (rng : CfgRng τ) (lab : Labelling) : Proc τ IdealCfg := do
  let f ← sampleFirstTct rng
  let ps ← (fun s r => ∃ x, AddTcts lab f.2 [f.1] x ∧ r = (x, s) : Proc τ (List TctParams))
  pure (sampledIdeal ps)

end SimCATS
