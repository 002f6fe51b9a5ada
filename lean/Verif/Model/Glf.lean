import Verif.Model.Py
import Mathlib.Analysis.SpecialFunctions.Pow.Real

/-!
Models of the generalized logistic function and of the barrier / rise functions built on it.
-/

namespace SimCATS

/-- Parameters of a GLF: left and right asymptote `A`, `K`, growth rate `B`, asymmetry `nu`, shape factor `Q`,
denominator offset `C`.
Models the parameter list of simcats/support_functions/_generalized_logistic_function.py:11-19. -/
structure GlfParams where
  A : ℝ
  K : ℝ
  B : ℝ
  nu : ℝ
  Q : ℝ
  C : ℝ

/-- `glf(potential, ..., offset)`.
Models simcats/support_functions/_generalized_logistic_function.py:54-55.
Simplification: `np.power` of a negative base is nan in numpy, the theorems assume a positive base. -/
noncomputable def glf (g : GlfParams) (offset potential : ℝ) : ℝ :=
  g.A + (g.K - g.A) / (g.C + g.Q * Real.exp (-g.B * (potential - offset))) ^ (1 / g.nu)

/-- `inverse_glf(value, ..., offset)`.
Models simcats/support_functions/_generalized_logistic_function.py:100-101. -/
noncomputable def inverseGlf (g : GlfParams) (offset value : ℝ) : ℝ :=
  (g.B * offset - Real.log ((((g.A - g.K) / (g.A - value)) ^ g.nu - g.C) / g.Q)) / g.B

/-- Sum over the groups `params[i : i + 7]`.
Models simcats/support_functions/_generalized_logistic_function.py:146. -/
noncomputable def sumGlf (potential : ℝ) : List ℝ → ℝ
  | A :: K :: B :: nu :: Q :: C :: off :: rest => glf ⟨A, K, B, nu, Q, C⟩ off potential + sumGlf potential rest
  | _ => 0

/-- `multi_glf(potential, *params)`.
Models simcats/support_functions/_generalized_logistic_function.py:145-146. -/
noncomputable def multiGlf (potential : ℝ) (params : List ℝ) : Py ℝ :=
  if params.length % 7 ≠ 0 then .error .assertionError else .ok (sumGlf potential params)

/-- State of a `BarrierFunctionGLF`.
Models simcats/sensor/barrier_function/_barrier_function_glf.py:60-68. -/
structure BarrierGlf where
  pinchOffPct : ℝ
  fullyCondPct : ℝ
  g : GlfParams
  offset : ℝ

/-- Constructor of `BarrierFunctionGLF`; the asymmetry setter rejects non-positive values.
Models simcats/sensor/barrier_function/_barrier_function_glf.py:60-68 and 214-216. -/
noncomputable def BarrierGlf.mk? (b : BarrierGlf) : Py BarrierGlf :=
  if b.g.nu ≤ 0 then .error .valueError else .ok b

/-- `get_value`. Models simcats/sensor/barrier_function/_barrier_function_glf.py:80-82. -/
noncomputable def BarrierGlf.getValue (b : BarrierGlf) (potential : ℝ) : ℝ := glf b.g b.offset potential

/-- `pinch_off`. Models simcats/sensor/barrier_function/_barrier_function_glf.py:87-97. -/
noncomputable def BarrierGlf.pinchOff (b : BarrierGlf) : ℝ :=
  inverseGlf b.g b.offset (|b.g.K - b.g.A| * b.pinchOffPct + min b.g.A b.g.K)

/-- `fully_conductive`. Models simcats/sensor/barrier_function/_barrier_function_glf.py:117-127. -/
noncomputable def BarrierGlf.fullyConductive (b : BarrierGlf) : ℝ :=
  inverseGlf b.g b.offset (|b.g.K - b.g.A| * b.fullyCondPct + min b.g.A b.g.K)

/-- State of a `BarrierFunctionMultiGLF`.
Models simcats/sensor/barrier_function/_barrier_function_multi_glf.py:63-65. -/
structure MultiBarrier where
  pinchOff : ℝ
  fullyConductive : ℝ
  params : List ℝ

/-- Constructor of `BarrierFunctionMultiGLF`; the setter of the parameters checks their number.
Models simcats/sensor/barrier_function/_barrier_function_multi_glf.py:63-65 and 149-151. -/
def MultiBarrier.mk? (b : MultiBarrier) : Py MultiBarrier := if b.params.length % 7 ≠ 0 then .error .valueError else .ok b

/-- `get_value`. Models simcats/sensor/barrier_function/_barrier_function_multi_glf.py:77. -/
noncomputable def MultiBarrier.getValue (b : MultiBarrier) (potential : ℝ) : Py ℝ := multiGlf potential b.params

/-- Setter of the asymmetry of `SensorRiseGLF` in its constructor.
Models simcats/sensor/_sensor_rise_glf.py:48-55 and 144-146. -/
noncomputable def riseAsymmetry (nu : ℝ) : Py ℝ := if nu ≤ 0 then .error .valueError else .ok nu

/-- State of a `SensorRiseGLF`. Models simcats/sensor/_sensor_rise_glf.py:48-55. -/
structure RiseGlf where
  mu0 : ℝ
  g : GlfParams
  fullyCondPct : ℝ

/-- `SensorRiseGLF.fully_conductive`. Models simcats/sensor/_sensor_rise_glf.py:190-199. -/
noncomputable def RiseGlf.fullyConductive (r : RiseGlf) : ℝ :=
  inverseGlf r.g r.mu0 ((r.g.K - r.g.A) * r.fullyCondPct + r.g.A)

/-- `SensorRiseGLF.sensor_function(mu_sens, offset)` (one entry).
Models simcats/sensor/_sensor_rise_glf.py:212-219. -/
noncomputable def RiseGlf.sensorFunction (r : RiseGlf) (muSens offset : ℝ) : ℝ :=
  glf r.g (-r.fullyConductive + offset) muSens

end SimCATS
