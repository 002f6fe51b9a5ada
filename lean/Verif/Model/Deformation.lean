import Verif.Model.Support
import Mathlib.Analysis.SpecialFunctions.Trigonometric.Inverse
import Mathlib.Data.Sign.Basic

/-!
Models of the sensor peak deformations.
-/

namespace SimCATS

/-- `np.sign`.
Library function, used in simcats/sensor/deformation/_sensor_peak_deformation_circle.py:86, 95. -/
noncomputable def npSign (x : ℝ) : ℝ := if x < 0 then -1 else if 0 < x then 1 else 0

/-- `np.clip(x, -1, 1)`.
Library function, used in simcats/sensor/deformation/_sensor_peak_deformation_circle.py:90. -/
noncomputable def clip1 (x : ℝ) : ℝ := min (max x (-1)) 1

/-- `SensorPeakDeformationCircle.calc_mu(dist, mu0)` for one distance; `alphaNorm` is
`np.linalg.norm(sensor.alpha_sensor_gate[0])`.
Models simcats/sensor/deformation/_sensor_peak_deformation_circle.py:81-98.
Simplification: a zero radius or zero norm (nan/inf in numpy) is totalised; the theorems exclude it. -/
noncomputable def circleCalcMu (radius alphaNorm dist mu0 : ℝ) : ℝ :=
  let dist := |dist|
  let radiusVolt := radius / alphaNorm
  let radiusAbs := |radiusVolt|
  let signRadius := npSign radius
  let angle := Real.arcsin (clip1 (dist / radiusAbs))
  let cosAngle := Real.cos angle
  let temp1 := mu0 - (radiusAbs - cosAngle * radiusAbs) * signRadius
  let temp2 := mu0 - radiusVolt * npSign radiusVolt
  if dist ≤ radiusAbs then temp1 else temp2

/-- `SensorPeakDeformationLinear.calc_mu(dist, mu0)` for one distance.
Models simcats/sensor/deformation/_sensor_peak_deformation_linear.py:68-72.
Simplification: an angle with tangent 0 (`ZeroDivisionError` in Python) is totalised; the theorems on its shape exclude it. -/
noncomputable def linearCalcMu (angle alphaNorm dist mu0 : ℝ) : ℝ :=
  let m := 1 / Real.tan angle
  mu0 + m * dist * alphaNorm

/-- The distance computed by the sensor for one pixel: signed distance from the middle line with slope `m` through
`mid`. Models simcats/sensor/_sensor_scan_sensor_generic.py:430-436 (and 865-867). -/
noncomputable def middleLineDist (mid : ℝ × ℝ) (m : ℝ) (p : ℝ × ℝ) : ℝ := signedDist mid (mid + (1, m)) p

end SimCATS
