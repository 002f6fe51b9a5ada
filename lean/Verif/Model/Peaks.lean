import Verif.Model.Py
import Mathlib.Analysis.SpecialFunctions.Exp

/-!
Models of the sensor peak functions.
-/

namespace SimCATS

/-- `sensor_response_gauss` (one entry). Models simcats/sensor/_sensor_peak_gaussian.py:104.
Python precedence: `-((mu - mu0) / sigma) ** 2` is `-(((mu - mu0) / sigma) ** 2)`. -/
noncomputable def gaussResponse (mu mu0 sigma height offset : ℝ) : ℝ :=
  offset + height * Real.exp (-((mu - mu0) / sigma) ^ 2)

/-- `sensor_response_lorentz` (one entry). Models simcats/sensor/_sensor_peak_lorentzian.py:105. -/
noncomputable def lorentzResponse (mu mu0 gamma height offset : ℝ) : ℝ :=
  offset + height * gamma ^ 2 / (gamma ^ 2 + (mu - mu0) ^ 2)

/-- The two peak classes.
Models simcats/sensor/_sensor_peak_gaussian.py:13 and simcats/sensor/_sensor_peak_lorentzian.py:13. -/
inductive PeakKind
  | gaussian
  | lorentzian
  deriving DecidableEq

/-- State of a sensor peak object (`width` is `sigma` resp. `gamma`).
Models simcats/sensor/_sensor_peak_gaussian.py:26-29 and simcats/sensor/_sensor_peak_lorentzian.py:26-29. -/
structure Peak where
  kind : PeakKind
  mu0 : ℝ
  width : ℝ
  height : ℝ
  offset : ℝ

/-- Constructor: the width setter raises `ValueError` for non-positive widths.
Models simcats/sensor/_sensor_peak_gaussian.py:26-49 and the same code in _sensor_peak_lorentzian.py. -/
noncomputable def Peak.mk? (p : Peak) : Py Peak :=
  if p.width ≤ 0 then .error .valueError else .ok p

/-- `sensor_function` of a peak at one potential.
Models simcats/sensor/_sensor_peak_gaussian.py:79-81 and the same code in _sensor_peak_lorentzian.py. -/
noncomputable def Peak.eval (p : Peak) (mu : ℝ) : ℝ :=
  match p.kind with
  | .gaussian => gaussResponse mu p.mu0 p.width p.height p.offset
  | .lorentzian => lorentzResponse mu p.mu0 p.width p.height p.offset

end SimCATS
