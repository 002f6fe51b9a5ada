import Mathlib.Data.Real.Basic
import Mathlib.Data.List.Basic

/-!
Python values used by all models: exceptions as values, `np.linspace`.
Floats are modelled by real numbers (no rounding, no NaN/inf).
-/

namespace SimCATS

/-- The exception classes that the modelled code can raise.
Auxiliary definition, used for every function of simcats that raises, for instance simcats/_simulation.py:148-239. -/
inductive PyErr
  | valueError
  | typeError
  | indexError
  | assertionError
  | attributeError
  | notImplementedError
  | zeroDivisionError
  | unboundLocalError
  | overflowError
  deriving DecidableEq, Repr

/-- Result of a Python call: a value or a raised exception.
Auxiliary definition, used for every function of simcats that raises, for instance simcats/_simulation.py:148-239. -/
abbrev Py (α : Type) := Except PyErr α

/-- Entry `i` of `np.linspace(a, b, n)` (numpy: `start + i * (stop - start) / (n - 1)`, a single entry is
`start`).  Used e.g. in simcats/sensor/_sensor_generic.py:196-214. -/
noncomputable def linAt (a b : ℝ) (n i : ℕ) : ℝ := a + (i : ℝ) * ((b - a) / ((n : ℝ) - 1))

/-- `np.linspace(a, b, n)` as an array of length `n`.
Library function, used in simcats/ideal_csd/geometric/_get_electron_occupation.py:146-150, simcats/sensor/_sensor_generic.py:201-213. -/
noncomputable def linspace (a b : ℝ) (n : ℕ) : Fin n → ℝ := fun i => linAt a b n i

end SimCATS
