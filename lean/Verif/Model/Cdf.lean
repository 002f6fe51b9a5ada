import Verif.Model.Py
import Mathlib.Analysis.SpecialFunctions.Trigonometric.Arctan
import Mathlib.Analysis.SpecialFunctions.Trigonometric.DerivHyp

/-!
Models of simcats/support_functions/_cumulative_distribution_functions.py.
-/

namespace SimCATS

/-- `np.isclose(gam, 0.0)` with numpy's default tolerances: `|gam - 0| <= 1e-8 + 1e-5 * 0`.
Library function, used in simcats/support_functions/_cumulative_distribution_functions.py:24 and 64. -/
def isCloseZero (gam : ℝ) : Prop := |gam| ≤ 1e-8

/-- Auxiliary definition, used for simcats/support_functions/_cumulative_distribution_functions.py:24 and 64. -/
noncomputable instance (gam : ℝ) : Decidable (isCloseZero gam) := Classical.propDecidable _

/-- The step branch shared by both CDFs: first positive entries become 1, then negative entries become 0,
an entry equal to 0 stays 0.
Models simcats/support_functions/_cumulative_distribution_functions.py:25-28 and 65-68 (one array entry). -/
noncomputable def stepCdf (x x0 : ℝ) : ℝ :=
  let result := x - x0
  let result := if result > 0 then 1 else result
  if result < 0 then 0 else result

/-- `sigmoid_cdf` (one array entry).
Models simcats/support_functions/_cumulative_distribution_functions.py:24-29. -/
noncomputable def sigmoidCdf (x x0 gam : ℝ) : ℝ :=
  if isCloseZero gam then stepCdf x x0 else 0.5 * (1 + Real.tanh ((x - x0) / gam))

/-- `cauchy_cdf` (one array entry).
Models simcats/support_functions/_cumulative_distribution_functions.py:64-69. -/
noncomputable def cauchyCdf (x x0 gam : ℝ) : ℝ :=
  if isCloseZero gam then stepCdf x x0 else 1 / Real.pi * Real.arctan ((x - x0) / gam) + 0.5

/-- Sum over the pairs `params[i : i + 2]` of a flat parameter list.
Models simcats/support_functions/_cumulative_distribution_functions.py:48 and 88. -/
noncomputable def sumPairs (cdf : ℝ → ℝ → ℝ → ℝ) (x : ℝ) : List ℝ → ℝ
  | x0 :: gam :: rest => cdf x x0 gam + sumPairs cdf x rest
  | _ => 0

/-- `multi_sigmoid_cdf` / `multi_cauchy_cdf`: assertion on the parity, then the sum.
Models simcats/support_functions/_cumulative_distribution_functions.py:47-48 and 87-88. -/
noncomputable def multiCdf (cdf : ℝ → ℝ → ℝ → ℝ) (x : ℝ) (params : List ℝ) : Py ℝ :=
  if params.length % 2 ≠ 0 then .error .assertionError else .ok (sumPairs cdf x params)

end SimCATS
