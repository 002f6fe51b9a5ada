import Verif.Spec.Geometry
import Verif.Model.Tct
import Verif.Model.Occupation

/-! Specification of how the electrons of a charge region are distributed over the two dots. -/

namespace SimCATS.Spec

/-- Signed distance of the point `a` from the line through `P` and `V`: positive on the right-hand side when looking from
`P` to `V`. -/
noncomputable def rightOf (P V a : ℝ × ℝ) : ℝ := area2 V P a / dist V P

/-- The cumulative distribution functions offered for the occupations (position, centre, width). -/
noncomputable def cdfOf : CdfType → ℝ → ℝ → ℝ → ℝ
  | .sigmoid => sigmoidCdf
  | .cauchy => cauchyCdf
  | .other => fun _ _ _ => 0

/-- The factor between coupling range and width: the configured one, otherwise 2.2 (sigmoid) or 6.15 (Cauchy). -/
noncomputable def gammaOf : CdfType → Option ℝ → ℝ
  | _, some g => g
  | .sigmoid, none => 2.2
  | .cauchy, none => 6.15
  | .other, none => 0

/-- The interdot transitions of the charge region with `k` electrons, as described by the table `coords` of anchors: the
first one runs from `P` (first peak of transition `k`) up to `V` (first valley of transition `k + 1`), and `T j` is the
peak of transition `k` at which the `j`-th interdot transition starts. -/
structure Interdots (coords : ℕ → Option (List Anchor)) (k : ℕ) (P V : ℝ × ℝ) (T : Fin k → Anchor) : Prop where
  valley : ∃ rows a, coords (k + 1) = some rows ∧ rows[1]? = some a ∧ a.center = V
  peak : ∃ rows a, coords k = some rows ∧ rows[0]? = some a ∧ a.center = P
  starts : ∃ rows, coords k = some rows ∧ ∀ j : Fin k, rows[2 * (j : ℕ)]? = some (T j)

/-- Range of positions over which the `j`-th interdot transition is rounded by the tunnel coupling. -/
noncomputable def coupling (P V : ℝ × ℝ) (a : Anchor) : ℝ := rightOf P V a.right - rightOf P V a.left

end SimCATS.Spec
