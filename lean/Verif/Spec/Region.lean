import Mathlib.Data.Real.Basic
import Mathlib.Data.List.Basic

/-!
Independent specification of charge regions.
-/

namespace SimCATS.Spec

open Classical in
/-- The charge region of the point `q` with respect to an ordered family of transitions (graphs of functions): the
number of leading transitions that lie at or below the point, i.e. the position of the first transition above it
(all of them, if none is above). -/
noncomputable def region (curves : List (ℝ → ℝ)) (q : ℝ × ℝ) : ℕ :=
  curves.findIdx fun f => decide (q.2 < f q.1)

/-- The occupations `o` of the two dots are a distribution of `n` electrons. -/
def Distributes (n : ℕ) (o : ℝ × ℝ) : Prop :=
  0 ≤ o.1 ∧ 0 ≤ o.2 ∧ o.1 + o.2 = n

end SimCATS.Spec
