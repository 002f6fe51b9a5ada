import Verif.Model.Samplers

/-!
Specification of samplers.
-/

namespace SimCATS.Spec

/-- The values between the two ends of a range, in either order. -/
def Inside (r : ℝ × ℝ) (v : ℝ) : Prop := min r.1 r.2 ≤ v ∧ v ≤ max r.1 r.2

/-- A range narrowed to the width `w` (if given and smaller than the total range): it lies in the total range, has the width
`w` and the direction of the total range. -/
def Narrowed (total : ℝ × ℝ) : Option ℝ → ℝ × ℝ → Prop
  | none, r => r = total
  | some w, r =>
    (|total.2 - total.1| ≤ w → r = total) ∧
    (w < |total.2 - total.1| → Inside total r.1 ∧ Inside total r.2 ∧ |r.2 - r.1| = w ∧
      (total.1 < total.2 → r.1 ≤ r.2) ∧ (total.2 < total.1 → r.2 ≤ r.1))

/-- The value that `last_sample()` has to return after the given events (`start`: the value before them). -/
def lastSample (start : Option ℝ) : List SamplerEvent → Option ℝ
  | [] => start
  | .sampled v :: es => lastSample (some v) es
  | _ :: es => lastSample start es

/-- The `n`-th draw (from 0) in a sequence of draws. -/
def nthDraw {τ : Type} (draw : M τ ℝ) : ℕ → τ → Py ℝ × τ
  | 0, s => draw s
  | n + 1, s => nthDraw draw n (draw s).2

end SimCATS.Spec
