import Verif.Model.Tct
import Verif.Model.Support
import Verif.Spec.Geometry
import Mathlib.Analysis.SpecialFunctions.Trigonometric.Arctan

/-! The documented ranges of sampled charge stability diagrams. -/

namespace SimCATS.Spec

/-- The vector from the first valley of the next transition back to the first peak of this one (the interdot transition), if the
next transition is this one moved by `v`. -/
def interdot (p : TctParams) (v : ℝ × ℝ) : ℝ × ℝ := (v.1 + p.lenR, v.2 + p.lenR * p.gradR)

/-- The first transition `p` and the displacement `v` between successive transitions are in the documented ranges. -/
structure SampledFirst (p : TctParams) (v : ℝ × ℝ) : Prop where
  slopeL : 0.21429 ≤ p.gradL ∧ p.gradL ≤ 0.54688
  slopeR : -0.44 ≤ p.gradR ∧ p.gradR ≤ -0.07692
  /-- the angle between the two lead transitions -/
  angle : 0.43760867228 ≤ Real.arctan p.gradL - Real.arctan p.gradR ∧
    Real.arctan p.gradL - Real.arctan p.gradR ≤ 1.6789624091
  lenL : 0.01 ≤ p.lenL ∧ p.lenL ≤ 0.025
  lenR : 0.01 ≤ p.lenR ∧ p.lenR ≤ 0.025
  /-- the first arc starts at -0.14 V on both gates (the transitions are rotated by 45 degrees) -/
  start : rotatePoint (-Real.pi / 4) (p.x0, p.y0) = (-0.14, -0.14)
  /-- the chord of the arc has the mean slope -/
  chord : p.x0 < p.x2 ∧ p.y2 - p.y0 = (p.gradL + p.gradR) / 2 * (p.x2 - p.x0)
  width : 0.00043 ≤ dist (p.x0, p.y0) (p.x2, p.y2) ∧ dist (p.x0, p.y0) (p.x2, p.y2) ≤ 0.00814
  length : 0.00261 ≤ dist (0, 0) (interdot p v) ∧ dist (0, 0) (interdot p v) ≤ 0.00987
  ratio : 0.8692269873603532 ≤ dist (0, 0) (interdot p v) / dist (p.x0, p.y0) (p.x2, p.y2) ∧
    dist (0, 0) (interdot p v) / dist (p.x0, p.y0) (p.x2, p.y2) ≤ 9.055385138137407
  /-- the interdot transition is the direction of the left lead transition, turned counter-clockwise -/
  direction : ∃ t, 0.58153916891 ≤ t ∧ t ≤ 1.396938844 ∧
    interdot p v = (dist (0, 0) (interdot p v) * Real.cos (Real.arctan p.gradL + t),
      dist (0, 0) (interdot p v) * Real.sin (Real.arctan p.gradL + t))
  /-- both voltages increase along the interdot transition -/
  upwards : 0 ≤ (rotatePoint (-Real.pi / 4) (interdot p v)).1 ∧ 0 ≤ (rotatePoint (-Real.pi / 4) (interdot p v)).2

/-- The transition `p` moved `k` times by `v`. -/
def moved (p : TctParams) (v : ℝ × ℝ) (k : ℕ) : TctParams :=
  ⟨p.lenL, p.lenR, p.gradL, p.gradR, p.x0 + k * v.1, p.y0 + k * v.2, p.x2 + k * v.1, p.y2 + k * v.2⟩

/-- `n` transitions, each of them the previous one moved by `v`. -/
def ladder (p : TctParams) (v : ℝ × ℝ) (n : ℕ) : List TctParams := (List.range n).map (moved p v)

end SimCATS.Spec
