import Mathlib.Data.Real.Basic
import Mathlib.Analysis.Real.Sqrt

/-!
Independent specifications: points, lines and circles of the plane as point sets.
-/

namespace SimCATS.Spec

/-- Euclidean distance of two points. -/
noncomputable def dist (p q : ℝ × ℝ) : ℝ := Real.sqrt ((p.1 - q.1) ^ 2 + (p.2 - q.2) ^ 2)

/-- `p` lies on the line `y = m*x + b`. -/
def OnLine (m b : ℝ) (p : ℝ × ℝ) : Prop := p.2 = m * p.1 + b

/-- `p` lies on the vertical line `x = c`. -/
def OnVertical (c : ℝ) (p : ℝ × ℝ) : Prop := p.1 = c

/-- `p` lies on the circle around `c` with radius `r`. -/
def OnCircle (c : ℝ × ℝ) (r : ℝ) (p : ℝ × ℝ) : Prop := (p.1 - c.1) ^ 2 + (p.2 - c.2) ^ 2 = r ^ 2

/-- Point with parameter `t` of the line through `l0` and `l1`. -/
def linePoint (l0 l1 : ℝ × ℝ) (t : ℝ) : ℝ × ℝ := (l0.1 + t * (l1.1 - l0.1), l0.2 + t * (l1.2 - l0.2))

/-- Twice the signed area of the triangle `a b c` (positive: counter-clockwise). -/
def area2 (a b c : ℝ × ℝ) : ℝ := (b.1 - a.1) * (c.2 - a.2) - (b.2 - a.2) * (c.1 - a.1)

end SimCATS.Spec
