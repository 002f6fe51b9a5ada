import Verif.Model.Py
import Mathlib.Analysis.SpecialFunctions.Trigonometric.Basic
import Mathlib.Analysis.SpecialFunctions.Sqrt

/-!
Models of the geometric helper functions in simcats/support_functions.
-/

namespace SimCATS

/-- One row of `rotate_points(points, angle)`: the 2x2 rotation matrix applied to one point.
Models simcats/support_functions/_rotate_points.py:22-24. -/
noncomputable def rotatePoint (angle : ℝ) (p : ℝ × ℝ) : ℝ × ℝ :=
  (Real.cos angle * p.1 + -Real.sin angle * p.2, Real.sin angle * p.1 + Real.cos angle * p.2)

/-- `rotate_points(points, angle)`. Models simcats/support_functions/_rotate_points.py:10-24. -/
noncomputable def rotatePoints (points : List (ℝ × ℝ)) (angle : ℝ) : List (ℝ × ℝ) :=
  points.map (rotatePoint angle)

/-- `np.cross` of two 2D vectors (numpy).
Library function, used in simcats/support_functions/_signed_dist_points_line.py:22-24. -/
def cross2 (u v : ℝ × ℝ) : ℝ := u.1 * v.2 - u.2 * v.1

/-- `np.linalg.norm` of a 2D vector (numpy).
Library function, used in simcats/support_functions/_signed_dist_points_line.py:22-24. -/
noncomputable def norm2 (u : ℝ × ℝ) : ℝ := Real.sqrt (u.1 ^ 2 + u.2 ^ 2)

/-- `signed_dist_points_line` for one point and the line through `l0`, `l1`.
Models simcats/support_functions/_signed_dist_points_line.py:22-24.
Simplification: for `l0 = l1` numpy divides by zero (nan with a warning), the model returns 0. -/
noncomputable def signedDist (l0 l1 p : ℝ × ℝ) : ℝ := -cross2 (l1 - l0) (p - l0) / norm2 (l1 - l0)

/-- `pixel_to_volt_1d(pixel, pixel_num, [v0, v1])`; division of Python ints, so `pixel_num = 0` raises
`ZeroDivisionError`. Models simcats/support_functions/_pixel_volt_transformation.py:24. -/
noncomputable def pixelToVolt (pixel : ℝ) (pixelNum : ℕ) (v0 v1 : ℝ) : Py ℝ :=
  if pixelNum = 0 then .error .zeroDivisionError
  else .ok (v0 + (v1 - v0) * (pixel / (pixelNum : ℝ)))

/-- The Python values that can be passed as a line.
Models simcats/support_functions/_linear_algebra.py:13-37 and 40-95 (the types of the argument). -/
inductive LineArg
  /-- a Python `int` -/
  | int (b : ℤ)
  /-- a Python `float` -/
  | float (b : ℝ)
  /-- a tuple of floats of any length -/
  | tuple (xs : List ℝ)

/-- `is_point_below_line(point, line)`.
Models simcats/support_functions/_linear_algebra.py:24-37. -/
noncomputable def isPointBelowLine (p : ℝ × ℝ) (line : LineArg) : Py Bool :=
  match line with
  | .int b => .ok (decide (p.2 < (b : ℝ)))
  | .tuple [m, b] => .ok (decide (p.2 < m * p.1 + b))
  | _ => .error .valueError

/-- `line_line_intersection(line1, line2)`; a number is a vertical line, a pair is `m*x+b`.
Models simcats/support_functions/_linear_algebra.py:58-95 (sequences are modelled as tuples). -/
noncomputable def lineLineIntersection (l1 l2 : LineArg) : Py (ℝ × ℝ) :=
  -- lines 58-60: both arguments are a number or a sequence of two elements
  let num : LineArg → Option ℝ := fun
    | .int b => some b
    | .float b => some b
    | .tuple _ => none
  let bad : LineArg → Bool := fun
    | .tuple xs => xs.length ≠ 2
    | _ => false
  if bad l1 || bad l2 then .error .valueError
  else match l1, l2 with
    | .tuple [m1, b1], .tuple [m2, b2] =>
      -- lines 63-78
      if m1 = m2 then .error .valueError
      else
        let x := (b2 - b1) / (m1 - m2)
        .ok (x, m1 * x + b1)
    | .tuple [m1, b1], v => -- lines 81-83
      match num v with
      | some c => .ok (c, m1 * c + b1)
      | none => .error .valueError
    | v, .tuple [m2, b2] => -- lines 86-88
      match num v with
      | some c => .ok (c, m2 * c + b2)
      | none => .error .valueError
    | _, _ => .error .valueError -- lines 91-95

/-- Argument `line` of `line_circle_intersection`: a tuple `(m, b)` or a vertical line.
Models simcats/support_functions/_linear_algebra.py:98-171 (the types of the argument). -/
inductive CircLine
  | slope (m b : ℝ)
  | vertical (c : ℝ)

/-- `line_circle_intersection(line, (cx, cy), radius)`.
Models simcats/support_functions/_linear_algebra.py:114-171. -/
noncomputable def lineCircleIntersection (line : CircLine) (cx cy radius : ℝ) : Py (List (ℝ × ℝ)) :=
  if radius ≤ 0 then .error .valueError
  else match line with
    | .slope m b =>
      let A := 1 + m ^ 2
      let B := 2 * (m * b - m * cy - cx)
      let C := cx ^ 2 + cy ^ 2 + b ^ 2 - 2 * b * cy - radius ^ 2
      let disc := B ^ 2 - 4 * A * C
      if disc < 0 then .ok []
      else if disc = 0 then
        let x := -B / (2 * A)
        .ok [(x, m * x + b)]
      else
        let s := Real.sqrt disc
        let x1 := (-B + s) / (2 * A)
        let x2 := (-B - s) / (2 * A)
        .ok [(x1, m * x1 + b), (x2, m * x2 + b)]
    | .vertical c =>
      let A : ℝ := 1
      let B := -2 * cy
      let C := cy ^ 2 + (c - cx) ^ 2 - radius ^ 2
      let disc := B ^ 2 - 4 * A * C
      if disc < 0 then .ok []
      else if disc = 0 then .ok [(c, -B / (2 * A))]
      else
        let s := Real.sqrt disc
        .ok [(c, (-B + s) / (2 * A)), (c, (-B - s) / (2 * A))]

end SimCATS
