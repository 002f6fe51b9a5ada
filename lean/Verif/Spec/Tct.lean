import Mathlib.Data.Real.Basic

/-!
Independent specification of a quadratic Bezier curve (de Casteljau construction).
-/

namespace SimCATS.Spec

/-- The point dividing the segment `P Q` at ratio `s`. -/
def between (P Q : ℝ × ℝ) (s : ℝ) : ℝ × ℝ := (P.1 + s * (Q.1 - P.1), P.2 + s * (Q.2 - P.2))

/-- The point with parameter `s` of the quadratic Bezier curve with anchors `P`, `Q`, `R`. -/
def bezier (P Q R : ℝ × ℝ) (s : ℝ) : ℝ × ℝ := between (between P Q s) (between Q R s) s

/-- `(x, y)` lies on the Bezier arc with anchors `P`, `Q`, `R`. -/
def OnBezier (P Q R : ℝ × ℝ) (x y : ℝ) : Prop := ∃ s, 0 ≤ s ∧ s ≤ 1 ∧ bezier P Q R s = (x, y)

/-- `(x, y)` lies on the straight segment `P Q`. -/
def OnSegment (P Q : ℝ × ℝ) (x y : ℝ) : Prop := ∃ s, 0 ≤ s ∧ s ≤ 1 ∧ between P Q s = (x, y)

/-- `(x, y)` lies on the infinite rounded zigzag: in some period `k` it is on the rounded peak `P C R`, on the straight
part of slope `gR` that follows, on the rounded valley (the peak turned by 180 degrees around the middle of the lead
transition, so its corner is `lenR` to the right of `C` along slope `gR`), or on the straight part of slope `gL` that
leads to the next peak. -/
def OnZigzag (P C R : ℝ × ℝ) (lenL lenR gL gR x y : ℝ) : Prop :=
  ∃ k : ℤ,
    let x' := x - k * (lenL + lenR)
    let y' := y - k * (lenL * gL + lenR * gR)
    let V := (C.1 + lenR, C.2 + lenR * gR)
    let VL := (V.1 + C.1 - R.1, V.2 + C.2 - R.2)
    let VR := (V.1 + C.1 - P.1, V.2 + C.2 - P.2)
    let N := (P.1 + (lenL + lenR), P.2 + (lenL * gL + lenR * gR))
    OnBezier P C R x' y' ∨ OnSegment R VL x' y' ∨ OnBezier VL V VR x' y' ∨ OnSegment VR N x' y'

end SimCATS.Spec
