import Mathlib.Analysis.SpecialFunctions.Trigonometric.Basic

/-!
Specification of the points at which an image looks for a transition.
-/

namespace SimCATS.Spec

/-- The position of a pair of gate voltages along the transitions, which are rotated by `rot`. -/
noncomputable def alongTransition (rot : ℝ) (v : ℝ × ℝ) : ℝ := Real.cos rot * v.1 + Real.sin rot * v.2

/-- The gate voltages of a point that is given by its position along the transitions and across them. -/
noncomputable def gateVoltages (rot x y : ℝ) : ℝ × ℝ := (Real.cos rot * x - Real.sin rot * y, Real.sin rot * x + Real.cos rot * y)

/-- The side of a pixel of an axis with `n` pixels. -/
noncomputable def pixelSide (g : ℝ × ℝ) (n : ℕ) : ℝ := |g.2 - g.1| / ((n : ℝ) - 1)

/-- The positions at which an image samples the transitions: `4 * (rows + cols)` equidistant ones between the outermost corners of the image, and one
pixel further on both sides. -/
noncomputable def samplePosition (rot : ℝ) (g1 g2 : ℝ × ℝ) (rows cols m : ℕ) : ℝ :=
  let a := alongTransition rot (g1.1, g2.1)
  let b := alongTransition rot (g1.1, g2.2)
  let c := alongTransition rot (g1.2, g2.1)
  let d := alongTransition rot (g1.2, g2.2)
  let lo := min (min a b) (min c d) - pixelSide g1 cols
  let hi := max (max a b) (max c d) + pixelSide g1 cols
  lo + m * ((hi - lo) / (4 * ((rows : ℝ) + cols) - 1))

/-- One of the sampled points of the transition `f` lies in the image, or less than half a pixel outside. -/
def SamplesInside (rot : ℝ) (f : ℝ → ℝ) (g1 g2 : ℝ × ℝ) (rows cols : ℕ) : Prop :=
  ∃ m < 4 * (rows + cols), ∃ x P, x = samplePosition rot g1 g2 rows cols m ∧ P = gateVoltages rot x (f x) ∧
    min g1.1 g1.2 - pixelSide g1 cols / 2 < P.1 ∧ P.1 < max g1.1 g1.2 + pixelSide g1 cols / 2 ∧
    min g2.1 g2.2 - pixelSide g2 rows / 2 < P.2 ∧ P.2 < max g2.1 g2.2 + pixelSide g2 rows / 2

end SimCATS.Spec
