import Mathlib.Data.Real.Basic

/-! Specification of acceptable voltages and measurement requests, independent of the model. -/

namespace SimCATS.Spec

/-- A voltage respects an optional limit (`none`: not restricted). -/
def Within (lim : Option (ℝ × ℝ)) (v : ℝ) : Prop := ∀ l, lim = some l → l.1 ≤ v ∧ v ≤ l.2

/-- Every entry of a voltage range respects a limit. -/
def RangeWithin (lim : Option (ℝ × ℝ)) (vs : List ℝ) : Prop := ∀ v ∈ vs, Within lim v

/-- A 2D request (two numbers of pixels) sweeps both gates with more than one pixel each. -/
def Sweeps2d (g1 g2 : List ℝ) (pixels : List ℤ) : Prop :=
  pixels.length = 2 → (∀ p ∈ pixels, 1 < p) ∧ g1[0]? ≠ g1[1]? ∧ g2[0]? ≠ g2[1]?

end SimCATS.Spec
