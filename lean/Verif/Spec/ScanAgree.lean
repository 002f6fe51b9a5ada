import Verif.Spec.ChargeMonotone

/-! Vocabulary for comparing the scans of one configuration at the same voltages. -/

namespace SimCATS.Spec

/-- The transitions (within `ε` of curves with slopes up to `L`) are sampled densely compared with the sides of the pixels of an image with
`r` rows and `c` columns: the distance of two sampled points is less than both sides. -/
def DenseImage (rotation : ℝ) (curves : List (ℝ → ℝ)) (L ε a1 b1 a2 b2 : ℝ) (r c : ℕ) : Prop :=
  (∀ f ∈ curves, NearLipschitz L ε f) ∧
    √(1 + L ^ 2) * sampleDistance rotation |b1 - a1| |b2 - a2| r c + 4 * ε < min (|b1 - a1| / ((c : ℝ) - 1)) (|b2 - a2| / ((r : ℝ) - 1))

end SimCATS.Spec
