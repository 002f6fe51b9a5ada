import Mathlib.Analysis.SpecialFunctions.Trigonometric.DerivHyp
import Mathlib.Algebra.BigOperators.Intervals
import Mathlib.Data.Int.Interval

/-! What is documented about `fermi_filter1d`: how a line is extended beyond its boundaries, and the weights of the filter. -/

namespace SimCATS.Spec

/-- The names of the modes that reflect about the edge of the last pixel. -/
def ReflectMode (mode : String) : Prop := mode = "reflect" ∨ mode = "grid-mirror"

/-- The names of the modes that fill with a constant. -/
def ConstantMode (mode : String) : Prop := mode = "constant" ∨ mode = "grid-constant"

/-- The names of the modes that wrap around. -/
def WrapMode (mode : String) : Prop := mode = "wrap" ∨ mode = "grid-wrap"

/-- The documented names of modes. -/
def KnownMode (mode : String) : Prop := ReflectMode mode ∨ ConstantMode mode ∨ WrapMode mode ∨ mode = "nearest" ∨ mode = "mirror"

/-- The line `F` without ends is the line `f`, extended beyond its boundaries in the given mode. -/
structure Extends (mode : String) (cval : ℝ) {n : ℕ} (f : Fin n → ℝ) (F : ℤ → ℝ) : Prop where
  /-- the line itself -/
  inside : ∀ i : Fin n, F ((i : ℕ) : ℤ) = f i
  /-- (d c b a | a b c d | d c b a) -/
  reflect : ReflectMode mode → ∀ k : ℤ, F (-1 - k) = F k ∧ F (2 * n - 1 - k) = F k
  /-- (k k k k | a b c d | k k k k) -/
  constant : ConstantMode mode → ∀ k : ℤ, k < 0 ∨ n ≤ k → F k = cval
  /-- (a a a a | a b c d | d d d d) -/
  nearest : mode = "nearest" → (∀ k : ℤ, k < 0 → F k = F 0) ∧ ∀ k : ℤ, n ≤ k → F k = F (n - 1)
  /-- (d c b | a b c d | c b a) -/
  mirror : mode = "mirror" → ∀ k : ℤ, F (-k) = F k ∧ F (2 * ((n : ℤ) - 1) - k) = F k ∧ (n = 1 → F k = F 0)
  /-- (a b c d | a b c d | a b c d) -/
  wrap : WrapMode mode → ∀ k : ℤ, F (k + n) = F k

/-- `r` is the integer closest to `x`, the even one of two such integers. -/
def RoundsTo (x : ℝ) (r : ℤ) : Prop := |x - r| ≤ 1 / 2 ∧ (|x - r| = 1 / 2 → Even r)

/-- The radius of the kernel: the given one, by default four times the width, rounded. -/
def RadiusOf (σ : ℝ) : Option ℤ → ℤ → Prop
  | none, r => RoundsTo (4 * σ) r
  | some r', r => r' = r

/-- The weights of a filter of the given width and radius: the derivative of the Fermi-Dirac distribution, normalised. -/
noncomputable def fermiWeight (σ : ℝ) (R : ℕ) (k : ℤ) : ℝ :=
  (1 / Real.cosh (k / σ)) ^ 2 / ∑ i ∈ Finset.Icc (-(R : ℤ)) R, (1 / Real.cosh (i / σ)) ^ 2

end SimCATS.Spec
