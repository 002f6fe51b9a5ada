import Verif.Model.Simulation
import Mathlib.Data.Fin.Rev
import Mathlib.Analysis.SpecialFunctions.Trigonometric.DerivHyp
import Mathlib.Analysis.SpecialFunctions.Exp
import Mathlib.Data.Real.Basic
import Mathlib.Algebra.BigOperators.Fin

/-!
Specification of blurring along a line of pixels.
-/

namespace SimCATS.Spec

/-- Weights of an average over a line of `n` pixels: pixel `p` receives the fraction `A p q` of pixel `q`.  Each pixel is a
weighted average, every pixel is distributed completely, and the weights do not depend on the direction of the line. -/
structure Averaging {n : ℕ} (A : Fin n → Fin n → ℝ) : Prop where
  nonneg : ∀ p q, 0 ≤ A p q
  rows : ∀ p, ∑ q, A p q = 1
  cols : ∀ q, ∑ p, A p q = 1
  mirror : ∀ p q, A p.rev q.rev = A p q

/-- The average with weights `A`. -/
def average {n : ℕ} (A : Fin n → Fin n → ℝ) (f : Fin n → ℝ) (p : Fin n) : ℝ := ∑ q, A p q * f q

/-- Values are moved by at most `R` pixels. -/
def Reach {n : ℕ} (R : ℝ) (A : Fin n → Fin n → ℝ) : Prop := ∀ p q : Fin n, R < |(p : ℝ) - q| → A p q = 0

/-- At least `R` pixels away from the ends of the line, the weights are a fixed multiple of the profile `v` of the distance, cut
off after `R` pixels, where `R` is between `lo` and `hi`. -/
def Profile {n : ℕ} (lo hi : ℝ) (v : ℝ → ℝ) (A : Fin n → Fin n → ℝ) : Prop :=
  ∃ R : ℕ, lo ≤ R ∧ R ≤ hi ∧ ∃ c > 0, ∀ p q : Fin n, R ≤ (p : ℕ) → p + R < n →
    (|(p : ℤ) - q| ≤ R → A p q = c * v (p - q)) ∧ (R < |(p : ℤ) - q| → A p q = 0)

/-- The profile of the Fermi-Dirac blurring: the derivative of the Fermi-Dirac distribution. -/
noncomputable def fermiProfile (s x : ℝ) : ℝ := 1 / Real.cosh (x / s) ^ 2

/-- The profile of the Gaussian blurring. -/
noncomputable def gaussProfile (s x : ℝ) : ℝ := Real.exp (-x ^ 2 / (2 * s ^ 2))

/-- `y` is `x` with both dots averaged along each row (weights `A`). -/
def Blurred (A : (n : ℕ) → Fin n → Fin n → ℝ) : Scan (ℝ × ℝ) → Scan (ℝ × ℝ) → Prop
  | .d0 _, _ => False
  | .d1 n f, y => ∃ g, y = .d1 n g ∧
    ∀ p, (g p).1 = average (A n) (fun q => (f q).1) p ∧ (g p).2 = average (A n) (fun q => (f q).2) p
  | .d2 r c f, y => ∃ g, y = .d2 r c g ∧
    ∀ i p, (g i p).1 = average (A c) (fun q => (f i q).1) p ∧ (g i p).2 = average (A c) (fun q => (f i q).2) p

end SimCATS.Spec
