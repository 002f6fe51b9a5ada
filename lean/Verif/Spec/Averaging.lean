import Verif.Spec.WhiteNoiseLaw
import Verif.Spec.History

/-!
Specification of repeated measurements with white noise.
-/

namespace SimCATS.Spec

open MeasureTheory ProbabilityTheory

variable {τ ω α σ : Type}

/-- The generator goes on with its stream of numbers: after `n` numbers have been drawn the next ones are `X n`, `X (n + 1)`, .... -/
def GoesOn (own : τ → ω) (noise : ℝ → ℕ → M τ (List ℝ)) (X : ℕ → ω → ℝ) : Prop :=
  ∀ v n g l h, noise v n g = (.ok l, h) → ∀ k, X k (own h) = X (n + k) (own g)

/-- The first of the three returned arrays: the CSD or the sensor scan. -/
def resultSignal : MeasureResult → Scan ℝ
  | .csd out => out.1
  | .scan out => out.1

/-- The result `r` is the result `r0` with `v` times the numbers `z 0`, `z 1`, ... added to the signal. -/
def NoiseAdded (r0 : MeasureResult) (v : ℝ) (z : ℕ → ℝ) (r : MeasureResult) : Prop :=
  match r0, r with
  | .csd out0, .csd out => PlusNoise out0.1 v z out.1 ∧ out.2 = out0.2
  | .scan out0, .scan out => PlusNoise out0.1 v z out.1 ∧ out.2 = out0.2
  | _, _ => False

/-- The same call `N` times: the list of the results. -/
def Repeat (x : M σ α) : ℕ → M σ (List α)
  | 0 => pure []
  | N + 1 => do
    let a ← x
    let l ← Repeat x N
    pure (a :: l)

/-- The mean of pixel `k` over all measurements. -/
noncomputable def meanAt (l : List (Scan ℝ × α)) (k : ℕ) : ℝ := (l.map fun out => pixelAt out.1 k).sum / l.length

/-- `N` measurements succeed and in each measurement `j` the further results are `a` and the difference of pixel `k` from that of the signal `y` belongs to
`B j k`. -/
def AllDiffer (x : M (SimState τ) (Scan ℝ × α)) (s : SimState τ) (N : ℕ) (y : Scan ℝ) (a : α) (B : ℕ → ℕ → Set ℝ) : Set τ :=
  {g | ∃ l s', Repeat x N (withGenerators s g) = (.ok l, s') ∧ l.length = N ∧
    ∀ j < N, ∃ out, l[j]? = some out ∧ out.2 = a ∧ ∀ k < y.size, pixelAt out.1 k - pixelAt y k ∈ B j k}

/-- `N` measurements succeed and the mean of pixel `k` over these measurements belongs to `B k`. -/
def MeanIn (x : M (SimState τ) (Scan ℝ × α)) (s : SimState τ) (N n : ℕ) (B : ℕ → Set ℝ) : Set τ :=
  {g | ∃ l s', Repeat x N (withGenerators s g) = (.ok l, s') ∧ ∀ k < n, meanAt l k ∈ B k}

end SimCATS.Spec
