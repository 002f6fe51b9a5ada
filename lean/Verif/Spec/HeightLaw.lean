import Verif.Model.DotJumps
import Verif.Spec.TelegraphLaw
import Mathlib.Probability.Distributions.Gaussian.Real
import Mathlib.Probability.Distributions.Poisson.Basic

/-!
Specification of the heights of dot jumps and telegraph noise.  The initial state of the generator is random, with the distribution `P`.
-/

namespace SimCATS.Spec

open MeasureTheory ProbabilityTheory

variable {τ α : Type}

/-- Repeated draws from the state `s` give `h 0`, `h 1`, .... -/
def DrawsInTurn (x : M τ α) (s : τ) (h : ℕ → α) : Prop := ∃ st : ℕ → τ, st 0 = s ∧ ∀ b, x (st b) = (.ok (h b), st (b + 1))

/-- The documented behaviour of `rng.geometric(p, size=n)` followed by any number of draws `amp` with the distribution `Q`: `n` independent
geometric numbers, and heights that are independent of them. -/
def LengthsThenHeights [MeasurableSpace τ] [MeasurableSpace α] (P : Measure τ) (rng : Rng τ) (p : ℝ) (n : ℕ) (amp : M τ α) (Q : Measure α) : Prop :=
  ∃ (W : Fin n → τ → ℕ) (H : ℕ → τ → α),
    (∀ s, ∃ w s', rng.geometric p n s = (.ok w, s') ∧ (∀ i : Fin n, w i = W i s) ∧ DrawsInTurn amp s' fun b => H b s) ∧
    (∀ i, Measurable (W i)) ∧ (∀ b, Measurable (H b)) ∧ iIndepFun W P ∧ IndepFun (fun s i => W i s) (fun s b => H b s) P ∧
    (∀ i g, P.real {s | W i s = g + 1} = (1 - p) ^ g * p) ∧ ∀ b, P.map (H b) = Q

/-- The values at `k`, ..., `k + l` are all the same and belong to `B`. -/
def Plateau (v : ℕ → α) (k l : ℕ) (B : Set α) : Prop := v k ∈ B ∧ ∀ j ≤ l, v (k + j) = v k

end SimCATS.Spec
