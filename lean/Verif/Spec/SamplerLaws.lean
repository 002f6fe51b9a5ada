import Verif.Spec.Samplers
import Mathlib.Probability.ConditionalProbability
import Mathlib.Probability.Independence.Basic
import Mathlib.Probability.Distributions.Exponential
import Mathlib.Probability.Distributions.Gaussian.Real

/-!
Specification of the distributions of sampled parameters.  The initial state of the generator is random, with the distribution `P`.
-/

namespace SimCATS.Spec

open MeasureTheory ProbabilityTheory

/-- Successive draws never raise, and are independent with the distribution `μ`. -/
def DrawsFrom {τ : Type} [MeasurableSpace τ] (P : Measure τ) (draw : M τ ℝ) (μ : Measure ℝ) : Prop :=
  ∃ X : ℕ → τ → ℝ, (∀ n s, (nthDraw draw n s).1 = .ok (X n s)) ∧ (∀ n, Measurable (X n)) ∧ iIndepFun X P ∧ ∀ n, P.map (X n) = μ

/-- The documented distributions of `np.random.Generator`. -/
structure NumpyLaws {τ : Type} [MeasurableSpace τ] (P : Measure τ) (rng : DrawRng τ) : Prop where
  uniform : ∀ a b, a < b → DrawsFrom P (rng.uniform a b) (volume[|Set.Icc a b])
  normal : ∀ m std, 0 < std → DrawsFrom P (rng.normal m std) (gaussianReal m (std ^ 2).toNNReal)
  lognormal : ∀ m std, 0 < std → DrawsFrom P (rng.lognormal m std) ((gaussianReal m (std ^ 2).toNNReal).map Real.exp)
  exponential : ∀ scale, 0 < scale → DrawsFrom P (rng.exponential scale) (expMeasure (1 / scale))

/-- Calling `sample_parameter()` again and again returns the given values. -/
inductive Samples {τ : Type} (d : Sampler τ) : Option ℝ × τ → List ℝ → Prop
  | nil {s} : Samples d s []
  | cons {s v s' vs} : d.Call s (.ok v, s') → Samples d s' vs → Samples d s (v :: vs)

/-- The first calls of `sample_parameter()` return values in the given sets, one set for each call. -/
def FirstSamples {τ : Type} (d : Sampler τ) (o : Option ℝ) (Bs : List (Set ℝ)) : Set τ :=
  {s | ∃ vs, Samples d (o, s) vs ∧ List.Forall₂ (fun v B => v ∈ B) vs Bs}

/-- The sampled values are independent and have the distribution `ν`, whatever has been sampled before (`o`: the value sampled last). -/
def SamplesFrom {τ : Type} [MeasurableSpace τ] (P : Measure τ) (d : Sampler τ) (ν : Measure ℝ) : Prop :=
  ∀ (o : Option ℝ) (Bs : List (Set ℝ)), (∀ B ∈ Bs, MeasurableSet B) → P (FirstSamples d o Bs) = (Bs.map fun B => ν B).prod

end SimCATS.Spec
