import Verif.Spec.HeightLaw
import Verif.Spec.DotJumps

/-!
Specification of the dot jumps that are visible in an image.  The initial state of the generator is random, with the distribution `P`.
-/

namespace SimCATS.Spec

open MeasureTheory ProbabilityTheory

variable {τ : Type}

/-- The documented behaviour of `rng.binomial(1, r)`, then `rng.geometric(p, size=n)`, then any number of draws `rng.poisson(lam)`: a number that
is 1 with probability `r`, `n` geometric numbers and Poisson numbers; the three groups are independent, and so are the geometric numbers. -/
def CoinLengthsHeights [MeasurableSpace τ] (P : Measure τ) (rng : Rng τ) (r p lam : ℝ) (n : ℕ) : Prop :=
  ∃ (X : τ → Bool) (W : Fin n → τ → ℕ) (H : ℕ → τ → ℕ),
    (∀ s, ∃ s1 w s2, rng.binomial r s = (.ok (X s), s1) ∧ rng.geometric p n s1 = (.ok w, s2) ∧ (∀ i : Fin n, w i = W i s) ∧
      DrawsInTurn (rng.poisson lam) s2 fun b => H b s) ∧
    Measurable X ∧ (∀ i, Measurable (W i)) ∧ (∀ b, Measurable (H b)) ∧
    IndepFun X (fun s => ((fun i => W i s), fun b => H b s)) P ∧ iIndepFun W P ∧ IndepFun (fun s i => W i s) (fun s b => H b s) P ∧
    P.real {s | X s = true} = r ∧ (∀ i g, P.real {s | W i s = g + 1} = (1 - p) ^ g * p) ∧ ∀ b, P.map (H b) = poissonMeasure lam.toNNReal

/-- The voltage that pixel `j` of an axis with `n` pixels shows after a jump by `h` pixels: that of the pixel `h` pixels before it; the pixels before
the first pixel are those of the additional scan that the distortion requests (C32). -/
noncomputable def shownVolt (g : ℝ × ℝ) (n h j : ℕ) : ℝ :=
  if h ≤ j then sweepVolt g n (j - h) else g.1 - ((h : ℝ) - j) * ((g.2 - g.1) / n)

/-- The columns `k`, ..., `k + l` of the image show `F` and `L`, all of them shifted by `h` pixels along gate 1. -/
def ColumnsShow (F : ℝ → ℝ → ℝ × ℝ) (L : ℝ → ℝ → ℕ) (g1 g2 : ℝ × ℝ) (rows cols k l h : ℕ) (out : CsdData) : Prop :=
  ∃ occ lead, out = (.d2 rows cols occ, .d2 rows cols lead) ∧ ∀ (i : Fin rows) (j : Fin cols), k ≤ j → j ≤ k + l →
    occ i j = F (shownVolt g1 cols h j) (sweepVolt g2 rows i) ∧ lead i j = L (shownVolt g1 cols h j) (sweepVolt g2 rows i)

/-- The rows `k`, ..., `k + l` of the image show `F` and `L`, all of them shifted by `h` pixels along gate 2. -/
def RowsShow (F : ℝ → ℝ → ℝ × ℝ) (L : ℝ → ℝ → ℕ) (g1 g2 : ℝ × ℝ) (rows cols k l h : ℕ) (out : CsdData) : Prop :=
  ∃ occ lead, out = (.d2 rows cols occ, .d2 rows cols lead) ∧ ∀ (i : Fin rows) (j : Fin cols), k ≤ i → i ≤ k + l →
    occ i j = F (sweepVolt g1 cols j) (shownVolt g2 rows h i) ∧ lead i j = L (sweepVolt g1 cols j) (shownVolt g2 rows h i)

/-- The initial states of the generator from which the distortion returns an image with the property `p`. -/
def JumpImage (d : DotJumps τ) (data : CsdData) (g1 g2 : ℝ × ℝ) (gen : Gen (DotState × τ)) (st : DotState) (p : CsdData → Prop) : Set τ :=
  {s | ∃ out s', d.noiseFunction data g1 g2 gen false (st, s) = (.ok out, s') ∧ p out}

end SimCATS.Spec
