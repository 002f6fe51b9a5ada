import Verif.Model.Plot

/-! What a plot of a measurement should show. -/

namespace SimCATS.Spec

open SimCATS

/-- The voltage at place `x` (in pixels, 0 is the first one) of an axis with `n` pixels from voltage `a` to voltage `b`. -/
noncomputable def scaleAt (a b : ℝ) (n : ℕ) (x : ℝ) : ℝ := a + x * ((b - a) / ((n : ℝ) - 1))

/-- `k` ticks that lie on the axis and are labelled with the voltages of their places, the first at the first pixel and the
last (if there are several) at the last pixel. -/
def TicksName (label : ℝ → String) (n k : ℕ) (ticks : List (ℝ × String)) : Prop :=
  ticks.length = k ∧ (∀ t ∈ ticks, 0 ≤ t.1 ∧ t.1 ≤ (n : ℝ) - 1 ∧ t.2 = label t.1) ∧
  (∀ t, ticks.head? = some t → t.1 = 0) ∧ (2 ≤ k → ∀ t, ticks.getLast? = some t → t.1 = (n : ℝ) - 1) ∧
  (ticks.map Prod.fst).Pairwise (· < ·)

/-- The image shows each measured value exactly once, at the voltages at which it was measured: gate 1 from `h1.1` to `h1.2`
along x, gate 2 from `h2.1` to `h2.2` along y. -/
def ShowsImage {r c : ℕ} (csd : Fin r → Fin c → ℝ) (g1 g2 : ℝ × ℝ) (h1 h2 : ℝ × ℝ) (data : Fin r → Fin c → ℝ) : Prop :=
  ∃ (e : Fin r ≃ Fin r) (f : Fin c ≃ Fin c), ∀ i j, data i j = csd (e i) (f j) ∧
    scaleAt h1.1 h1.2 c j = linspace g1.1 g1.2 c (f j) ∧ scaleAt h2.1 h2.2 r i = linspace g2.1 g2.2 r (e i)

/-- The line shows each measured value exactly once, at the voltages at which it was measured. -/
def ShowsLine {n : ℕ} (csd : Fin n → ℝ) (g1 g2 : ℝ × ℝ) (h1 h2 : ℝ × ℝ) (data : Fin n → ℝ) : Prop :=
  ∃ e : Fin n ≃ Fin n, ∀ i, data i = csd (e i) ∧
    scaleAt h1.1 h1.2 n i = linspace g1.1 g1.2 n (e i) ∧ scaleAt h2.1 h2.2 n i = linspace g2.1 g2.2 n (e i)

/-- The text of a pair of voltages. -/
def pairText (fmt : ℝ → String) (a b : ℝ) : String := "(" ++ fmt a ++ ";" ++ fmt b ++ ")"

end SimCATS.Spec
