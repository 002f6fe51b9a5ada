import Verif.Spec.Components

/-! The electrons shown at a pair of plunger voltages. -/

namespace SimCATS.Spec

/-- Both plunger voltages of `Q` are at least as high as those of `P`. -/
def Raised (P Q : ℝ × ℝ) : Prop := P.1 ≤ Q.1 ∧ P.2 ≤ Q.2

/-- Pixel voltages of the pixel `i` of a line with `n` pixels. -/
noncomputable def lineVoltages (a1 b1 a2 b2 : ℝ) (n i : ℕ) : ℝ × ℝ :=
  (a1 + i * ((b1 - a1) / (n - 1)), a2 + i * ((b2 - a2) / (n - 1)))

/-- All four limits of the sweep are between the limits of the gates. -/
def SweepInside (lim1 lim2 : ℝ × ℝ) (a1 b1 a2 b2 : ℝ) : Prop :=
  (lim1.1 ≤ a1 ∧ a1 ≤ lim1.2) ∧ (lim1.1 ≤ b1 ∧ b1 ≤ lim1.2) ∧ (lim2.1 ≤ a2 ∧ a2 ≤ lim2.2) ∧ lim2.1 ≤ b2 ∧ b2 ≤ lim2.2

/-- The pixels have sides of at least 0.06 mV, none of them more than three times as long as the other one. -/
def FinePixels (a1 b1 a2 b2 : ℝ) (r c : ℕ) : Prop :=
  ∃ sx sy : ℝ, |b1 - a1| = sx * ((c : ℝ) - 1) ∧ |b2 - a2| = sy * ((r : ℝ) - 1) ∧ 0.00006 ≤ sx ∧ 0.00006 ≤ sy ∧ sx ≤ 3 * sy ∧ sy ≤ 3 * sx

/-- Some scan of the function `csd` shows the occupation `o` at the plunger voltages `P`: a pixel of a line between the limits of the
gates, or an unlabelled pixel of an image with pixels as in `FinePixels`. -/
inductive Shown (csd : List ℝ → List ℝ → Resolution → Py IdealOut) (lim1 lim2 : ℝ × ℝ) : ℝ × ℝ → ℝ × ℝ → Prop
  | line (a1 b1 a2 b2 : ℝ) (n : ℕ) (occ : Fin n → ℝ × ℝ) (lead : Fin n → ℕ) (hin : SweepInside lim1 lim2 a1 b1 a2 b2)
      (h : csd [a1, b1] [a2, b2] (.int n) = .ok (.d1 n occ lead)) (i : Fin n) :
      Shown csd lim1 lim2 (lineVoltages a1 b1 a2 b2 n i) (occ i)
  | image (a1 b1 a2 b2 : ℝ) (r c : ℕ) (occ : Fin r → Fin c → ℝ × ℝ) (lead : Fin r → Fin c → ℕ) (hp : FinePixels a1 b1 a2 b2 r c)
      (h : csd [a1, b1] [a2, b2] (.arr [c, r]) = .ok (.d2 r c occ lead)) (i : Fin r) (j : Fin c) (hl : lead i j = 0) :
      Shown csd lim1 lim2 (pixelVoltages a1 b1 a2 b2 r c i j) (occ i j)

end SimCATS.Spec
