import Verif.Model.IdealCsd
import Mathlib.Logic.Relation

/-! Connected regions of an image. -/

namespace SimCATS.Spec

/-- Two pixels (row, column) share a side. -/
def Adjacent {r c : ℕ} (p q : Fin r × Fin c) : Prop :=
  (p.1 = q.1 ∧ ((p.2 : ℕ) + 1 = q.2 ∨ (q.2 : ℕ) + 1 = p.2)) ∨ (p.2 = q.2 ∧ ((p.1 : ℕ) + 1 = q.1 ∨ (q.1 : ℕ) + 1 = p.1))

/-- Two unlabelled pixels are connected by a path of unlabelled pixels, each of which shares a side with the next one. -/
def Linked {r c : ℕ} (lead : Fin r × Fin c → ℕ) : Fin r × Fin c → Fin r × Fin c → Prop :=
  Relation.ReflTransGen fun p q => Adjacent p q ∧ lead p = 0 ∧ lead q = 0

/-- The documented behaviour of `dip.Label` with connectivity 1, followed by the choice of the first pixel of every region: every
unlabelled pixel is represented by a pixel of its connected region, the same one for the whole region. -/
structure IsLabelling (lab : Labelling) : Prop where
  linked : ∀ r c lead p, lead p = 0 → Linked lead p (lab r c lead p)
  common : ∀ r c lead p q, lead p = 0 → Linked lead p q → lab r c lead p = lab r c lead q

/-- Pixel voltages (gate 1, gate 2) of the pixel in row `i` and column `j` of an image with `r` rows and `c` columns; gate 1 is swept
from `a1` to `b1`, gate 2 from `a2` to `b2`. -/
noncomputable def pixelVoltages (a1 b1 a2 b2 : ℝ) (r c i j : ℕ) : ℝ × ℝ :=
  (a1 + j * ((b1 - a1) / (c - 1)), a2 + i * ((b2 - a2) / (r - 1)))

/-- The curve is within `ε` of a curve whose slopes are at most `L`. -/
def NearLipschitz (L ε : ℝ) (f : ℝ → ℝ) : Prop :=
  ∃ F : ℝ → ℝ, (∀ x y, |F x - F y| ≤ L * |x - y|) ∧ ∀ x, |f x - F x| ≤ ε

/-- The distance of the abscissas at which the transitions are sampled, for an image of width `w` and height `h` with `r` rows and `c`
columns, rotated by `rot`. -/
noncomputable def sampleDistance (rot w h : ℝ) (r c : ℕ) : ℝ :=
  (w * |Real.cos rot| + h * |Real.sin rot| + 2 * (w / (c - 1))) / (4 * (c + r) - 1)

end SimCATS.Spec
