import Verif.Spec.JumpBlur

/-! Specification of dot jumps in 1D scans of any direction. -/

namespace SimCATS.Spec

/-- Both gates are swept upwards or fixed, or both are swept downwards or fixed. -/
def SameDirection (g1 g2 : ℝ × ℝ) : Prop := (g1.1 ≤ g1.2 ∧ g2.1 ≤ g2.2) ∨ (g1.2 ≤ g1.1 ∧ g2.2 ≤ g2.1)

/-- The field `F` at pixel `p` of a 1D scan with `n` pixels, with the voltage of the jump axis lowered by `e` steps.  The step is that of
gate 1 for both axes, as in the code. -/
noncomputable def lowered {α : Type} (axis : Axis) (F : ℝ → ℝ → α) (g1 g2 : ℝ × ℝ) (n e p : ℕ) : α :=
  match axis with
  | .g1 => F (sweepVolt g1 n p - e * (|g1.2 - g1.1| / n)) (sweepVolt g2 n p)
  | .g2 => F (sweepVolt g1 n p) (sweepVolt g2 n p - e * (|g1.2 - g1.1| / n))

/-- The jump of pixel `p`: the jumps are counted from the lower end of the sweep. -/
noncomputable def jumpAt (g1 g2 : ℝ × ℝ) (noise : List ℕ) {n : ℕ} (p : Fin n) : ℕ :=
  open Classical in
  if g1.2 < g1.1 ∨ g2.2 < g2.1 then noise.getD p.rev 0 else noise.getD p 0

/-- The weights of the kernel are the same to the left and to the right. -/
def Mirrored (K : Kernel) : Prop := ∀ k, K.w (-k) = K.w k

end SimCATS.Spec
