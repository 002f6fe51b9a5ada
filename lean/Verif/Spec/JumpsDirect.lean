import Verif.Model.JumpsDirect
import Verif.Spec.DotJumps
import Verif.Spec.Telegraph

/-!
What the exported function for dot jumps is documented to return.
-/

namespace SimCATS.Spec

/-- Number of pixels along the axis of the jumps. -/
def axisLength (axis : Axis) (rows cols : ℕ) : ℕ :=
  match axis with
  | .g1 => cols
  | .g2 => rows

/-- Along the axis, every pixel of the image shows the value `jump` pixels earlier, one jump for each position. -/
def ShiftedImage {α : Type} (axis : Axis) (rows cols : ℕ) (orig : ℕ → ℕ → Option α) (jumps : List ℕ)
    (res : ℕ → ℕ → Option α) : Prop :=
  match axis with
  | .g1 => ∀ i < rows, Shifted cols (orig i) (fun j => jumps.getD j 0) (res i)
  | .g2 => ∀ j < cols, Shifted rows (fun i => orig i j) (fun i => jumps.getD i 0) (fun i => res i j)

/-- The first `n` jumps stay inside of an image of at most 256 pixels. -/
def InsideImage (n : ℕ) (jumps : List ℕ) : Prop := n ≤ 256 ∧ ∀ i < n, jumps.getD i 0 ≤ i ∧ jumps.getD i 0 ≤ 254

end SimCATS.Spec
