import Mathlib.Algebra.Group.Even
import Mathlib.Algebra.Ring.Parity
import Mathlib.Data.List.Basic

/-!
Specification of two-state (telegraph) noise.
-/

namespace SimCATS.Spec

/-- Position of the first pixel of block `b` for block widths `w`. -/
def blockStart (w : ℕ → ℕ) : ℕ → ℕ
  | 0 => 0
  | b + 1 => blockStart w b + w b

/-- The noise consists of consecutive blocks of widths `w 0, w 1, ...`: it is zero in the blocks 0, 2, 4, ... and has one
constant value `amp b` in each of the blocks 1, 3, 5, ... -/
def TwoState {α : Type} [Zero α] (w : ℕ → ℕ) (amp : ℕ → α) (noise : List α) : Prop :=
  ∀ (p : ℕ) (h : p < noise.length), ∃ b, blockStart w b ≤ p ∧ p < blockStart w (b + 1) ∧
    noise[p] = if Even b then 0 else amp b

end SimCATS.Spec
