import Verif.Model.Simulation

/-! Specification of C117: results of measurements in the opposite direction. -/

namespace SimCATS.Spec

/-- An array with its columns and / or rows in the opposite order (lines have only one order). -/
def reversedScan {α : Type} (cols rows : Bool) : Scan α → Scan α
  | .d0 x => .d0 x
  | .d1 n f => .d1 n fun i => f i.rev
  | .d2 r c f => .d2 r c fun i j => f (if rows then i.rev else i) (if cols then j.rev else j)

/-- The outcome of a measurement whose signal, occupations and lead transitions are reversed, or the same exception. -/
def reversedOutcome {σ : Type} (cols rows : Bool) :
    Py (Scan ℝ × Scan (ℝ × ℝ) × Scan ℕ) × σ → Py (Scan ℝ × Scan (ℝ × ℝ) × Scan ℕ) × σ
  | (.ok (csd, occ, lead), s) => (.ok (reversedScan cols rows csd, reversedScan cols rows occ, reversedScan cols rows lead), s)
  | (.error e, s) => (.error e, s)

end SimCATS.Spec
