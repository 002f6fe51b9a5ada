import Verif.Spec.RiseSignal

/-! Specification of the pixels of a sensor scan. -/

namespace SimCATS.Spec

/-- A pixel of a sensor scan over the ranges `w1` and `w2`: sensor gate voltages `w` and value `y` of the array `scan` (the signal or one
of the label masks). -/
def SensorPixel {α : Type} (w1 w2 : ℝ × ℝ) (scan : Scan α) (w : ℝ × ℝ) (y : α) : Prop :=
  (∃ n f, scan = .d1 n f ∧ ∃ i : Fin n, f i = y ∧ w = (argVoltage (.arr w1) n i, argVoltage (.arr w2) n i)) ∨
  ∃ r c f, scan = .d2 r c f ∧ ∃ (i : Fin r) (j : Fin c), f i j = y ∧ w = (argVoltage (.arr w1) c j, argVoltage (.arr w2) r i)

/-- A simulation with all distortions switched off. -/
def quiet {τ : Type} (sim : ScanSim τ) : ScanSim τ := { sim with occD := none, potD := none, respD := none }

end SimCATS.Spec
