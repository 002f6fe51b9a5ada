import Verif.Model.SensorScan
import Verif.Spec.Pipeline

/-! Specifications for the signal of sensors with barriers. -/

namespace SimCATS.Spec

/-- Voltage of pixel `i` of `n` pixels for a voltage argument: 0 without argument, a fixed voltage for a number, and equidistant voltages
from the first to the last entry for a range. -/
noncomputable def argVoltage (a : VoltArg) (n i : ℕ) : ℝ :=
  match a with
  | .none => 0
  | .num _ v => v
  | .arr g => if n ≤ 1 then g.1 else g.1 + (g.2 - g.1) * ((i : ℝ) / ((n : ℝ) - 1))

/-- Potential of the sensor dot (`k = 0`) or of a barrier (`k = 1, 2`) for the occupation `o`, the voltages `v` of the plunger gates and the
voltages `w` of the sensor gates. -/
def potentialAt (s : ScanSensor) (k : Fin 3) (o v w : ℝ × ℝ) : ℝ :=
  s.offset k + ((s.alphaDot k).1 * o.1 + (s.alphaDot k).2 * o.2) + ((s.alphaGate k).1 * v.1 + (s.alphaGate k).2 * v.2) +
    ((s.alphaSensor k).1 * w.1 + (s.alphaSensor k).2 * w.2)

open Classical in
/-- Conductance of three conductances in series. -/
noncomputable def inSeries (a b c : ℝ) : ℝ := if a = 0 ∨ b = 0 ∨ c = 0 then 0 else 1 / (1 / a + 1 / b + 1 / c)

/-- Signal of a sensor with barriers, without peak deformations and final rise. -/
noncomputable def scanSignal (s : ScanSensor) (o v w : ℝ × ℝ) : ℝ :=
  let dot := match s.peaks with
    | none => potentialAt s 0 o v w
    | some ps => (ps.map fun p => peakSignal p (potentialAt s 0 o v w)).sum
  inSeries dot (s.barrier1.value (potentialAt s 1 o v w)) (s.barrier2.value (potentialAt s 2 o v w))

/-- The occupation of the dots in a sensor scan: that of a one-pixel CSD at the fixed plunger voltages, or zero without configuration of the
double dot or without plunger voltages. -/
def ScanOccupation {σ : Type} (gen : Option (Gen σ)) (g1 g2 : VoltArg) (s : σ) (o : ℝ × ℝ) : Prop :=
  match gen, g1, g2 with
  | some gen, .num _ v1, .num _ v2 => ∃ data s', gen (v1, v1) (v2, v2) (.int 1) s = (.ok data, s') ∧
      ((∃ n f, data.1 = .d1 (n + 1) f ∧ o = f 0) ∨ ∃ r c f, data.1 = .d2 (r + 1) (c + 1) f ∧ o = f 0 0)
  | _, _, _ => o = (0, 0)

end SimCATS.Spec
