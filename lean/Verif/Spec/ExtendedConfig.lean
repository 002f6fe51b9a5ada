import Verif.Model.SensorScan

/-! Specification for measurements with the extended default configuration. -/

namespace SimCATS.Spec

/-- Plunger voltages that the configuration accepts in a sensor scan: none, or two floats in the limits. -/
def ExtFixed (g1 g2 : VoltArg) : Prop :=
  (g1 = .none ∧ g2 = .none) ∨ ∃ v1 v2, g1 = .num true v1 ∧ g2 = .num true v2 ∧ (-0.2 ≤ v1 ∧ v1 ≤ -0.087) ∧ -0.2 ≤ v2 ∧ v2 ≤ -0.047

end SimCATS.Spec
