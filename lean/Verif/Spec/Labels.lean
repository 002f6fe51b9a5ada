import Verif.Model.ScanSensor

/-! Specification of the labels of one row of a sensor scan (used for C29). -/

namespace SimCATS.Spec

/-- The masks of one row of pixels with potentials `mu j = (sensor, barrier 1, barrier 2)`: 0 where a barrier is not above
its pinch-off, 2 where both are and the sensor potential exceeds `full`, 1 in between; peak labels occur only in the
region 1, are ids of the configured peaks (counted from 1), and no peak is marked twice. -/
structure RowLabels (b1 b2 : Barrier) (ps : List Peak) (full : ℝ) {c : ℕ} (mu : Fin c → Fin 3 → ℝ) (cond peak : Fin c → ℕ) :
    Prop where
  blocked : ∀ j, cond j = 0 ↔ ¬ (b1.pinchOff < mu j 1 ∧ b2.pinchOff < mu j 2)
  oscillation : ∀ j, cond j = 1 ↔ (b1.pinchOff < mu j 1 ∧ b2.pinchOff < mu j 2) ∧ mu j 0 ≤ full
  open_ : ∀ j, cond j = 2 ↔ (b1.pinchOff < mu j 1 ∧ b2.pinchOff < mu j 2) ∧ full < mu j 0
  regime : ∀ j, peak j ≠ 0 → cond j = 1
  ids : ∀ j, peak j ≤ ps.length
  once : ∀ j k, peak j ≠ 0 → peak j = peak k → j = k

/-- Rise of the sensor potential from the first to the last pixel of a row. -/
noncomputable def rowSpan {c : ℕ} (mu : Fin c → Fin 3 → ℝ) : ℝ :=
  if h : 0 < c then mu ⟨c - 1, by omega⟩ 0 - mu ⟨0, h⟩ 0 else 0

/-- Absolute value of the mean difference of the sensor potentials of neighbouring pixels, over all rows. -/
noncomputable def meanSpacing {ι : Type} [Fintype ι] {c : ℕ} (mu : ι → Fin c → Fin 3 → ℝ) : ℝ :=
  |(∑ i, rowSpan (mu i)) / ((Fintype.card ι : ℝ) * ((c : ℝ) - 1))|

/-- The marked pixel of a peak is a pixel nearest to it, at the border of the scan only if it is closer to the peak than
`spacing`; and the nearest pixel of a peak is marked, by this peak or by one at a lower or equal potential, unless it is a
border pixel that is not closer than `spacing`. -/
structure RowPeaks (ps : List Peak) (spacing : ℝ) {c : ℕ} (mu : Fin c → Fin 3 → ℝ) (cond peak : Fin c → ℕ) : Prop where
  nearest : ∀ j id, peak j = id + 1 → ∃ p, ps[id]? = some p ∧ (∀ k, |mu j 0 - p.mu0| ≤ |mu k 0 - p.mu0|) ∧
    ((j : ℕ) = 0 ∨ (j : ℕ) + 1 = c → |mu j 0 - p.mu0| < spacing)
  complete : ∀ (id : ℕ) (p : Peak) (j : Fin c), ps[id]? = some p → (∀ k, k ≠ j → |mu j 0 - p.mu0| < |mu k 0 - p.mu0|) →
    (0 < (j : ℕ) ∧ (j : ℕ) + 1 < c) ∨ |mu j 0 - p.mu0| < spacing → cond j = 1 →
    ∃ id' p', peak j = id' + 1 ∧ ps[id']? = some p' ∧ p'.mu0 ≤ p.mu0

end SimCATS.Spec
