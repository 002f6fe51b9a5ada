import Verif.Spec.PeakShape

/-! Specifications for the peak labels of sensor scans with deformed peaks. -/

namespace SimCATS.Spec

/-- One line of the two label arrays of a sensor scan over the ranges `w1` and `w2`: pixel `j` has the sensor gate voltages `v j`, the label
`area j` of its region and the peak label `label j`. -/
def LabelRow (w1 w2 : ℝ × ℝ) (areas labels : Scan ℕ) (n : ℕ) (v : Fin n → ℝ × ℝ) (area label : Fin n → ℕ) : Prop :=
  (areas = .d1 n area ∧ labels = .d1 n label ∧ v = fun j : Fin n => (argVoltage (.arr w1) n j, argVoltage (.arr w2) n j)) ∨
  ∃ r f g, ∃ i : Fin r, areas = .d2 r n f ∧ labels = .d2 r n g ∧ area = f i ∧ label = g i ∧
    v = fun j : Fin n => (argVoltage (.arr w1) n j, argVoltage (.arr w2) r i)

/-- Conductance of peak `k` alone at the sensor gate voltages `w`: the peak is at its own potential, moved by its deformation at the distance of
`w` from the middle line through `q`. -/
noncomputable def peakAlone (s : ScanSensor) (o v q : ℝ × ℝ) (k : ℕ) (p : Peak) (w : ℝ × ℝ) : ℝ :=
  peakSignal (match s.defs.lookup k with
    | some d => { p with mu0 := d.calcMu (armLength s) (rightDist (s.alphaSensor 0) q w) p.mu0 }
    | none => p) (potentialAt s 0 o v w)

/-- Every pixel with the label of a peak is a pixel of its line at which this peak, with the conductance `cond k p`, is highest; and a pixel of the
region with oscillations at which a peak is higher than at all others of the line has a label, if it is not the first or last one. -/
structure MarksPeaks (ps : List Peak) (cond : ℕ → Peak → ℝ × ℝ → ℝ) {n : ℕ} (v : Fin n → ℝ × ℝ) (area label : Fin n → ℕ) : Prop where
  highest : ∀ j id, label j = id + 1 → ∃ p, ps[id]? = some p ∧ ∀ k, cond id p (v k) ≤ cond id p (v j)
  marked : ∀ (id : ℕ) (p : Peak) (j : Fin n), ps[id]? = some p → 0 < (j : ℕ) → (j : ℕ) + 1 < n → area j = 1 →
    (∀ k, k ≠ j → cond id p (v k) < cond id p (v j)) → label j ≠ 0

end SimCATS.Spec
