import Verif.Spec.ScanSignal

/-! Specifications for the signal at a voltage point and for the final rise of sensors with barriers. -/

namespace SimCATS.Spec

/-- Signal of a sensor with barriers and a final rise that begins at the potential `off`, without peak deformations. -/
noncomputable def riseSignal (s : ScanSensor) (rise : ℝ → ℝ → ℝ) (off : ℝ) (o v w : ℝ × ℝ) : ℝ :=
  let mu := potentialAt s 0 o v w
  let peaks := match s.peaks with
    | none => mu
    | some ps => (ps.map fun p => peakSignal p mu).sum
  inSeries (max peaks (rise mu off)) (s.barrier1.value (potentialAt s 1 o v w)) (s.barrier2.value (potentialAt s 2 o v w))

/-- The sensor gate voltages `w` bring both barriers to their fully conductive potentials, for the occupation `o` and the plunger
voltages `v`. -/
def Opens (s : ScanSensor) (o v w : ℝ × ℝ) : Prop :=
  potentialAt s 1 o v w = s.barrier1.fullyConductive ∧ potentialAt s 2 o v w = s.barrier2.fullyConductive

/-- A pixel of a CSD over the ranges `g1` and `g2`: occupation `o`, plunger voltages `v` and signal `y`. -/
def CsdPixel (g1 g2 : ℝ × ℝ) (csd : Scan ℝ) (occ : Scan (ℝ × ℝ)) (o v : ℝ × ℝ) (y : ℝ) : Prop :=
  (∃ n f e, csd = .d1 n f ∧ occ = .d1 n e ∧ ∃ i : Fin n, f i = y ∧ e i = o ∧
    v = (argVoltage (.arr g1) n i, argVoltage (.arr g2) n i)) ∨
  ∃ r c f e, csd = .d2 r c f ∧ occ = .d2 r c e ∧ ∃ (i : Fin r) (j : Fin c), f i j = y ∧ e i j = o ∧
    v = (argVoltage (.arr g1) c j, argVoltage (.arr g2) r i)

/-- The occupation of the first pixel. -/
def FirstOccupation (occ : Scan (ℝ × ℝ)) (o : ℝ × ℝ) : Prop :=
  (∃ n e, occ = .d1 (n + 1) e ∧ o = e 0) ∨ ∃ r c e, occ = .d2 (r + 1) (c + 1) e ∧ o = e 0 0

/-- Some measurement of a CSD with the sensor, without distortions of potential and response, has a pixel with the occupation `o`, the
plunger voltages `v`, the sensor gate voltages `w` and the signal `y`.  It starts at the plunger voltages `v0` with the occupation `o0`, and
`both` tells if it sweeps both plunger gates. -/
def CsdFrom (sens : ScanSensor) (v0 o0 : ℝ × ℝ) (both : Prop) (o v w : ℝ × ℝ) (y : ℝ) : Prop :=
  ∃ (τ : Type) (sim : Simulation (Option ScanState × τ)) (a1 b1 a2 b2 : ℝ) (w1 w2 : Option ℝ) (res : Resolution)
    (s s' : Option ScanState × τ) (csd : Scan ℝ) (occ : Scan (ℝ × ℝ)) (lead : Scan ℕ),
    sim.sensor = sens.toSensor ∧ sim.potD = none ∧ sim.respD = none ∧
    measure sim ⟨[a1, b1], [a2, b2], w1, w2, res⟩ s = (.ok (csd, occ, lead), s') ∧
    v0 = (a1, a2) ∧ FirstOccupation occ o0 ∧ (both ↔ a1 ≠ b1 ∧ a2 ≠ b2) ∧
    w = (w1.getD 0, w2.getD 0) ∧ CsdPixel (a1, b1) (a2, b2) csd occ o v y

/-- Some measurement of a CSD shows the signal `y` at the given point. -/
def CsdShows (sens : ScanSensor) (o v w : ℝ × ℝ) (y : ℝ) : Prop := ∃ v0 o0 both, CsdFrom sens v0 o0 both o v w y

/-- Some sensor scan, without distortions of potential and response, shows the signal `y` at the given point. -/
def ScanShows (sens : ScanSensor) (o v w : ℝ × ℝ) (y : ℝ) : Prop :=
  ∃ (τ : Type) (sim : ScanSim τ) (w1 w2 : ℝ × ℝ) (g1 g2 : VoltArg) (res : Resolution) (s s' : Option ScanState × τ) (scan : Scan ℝ)
    (m1 m2 : Scan ℕ),
    sim.sensor = sens ∧ sim.potD = none ∧ sim.respD = none ∧
    measureSensorScan sim ⟨[w1.1, w1.2], [w2.1, w2.2], g1, g2, res⟩ s = (.ok (scan, m1, m2), s') ∧
    ScanOccupation sim.gen g1 g2 s o ∧ v = (argVoltage g1 1 0, argVoltage g2 1 0) ∧
    ((∃ n f, scan = .d1 n f ∧ ∃ i : Fin n, f i = y ∧ w = (argVoltage (.arr w1) n i, argVoltage (.arr w2) n i)) ∨
      ∃ r c f, scan = .d2 r c f ∧ ∃ (i : Fin r) (j : Fin c), f i j = y ∧
        w = (argVoltage (.arr w1) c j, argVoltage (.arr w2) r i))

/-- Some measurement shows the signal `y` at the given point. -/
def Shows (sens : ScanSensor) (o v w : ℝ × ℝ) (y : ℝ) : Prop := CsdShows sens o v w y ∨ ScanShows sens o v w y

end SimCATS.Spec
