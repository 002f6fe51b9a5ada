import Verif.Model.ScanSensor

/-! The documented ranges of sampled sensors. -/

namespace SimCATS.Spec

/-- The lever arms of the plunger gates and of the dots for the quality multiplier `q`. -/
structure LeverArms (q : ℝ) (compensated : Bool) (gate dot : ℝ × ℝ) : Prop where
  gate1 : if compensated then 0.0001 ≤ gate.1 ∧ gate.1 ≤ 0.0005 else 0.02805 ≤ gate.1 ∧ gate.1 ≤ 0.15093
  /-- the gates differ by at most a factor of two -/
  gate2 : gate.1 / 2 ≤ gate.2 ∧ gate.2 ≤ 2 * gate.1
  /-- a quality multiplier below 1 excludes the weak lever arms -/
  dot1 : -0.0007994 ≤ dot.1 ∧ dot.1 ≤ -0.0007994 + q * 0.0007033
  dot2 : -0.0005214 ≤ dot.2 ∧ dot.2 ≤ -0.0005214 + q * 0.0004584
  /-- the dots differ by at most a factor of two -/
  ratio : |dot.1| / 2 ≤ |dot.2| ∧ |dot.2| ≤ 2 * |dot.1|
  /-- an electron changes the potential at least twice as much as a step of 0.3 mV of its gate -/
  step1 : 2 * (gate.1 * 0.0003) ≤ |dot.1|
  step2 : 2 * (gate.2 * 0.0003) ≤ |dot.2|

/-- The potentials of the sensor without electrons at the lower and with five electrons per dot at the upper voltage limits. -/
noncomputable def potEmpty (gate : ℝ × ℝ) : ℝ := -0.2 * (gate.1 + gate.2)
noncomputable def potFull (gate dot : ℝ × ℝ) : ℝ := 5 * (dot.1 + dot.2) - 0.06 * (gate.1 + gate.2)

/-- The range of potentials in which the peaks are placed. -/
noncomputable def potLow (gate dot : ℝ × ℝ) : ℝ := min (potEmpty gate) (potFull gate dot)
noncomputable def potHigh (gate dot : ℝ × ℝ) : ℝ := max (potEmpty gate) (potFull gate dot)

/-- Two peaks are further apart than half of an equal share of the range. -/
def Apart (n : ℕ) (lo hi : ℝ) (a b : ℝ) : Prop := (hi - lo) / (2 * n) < |a - b|

/-- The peaks of a sampled generic sensor with potentials between `lo` and `hi`. -/
structure GenericPeaks (lo hi : ℝ) (ps : List Peak) : Prop where
  count : 3 ≤ ps.length ∧ ps.length ≤ 6
  kind : ∀ p ∈ ps, p.kind = .lorentzian
  position : ∀ p ∈ ps, lo ≤ p.mu0 ∧ p.mu0 ≤ hi
  width : ∀ p ∈ ps, 0.0009636 ≤ p.width ∧ p.width ≤ 0.0029509
  apart : ps.Pairwise fun a b => Apart ps.length lo hi a.mu0 b.mu0
  /-- heights and offsets differ by at most 20% from those of the first peak -/
  height : ∃ h : ℝ, 0.02245 ≤ h ∧ h ≤ 0.19204 ∧ (∃ p, ps.head? = some p ∧ p.height = h) ∧
    ∀ p ∈ ps, 0.8 * h ≤ p.height ∧ p.height ≤ 1.2 * h
  offset : ∃ c : ℝ, -0.42275 ≤ c ∧ c ≤ -0.0838 ∧ (∃ p, ps.head? = some p ∧ p.offset = c) ∧
    ∀ p ∈ ps, 1.2 * c ≤ p.offset ∧ p.offset ≤ 0.8 * c

/-- The peaks of a sampled sensor scan sensor, the first one at `base`. -/
structure ScanPeaks (base : ℝ) (ps : List Peak) : Prop where
  count : 20 ≤ ps.length ∧ ps.length ≤ 30
  kind : ∀ p ∈ ps, p.kind = .lorentzian
  first : ∃ p, ps.head? = some p ∧ p.mu0 = base
  /-- the peaks are listed from left to right -/
  ordered : ps.Pairwise fun a b => a.mu0 < b.mu0
  width : ∀ p ∈ ps, 0 < p.width
  /-- from the third peak on the widths are limited -/
  limited : ∀ p ∈ ps.drop 2, p.width ≤ 0.0022
  height : ∀ p ∈ ps, 0 ≤ p.height
  offset : ∀ p ∈ ps, p.offset = 0
  /-- the distance of successive peaks is between 88% and 107% of the first one, which is at most 14.7 mV -/
  spacing : ∃ d : ℝ, 0 < d ∧ d ≤ 0.0147 ∧ ∀ k a b, ps[k]? = some a → ps[k + 1]? = some b →
    0.88 * d ≤ b.mu0 - a.mu0 ∧ b.mu0 - a.mu0 ≤ 1.07 * d

/-- The lever arms, peaks and final rise of a sampled sensor scan sensor with base point `base`. -/
structure SampledScan (q : ℝ) (compensated : Bool) (d : ScanSensor) (base : ℝ × ℝ) : Prop where
  basePoint : (-0.688 ≤ base.1 ∧ base.1 ≤ -0.509) ∧ (-0.688 ≤ base.2 ∧ base.2 ≤ -0.509)
  /-- the same lever arms for the sensor dot and both barriers -/
  arms : ∃ gate dot, LeverArms q compensated gate dot ∧ (∀ k, d.alphaGate k = gate) ∧ ∀ k, d.alphaDot k = dot
  /-- the stronger sensor gate has lever arm 0.1 on the sensor dot -/
  sensor : 0 < (d.alphaSensor 0).1 ∧ 0 < (d.alphaSensor 0).2 ∧ max (d.alphaSensor 0).1 (d.alphaSensor 0).2 = 0.1
  /-- each sensor gate mainly controls its own barrier -/
  gate1 : (d.alphaSensor 1).1 = 0.99 ∧ 0.1 ≤ (d.alphaSensor 1).2 ∧ (d.alphaSensor 1).2 ≤ 0.3
  gate2 : (d.alphaSensor 2).2 = 0.99 ∧ 0.1 ≤ (d.alphaSensor 2).1 ∧ (d.alphaSensor 2).1 ≤ 0.3
  /-- the first peak lies 0.05 below the potential of the base point -/
  peaks : ∃ ps, d.peaks = some ps ∧ ScanPeaks (dot2 (d.alphaSensor 0) base - 0.05) ps
  undeformed : d.defs = []
  offset : ∀ k, d.offset k = 0
  /-- the rise goes from 0 to at least 105% of the response at all potentials -5, ..., 5 of a grid -/
  rise : ∃ rise ps, d.rise = some (RiseGlf.sensorFunction rise) ∧ d.peaks = some ps ∧ rise.mu0 = 0 ∧ rise.g.A = 0 ∧ rise.g.C = 1 ∧
    0 < rise.g.B ∧ 0 < rise.g.nu ∧ 0 < rise.g.Q ∧ rise.fullyCondPct = 0.95 ∧
    ∀ i : Fin 500000, 1.05 * sumPeaks ps (linspace (-5) 5 500000 i) ≤ rise.g.K

/-- A barrier that rises from 0 to `top` and pinches off at the potential `start`. -/
structure PinchesAt (top start : ℝ) (b : Barrier) : Prop where
  pinchOff : b.pinchOff = start
  order : b.pinchOff < b.fullyConductive
  rising : StrictMono b.value
  between : ∀ t, 0 < b.value t ∧ b.value t < top
  /-- at the pinch-off point the barrier has 0.1% of its height, at the fully conductive point 99.9% -/
  low : b.value b.pinchOff = 0.001 * top
  high : b.value b.fullyConductive = 0.999 * top

end SimCATS.Spec
