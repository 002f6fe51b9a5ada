import Verif.Spec.ScanSignal
import Mathlib.Analysis.SpecialFunctions.Trigonometric.Basic

/-! Specifications for the shape of deformed peaks in the plane of the sensor gate voltages. -/

namespace SimCATS.Spec

/-- Distance in volts from `p` to `w` in the direction of `a`. -/
noncomputable def alongDist (a p w : ℝ × ℝ) : ℝ := ((w.1 - p.1) * a.1 + (w.2 - p.2) * a.2) / Real.sqrt (a.1 ^ 2 + a.2 ^ 2)

/-- Distance in volts of `w` from the line through `p` with direction `a`, positive to the right of the line. -/
noncomputable def rightDist (a p w : ℝ × ℝ) : ℝ := ((w.1 - p.1) * a.2 - (w.2 - p.2) * a.1) / Real.sqrt (a.1 ^ 2 + a.2 ^ 2)

/-- `w` is on the straight line through `p` that is turned by `angle` to the right from the direction of `a`: the angle lies to the right of
the line through `p` with direction `a`, and above the tilted line. -/
def OnTilted (a p : ℝ × ℝ) (angle : ℝ) (w : ℝ × ℝ) : Prop :=
  ∃ t, alongDist a p w = t * Real.cos angle ∧ rightDist a p w = t * Real.sin angle

/-- `w` is on the half with the point `p` of the circle with radius `|r|` (in volts) through `p` that has its centre on the line through `p`
with direction `a`, before `p` for positive `r` and behind it for negative `r`. -/
def OnArc (a p : ℝ × ℝ) (r : ℝ) (w : ℝ × ℝ) : Prop :=
  (alongDist a p w + r) ^ 2 + rightDist a p w ^ 2 = r ^ 2 ∧ 0 ≤ r * (alongDist a p w + r)

/-- The circle `OnArc`, stretched in the direction of `a` by `1 / k`. -/
def OnStretchedArc (a p : ℝ × ℝ) (k r : ℝ) (w : ℝ × ℝ) : Prop :=
  (k * alongDist a p w + r) ^ 2 + rightDist a p w ^ 2 = r ^ 2 ∧ 0 ≤ r * (k * alongDist a p w + r)

/-- Length of the lever arms of the sensor gates on the sensor dot: potential per volt in their direction. -/
noncomputable def armLength (s : ScanSensor) : ℝ := Real.sqrt ((s.alphaSensor 0).1 ^ 2 + (s.alphaSensor 0).2 ^ 2)

/-- A sensor and a point `q` of its middle line, for the occupation `o` and the plunger voltages `v`: at `q` both barriers are at their
pinch-off. The first lever arm of the sensor dot is positive, the lever arms of the barriers are independent, and the second dot does not act
on the first barrier if the dots have different occupations. -/
structure MiddleLine (s : ScanSensor) (o v q : ℝ × ℝ) : Prop where
  dir : 0 < (s.alphaSensor 0).1
  det : (s.alphaSensor 1).1 * (s.alphaSensor 2).2 - (s.alphaSensor 1).2 * (s.alphaSensor 2).1 ≠ 0
  eps : (s.alphaSensor 1).2 = 0 ∨ floatEps ≤ |(s.alphaSensor 1).2|
  occ : o.1 = o.2 ∨ (s.alphaDot 1).2 = 0
  pinch1 : potentialAt s 1 o v q = s.barrier1.pinchOff
  pinch2 : potentialAt s 2 o v q = s.barrier2.pinchOff

/-- `p` is the point of the middle line through `q` at which the sensor dot has the potential `mu0`. -/
def PeakPoint (s : ScanSensor) (o v q : ℝ × ℝ) (mu0 : ℝ) (p : ℝ × ℝ) : Prop :=
  rightDist (s.alphaSensor 0) q p = 0 ∧ potentialAt s 0 o v p = mu0

/-- The signal if the sensor dot has the conductance `g`. -/
noncomputable def withDot (s : ScanSensor) (o v w : ℝ × ℝ) (g : ℝ) : ℝ :=
  inSeries g (s.barrier1.value (potentialAt s 1 o v w)) (s.barrier2.value (potentialAt s 2 o v w))

/-- Distance of the point `w` from the (deformed) line of the peak through `p`, measured in the direction of `a`. -/
noncomputable def behindLine (a p : ℝ × ℝ) (d : Option Deform) (w : ℝ × ℝ) : ℝ :=
  match d with
  | some (.linear angle) => alongDist a p w - rightDist a p w * (Real.cos angle / Real.sin angle)
  | _ => alongDist a p w

end SimCATS.Spec
