import Verif.Spec.ScanSignal

/-! Specifications for the signal path of a sensor scan. -/

namespace SimCATS.Spec

/-- The potentials of the sensor dot, of barrier 1 and of barrier 2 as separate signals. -/
def channels (mu : Scan (Fin 3 → ℝ)) : List (Scan ℝ) := [mu.map fun m => m 0, mu.map fun m => m 1, mu.map fun m => m 2]

/-- Signal of a sensor with barriers, without peak deformations and final rise, at given potentials of the sensor dot and the barriers. -/
noncomputable def signalOf (s : ScanSensor) (m : Fin 3 → ℝ) : ℝ :=
  let dot := match s.peaks with
    | none => m 0
    | some ps => (ps.map fun p => peakSignal p (m 0)).sum
  inSeries dot (s.barrier1.value (m 1)) (s.barrier2.value (m 2))

/-- A distortion that changes every pixel by the function `f`. -/
def pixelwise {σ : Type} (f : ℝ → ℝ) : SigDist σ := fun y _ _ s => (.ok (y.map f), s)

/-- The functions of a list, one after the other. -/
def oneByOne (fs : List (ℝ → ℝ)) (v : ℝ) : ℝ := fs.foldl (fun v f => f v) v

end SimCATS.Spec
