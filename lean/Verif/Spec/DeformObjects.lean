import Verif.Model.DeformObjects

/-! Specification of the deformed peaks of sensors in programs with several sensors. -/

namespace SimCATS.Spec

/-- The documented positions: every peak with a deformation is deformed with the lever arms of the sensor itself. `deform idx` is the
deformation of peak `idx`. -/
def OwnPositions (alpha : ℝ × ℝ) (peaks : List ℝ) (deform : ℕ → Option Deform) (dist : ℝ) (out : List ℝ) : Prop :=
  out.length = peaks.length ∧ ∀ i (h : i < peaks.length), out[i]? = some (match deform i with
    | none => peaks[i]
    | some d => d.calcMu (Real.sqrt (alpha.1 ^ 2 + alpha.2 ^ 2)) dist peaks[i])

/-- The deformation of peak `idx` in the dictionary of sensor `s`. -/
def deformOf (w : DefWorld) (s idx : ℕ) : Option Deform :=
  (w.sensor s).bind fun o => (dictGet (w.content o.dict) idx).bind fun d => (w.defs[d]?).map (·.shape)

/-- The statement is a constructor call (successful or not) that gets deformation object `d` for one of its peaks. -/
def Passed (w : DefWorld) (c : DStmt) (d : ℕ) : Prop :=
  ∃ alpha ps dict rest i, c = .newSensor alpha (some ps) dict rest ∧ i < ps.length ∧ dictGet (w.content dict.ref) i = some d

/-- Sensor `s` is the last one whose constructor got deformation object `d`, in a program starting in `w`. -/
def LastPassed (w : DefWorld) (l : List DStmt) (d s : ℕ) : Prop :=
  ∃ pre c post, l = pre ++ c :: post ∧ (w.exec pre).sensors.length = s ∧ Passed (w.exec pre) c d ∧
    ∀ pre' c' post', post = pre' ++ c' :: post' → ¬ Passed (((w.exec pre).exec [c]).exec pre') c' d

/-- No constructor got deformation object `d`. -/
def NeverPassed (w : DefWorld) (l : List DStmt) (d : ℕ) : Prop :=
  ∀ pre c post, l = pre ++ c :: post → ¬ Passed (w.exec pre) c d

/-- The lever arms of sensor `s`, given the lever arms before: those of the last assignment. -/
def armsAfter (s : ℕ) : ℝ × ℝ → List DStmt → ℝ × ℝ
  | a, [] => a
  | a, .setAlpha s' a' :: l => armsAfter s (if s' = s then a' else a) l
  | a, _ :: l => armsAfter s a l

/-- The peaks of sensor `s`, given the peaks before: those of the last assignment. -/
def peaksAfter (s : ℕ) : Option (List ℝ) → List DStmt → Option (List ℝ)
  | p, [] => p
  | p, .setPeaks s' p' :: l => peaksAfter s (if s' = s then p' else p) l
  | p, _ :: l => peaksAfter s p l

end SimCATS.Spec
