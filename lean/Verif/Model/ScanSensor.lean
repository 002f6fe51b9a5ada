import Verif.Model.Simulation
import Verif.Model.Glf
import Verif.Model.Deformation

/-!
Model of simcats/sensor/_sensor_scan_sensor_generic.py.

The object stores the arguments of the last call of `sensor_potential`; this state is `Option ScanState`
(`none`: the method has not been called yet, reading the attributes raises `AttributeError`).
Warnings are not modelled.
-/

namespace SimCATS

/-- A barrier function: conductance, pinch-off and fully conductive potential.
Models the interface simcats/sensor/barrier_function/_barrier_function_interface.py.
Models simcats/sensor/barrier_function/_barrier_function_interface.py:14-43 (the interface). -/
structure Barrier where
  value : ℝ → ℝ
  pinchOff : ℝ
  fullyConductive : ℝ

/-- `BarrierFunctionGLF` as barrier.
Models simcats/sensor/barrier_function/_barrier_function_glf.py:80-127. -/
noncomputable def BarrierGlf.barrier (b : BarrierGlf) : Barrier := ⟨b.getValue, b.pinchOff, b.fullyConductive⟩

/-- A peak deformation.
Models simcats/sensor/deformation/_sensor_peak_deformation_circle.py:81-98
and simcats/sensor/deformation/_sensor_peak_deformation_linear.py:68-72. -/
inductive Deform
  | circle (radius : ℝ)
  | linear (angle : ℝ)

/-- `calc_mu(dist, mu0)`.
Models simcats/sensor/deformation/_sensor_peak_deformation_circle.py:81-98
and simcats/sensor/deformation/_sensor_peak_deformation_linear.py:68-72. -/
noncomputable def Deform.calcMu (d : Deform) (alphaNorm dist mu0 : ℝ) : ℝ :=
  match d with
  | .circle radius => circleCalcMu radius alphaNorm dist mu0
  | .linear angle => linearCalcMu angle alphaNorm dist mu0

/-- Configuration of a `SensorScanSensorGeneric`; index 0 is the sensor dot, 1 and 2 are the barriers.
`rise mu offset` is `final_rise.sensor_function(mu, offset)`.
Models simcats/sensor/_sensor_scan_sensor_generic.py:85-100. -/
structure ScanSensor where
  peaks : Option (List Peak)
  defs : List (ℕ × Deform)
  rise : Option (ℝ → ℝ → ℝ)
  barrier1 : Barrier
  barrier2 : Barrier
  alphaDot : Fin 3 → ℝ × ℝ
  alphaGate : Fin 3 → ℝ × ℝ
  alphaSensor : Fin 3 → ℝ × ℝ
  offset : Fin 3 → ℝ

/-- The attributes written by `sensor_potential`.
Models simcats/sensor/_sensor_scan_sensor_generic.py:710-714. -/
structure ScanState where
  g1 : ℝ × ℝ
  g2 : ℝ × ℝ
  s1 : ℝ × ℝ
  s2 : ℝ × ℝ
  occ : Scan (ℝ × ℝ)

/-- A voltage argument: `None`, a number (`isFloat`: a `float`, otherwise e.g. an `int`), or an array of two entries.
Models simcats/sensor/_sensor_scan_sensor_generic.py:692-707 (the types of the arguments). -/
inductive VoltArg
  | none
  | num (isFloat : Bool) (v : ℝ)
  | arr (v : ℝ × ℝ)

/-- `isinstance(x, np.ndarray)`.
Models simcats/sensor/_sensor_scan_sensor_generic.py:692-707 and 821-822. -/
def VoltArg.isArr : VoltArg → Bool
  | .arr _ => true
  | _ => false

/-- `None` becomes `[0, 0]`, a number `v` becomes `[v, v]`.
Models simcats/sensor/_sensor_scan_sensor_generic.py:703-707. -/
def VoltArg.lims : VoltArg → ℝ × ℝ
  | .none => (0, 0)
  | .num _ v => (v, v)
  | .arr v => v

/-- Potential `k` at occupation `o`, plunger voltages `v` and sensor gate voltages `w`.
Models simcats/sensor/_sensor_scan_sensor_generic.py:751-756. -/
def ScanSensor.mu (s : ScanSensor) (k : Fin 3) (o v w : ℝ × ℝ) : ℝ :=
  dot2 o (s.alphaDot k) + dot2 v (s.alphaGate k) + dot2 w (s.alphaSensor k) + s.offset k

/-- The type of calls on the sensor object.
Auxiliary definition, used for the attributes written by simcats/sensor/_sensor_scan_sensor_generic.py:710-714. -/
abbrev SM := M (Option ScanState)

/-- `self._x` of the stored state.
Models the reads of the attributes of simcats/sensor/_sensor_scan_sensor_generic.py:710-714, for instance in lines 465-468. -/
def getState : SM ScanState := fun st =>
  match st with
  | some x => (.ok x, st)
  | none => (.error .attributeError, st)

/-- The three potentials of all pixels for given limits.
Models simcats/sensor/_sensor_scan_sensor_generic.py:716-758. -/
noncomputable def ScanSensor.potentialArray (s : ScanSensor) (g1 g2 s1 s2 : ℝ × ℝ) : Scan (ℝ × ℝ) → Py (Scan (Fin 3 → ℝ))
  | .d0 _ => .error .valueError
  | .d1 n f => if n = 0 then .error .valueError else .ok (.d1 n fun i k =>
      s.mu k (f i) (linspace g1.1 g1.2 n i, linspace g2.1 g2.2 n i) (linspace s1.1 s1.2 n i, linspace s2.1 s2.2 n i))
  | .d2 r c f => if r = 0 ∨ c = 0 then .error .valueError else .ok (.d2 r c fun i j k =>
      s.mu k (f i j) (linspace g1.1 g1.2 c j, linspace g2.1 g2.2 r i)
        (linspace s1.1 s1.2 c j, linspace s2.1 s2.2 r i))

/-- `sensor_potential(occupations, volt_limits_g1, volt_limits_g2, volt_limits_sensor_g1, volt_limits_sensor_g2)`.
Models simcats/sensor/_sensor_scan_sensor_generic.py:688-758. -/
noncomputable def ScanSensor.potential (s : ScanSensor) (occ : Scan (ℝ × ℝ)) (g1 g2 s1 s2 : VoltArg) :
    SM (Scan (Fin 3 → ℝ)) := fun st =>
  match occ with
  | .d0 _ => (.error .valueError, st)
  | _ =>
    if (g1.isArr || g2.isArr) && (s1.isArr || s2.isArr) then (.error .valueError, st)
    else (s.potentialArray g1.lims g2.lims s1.lims s2.lims occ, some ⟨g1.lims, g2.lims, s1.lims, s2.lims, occ⟩)

/-- `(occupations[0, 0], occupations[0, 1])` resp. `occupations[0, 0, :]`.
Models simcats/sensor/_sensor_scan_sensor_generic.py:534-541, 599-606, 810-817. -/
def firstOcc : Scan (ℝ × ℝ) → Py (ℝ × ℝ)
  | .d0 _ => .error .valueError
  | .d1 n f => if h : 0 < n then .ok (f ⟨0, h⟩) else .error .indexError
  | .d2 r c f => if h : 0 < r ∧ 0 < c then .ok (f ⟨0, h.1⟩ ⟨0, h.2⟩) else .error .indexError

/-- `sys.float_info.epsilon`.
Library function, used in simcats/sensor/_sensor_scan_sensor_generic.py:635. -/
noncomputable def floatEps : ℝ := 2 ^ (-52 : ℤ)

/-- The voltages for barrier potentials `p1`, `p2` from which all offsets have been subtracted.
Models simcats/sensor/_sensor_scan_sensor_generic.py:635-647.
Simplification: a zero denominator (inf or nan in numpy) is totalised; the theorems exclude it. -/
noncomputable def solvePoint (a1 a2 : ℝ × ℝ) (p1 p2 : ℝ) : ℝ × ℝ :=
  open Classical in
  if |a1.2| < floatEps then
    let v1 := p1 / a1.1
    (v1, (-a2.1 * v1 + p2) / a2.2)
  else
    let v1 := (p2 * a1.2 - p1 * a2.2) / (a2.1 * a1.2 - a1.1 * a2.2)
    (v1, (-a1.1 * v1 + p1) / a1.2)

/-- `gate_offset` for barrier `k`; without a sensor sweep both entries are the voltage of sensor gate 1.
Models simcats/sensor/_sensor_scan_sensor_generic.py:612-617. -/
noncomputable def ScanSensor.gateOffset (s : ScanSensor) (st : ScanState) (sensorSwept : Bool) (k : Fin 3) : ℝ :=
  if sensorSwept then dot2 (st.g1.1, st.g2.1) (s.alphaGate k) else dot2 (st.s1.1, st.s1.1) (s.alphaSensor k)

/-- `_calc_point_from_barrier_potentials(pot_bar1, pot_bar2, sensor_swept)`.  The offset of barrier 1 uses the occupation
of the first dot twice, as the code does.
Models simcats/sensor/_sensor_scan_sensor_generic.py:599-649. -/
noncomputable def ScanSensor.calcPoint (s : ScanSensor) (st : ScanState) (p1 p2 : ℝ) (sensorSwept : Bool) : Py (ℝ × ℝ) :=
  match firstOcc st.occ with
  | .error e => .error e
  | .ok o =>
    let off1 := s.gateOffset st sensorSwept 1 + s.offset 1 + (s.alphaDot 1).1 * o.1 + (s.alphaDot 1).2 * o.1
    let off2 := s.gateOffset st sensorSwept 2 + s.offset 2 + (s.alphaDot 2).1 * o.1 + (s.alphaDot 2).2 * o.2
    .ok (solvePoint (s.alphaSensor 1) (s.alphaSensor 2) (p1 - off1) (p2 - off2))

/-- `dict.get` for the deformations (`idx in ...keys()`).
Models simcats/sensor/_sensor_scan_sensor_generic.py:440 and 884. -/
def lookupDef (defs : List (ℕ × Deform)) (idx : ℕ) : Option Deform := (defs.find? fun e => e.1 == idx).map (·.2)

/-- `np.linalg.norm(sensor.alpha_sensor_gate[0])`.
Models simcats/sensor/deformation/_sensor_peak_deformation_circle.py:83
and simcats/sensor/deformation/_sensor_peak_deformation_linear.py:71. -/
noncomputable def ScanSensor.alphaNorm (s : ScanSensor) : ℝ := norm2 (s.alphaSensor 0)

/-- Slope of the middle line. Models simcats/sensor/_sensor_scan_sensor_generic.py:430 and 841. -/
noncomputable def ScanSensor.slope (s : ScanSensor) : ℝ := (s.alphaSensor 0).2 / (s.alphaSensor 0).1

/-- `_peak_func` at one pixel with sensor gate voltages `w`.
Models simcats/sensor/_sensor_scan_sensor_generic.py:427-447. -/
noncomputable def ScanSensor.peakFunc (s : ScanSensor) (mu : ℝ) (w mid : ℝ × ℝ) : ℝ :=
  match s.peaks with
  | none => mu
  | some ps =>
    let dist := middleLineDist mid s.slope w
    (ps.mapIdx fun idx p =>
      match lookupDef s.defs idx with
      | some d => ({ p with mu0 := d.calcMu s.alphaNorm dist p.mu0 } : Peak).eval mu
      | none => p.eval mu).sum

/-- The response of the dot in the branch with deformations; every pixel calls `pixel_to_volt_1d` with the number of
pixels minus one, which is the entry of `linspace` (theorem C45) and divides by zero for a single pixel.
Models simcats/sensor/_sensor_scan_sensor_generic.py:481-515. -/
noncomputable def ScanSensor.deformedResponse (s : ScanSensor) (st : ScanState) (mid : ℝ × ℝ) :
    Scan ℝ → Py (Scan ℝ)
  | .d0 _ => .error .valueError
  | .d1 n f =>
    if n = 1 then .error .zeroDivisionError
    else .ok (.d1 n fun i => s.peakFunc (f i) (linAt st.s1.1 st.s1.2 n i, linAt st.s2.1 st.s2.2 n i) mid)
  | .d2 r c f =>
    if r = 1 ∨ (r ≠ 0 ∧ c = 1) then .error .zeroDivisionError
    else .ok (.d2 r c fun i j => s.peakFunc (f i j) (linAt st.s1.1 st.s1.2 c j, linAt st.s2.1 st.s2.2 r i) mid)

/-- Conductances in series: `s*b1*b2 / (b1*b2 + s*b1 + s*b2)`, 0 where the denominator is 0.
Models simcats/sensor/_sensor_scan_sensor_generic.py:572-574. -/
noncomputable def series (s b1 b2 : ℝ) : ℝ :=
  open Classical in
  if b1 * b2 + s * b1 + s * b2 ≠ 0 then s * b1 * b2 / (b1 * b2 + s * b1 + s * b2) else 0

/-- Pixelwise combination of two arrays of the same shape (numpy; arrays of different shape raise `ValueError`).
Auxiliary definition, used for simcats/sensor/_sensor_scan_sensor_generic.py:557-574. -/
def Scan.zip {α β : Type} : Scan α → Scan β → Py (Scan (α × β))
  | .d0 x, .d0 y => .ok (.d0 (x, y))
  | .d1 n f, .d1 m g => if h : n = m then .ok (.d1 n fun i => (f i, g (Fin.cast h i))) else .error .valueError
  | .d2 r c f, .d2 r' c' g =>
    if h : r = r' ∧ c = c' then .ok (.d2 r c fun i j => (f i j, g (Fin.cast h.1 i) (Fin.cast h.2 j)))
    else .error .valueError
  | _, _ => .error .valueError

/-- `a == b` of two floats.
Auxiliary definition, used for simcats/sensor/_sensor_scan_sensor_generic.py:465-468. -/
noncomputable def eqB (a b : ℝ) : Bool := open Classical in decide (a = b)

/-- `sweep_only_sensor`. Models simcats/sensor/_sensor_scan_sensor_generic.py:465-466. -/
noncomputable def ScanState.onlySensor (st : ScanState) : Bool := eqB st.g1.1 st.g1.2 && eqB st.g2.1 st.g2.2

/-- `sensor_swept`. Models simcats/sensor/_sensor_scan_sensor_generic.py:467-468. -/
noncomputable def ScanState.sensorSwept (st : ScanState) : Bool := eqB st.g1.1 st.g1.2 || eqB st.g2.1 st.g2.2

/-- Sum of the peaks, or the potential itself without peaks.
Models simcats/sensor/_sensor_scan_sensor_generic.py:524-527 (a sum over no peaks is the number 0, which numpy broadcasts
in the final formula). -/
noncomputable def ScanSensor.plainResponse (s : ScanSensor) (mu : ℝ) : ℝ :=
  match s.peaks with
  | none => mu
  | some ps => sumPeaks ps mu

/-- `fully_conductive_potential[0]` as computed in `sensor_response`: calls `sensor_potential`, which overwrites the
stored state.
Models simcats/sensor/_sensor_scan_sensor_generic.py:530-555. -/
noncomputable def ScanSensor.riseOffset (s : ScanSensor) : SM ℝ := do
  let st ← getState
  let o ← ofPy (firstOcc st.occ)
  let p ← ofPy (s.calcPoint st s.barrier1.fullyConductive s.barrier2.fullyConductive st.sensorSwept)
  let pot ← s.potential (.d1 1 fun _ => o) (.num true st.g1.1) (.num true st.g2.1) (.num true p.1) (.num true p.2)
  match pot with
  | .d1 1 f => pure (f 0 0)
  -- not reachable: the potential has the shape of the occupations
  | _ => M.raise .valueError

/-- The response of the sensor dot (before the barriers).
Models simcats/sensor/_sensor_scan_sensor_generic.py:463-560. -/
noncomputable def ScanSensor.dotResponse (s : ScanSensor) (mu : Scan (Fin 3 → ℝ)) : SM (Scan ℝ) := do
  let st ← getState
  if !s.defs.isEmpty && st.onlySensor then do
    let mid ← ofPy (s.calcPoint st s.barrier1.pinchOff s.barrier2.pinchOff st.sensorSwept)
    ofPy (s.deformedResponse st mid (mu.map fun m => m 0))
  else
    match s.rise with
    | none => pure (mu.map fun m => s.plainResponse (m 0))
    | some rise => do
      let off ← s.riseOffset
      pure (mu.map fun m => max (s.plainResponse (m 0)) (rise (m 0) off))

/-- `sensor_response(mu_sens)`.
Models simcats/sensor/_sensor_scan_sensor_generic.py:460-574. -/
noncomputable def ScanSensor.response (s : ScanSensor) (mu : Scan (Fin 3 → ℝ)) : SM (Scan ℝ) := do
  let dot ← s.dotResponse mu
  let z ← ofPy (dot.zip mu)
  pure (z.map fun x => series x.1 (s.barrier1.value (x.2 1)) (s.barrier2.value (x.2 2)))

/-! ### Labels -/

/-- `np.argmin(|xs - mu0|)`: the first index with the smallest value.
Library function, used in simcats/sensor/_sensor_scan_sensor_generic.py:898 and 914. -/
noncomputable def argminAbs {n : ℕ} (xs : Fin n → ℝ) (mu0 : ℝ) : Option (Fin n) :=
  (List.finRange n).argmin fun i => |xs i - mu0|

/-- `np.mean(np.diff(row))` summed over the given rows: mean of all differences of neighbouring columns.
Models simcats/sensor/_sensor_scan_sensor_generic.py:893-895 and 909-911.
Simplification: for scans with less than two columns the mean is nan in numpy; it is totalised to 0 here, with the same
effect, as no distance is smaller than nan or 0. -/
noncomputable def meanDiff {ι : Type} [Fintype ι] (c : ℕ) (pot : ι → ℕ → ℝ) : ℝ :=
  (∑ i : ι, ∑ j ∈ Finset.range (c - 1), (pot i (j + 1) - pot i j)) / ((Fintype.card ι : ℝ) * ((c : ℝ) - 1))

/-- The mask of one peak in one row: the pixel closest to the peak, at the border only if it is closer than `threshold`.
Models simcats/sensor/_sensor_scan_sensor_generic.py:898-905 and 914-920. -/
noncomputable def peakPixel {c : ℕ} (row : Fin c → ℝ) (mu0 threshold : ℝ) : Option (Fin c) :=
  match argminAbs row mu0 with
  | none => none
  | some j =>
    open Classical in
    if ((j : ℕ) = 0 ∨ (j : ℕ) = c - 1) ∧ ¬ |row j - mu0| < threshold then none else some j

/-- `sorted(zip(peaks, range(len(peaks))), key=mu0)`: stable insertion sort by `mu0`.
Library function, used in simcats/sensor/_sensor_scan_sensor_generic.py:879-880. -/
noncomputable def sortPeaks (ps : List Peak) : List (Peak × ℕ) :=
  open Classical in
  ps.zipIdx.insertionSort fun a b => a.1.mu0 ≤ b.1.mu0

/-- The potential in which peak `peak` at position `idx` of the sorted list is searched; the deformation and the
undeformed position are looked up with the position in the sorted list.
Models simcats/sensor/_sensor_scan_sensor_generic.py:884-889. -/
noncomputable def ScanSensor.distortedPot (s : ScanSensor) (ps : List Peak) (idx : ℕ) (peak : Peak) (pot dist : ℝ) : ℝ :=
  match lookupDef s.defs idx with
  | some d => pot + (peak.mu0 - d.calcMu s.alphaNorm dist ((ps[idx]?.map (·.mu0)).getD 0))
  | none => pot

/-- `coulomb_peak_mask` before the conductive mask is applied, for rows `ι` and `c` columns: the peaks are drawn from
large to small `mu0`, later ones overwrite earlier ones; labels are stored as `uint8` (modulo 256; numpy >= 2 raises
`OverflowError` instead).
Models simcats/sensor/_sensor_scan_sensor_generic.py:872-920. -/
noncomputable def ScanSensor.drawPeaks {ι : Type} [Fintype ι] (s : ScanSensor) (ps : List Peak) (c : ℕ)
    (pot dist : ι → Fin c → ℝ) (i : ι) (j : Fin c) : ℕ :=
  let threshold := |meanDiff c fun (i : ι) k => if h : k < c then pot i ⟨k, h⟩ else 0|
  (sortPeaks ps).zipIdx.reverse.foldl (fun acc e =>
    if peakPixel (fun k => s.distortedPot ps e.2 e.1.1 (pot i k) (dist i k)) e.1.1.mu0 threshold = some j
    then (e.1.2 + 1) % 256 else acc) 0

/-- `conductive_mask` at one pixel.
Models simcats/sensor/_sensor_scan_sensor_generic.py:922-925. -/
noncomputable def ScanSensor.conductive (s : ScanSensor) (full : ℝ) (mu : Fin 3 → ℝ) : ℕ :=
  open Classical in
  if mu 1 > s.barrier1.pinchOff ∧ mu 2 > s.barrier2.pinchOff then (if mu 0 > full then 2 else 1) else 0

/-- `volt_limits is None or isinstance(volt_limits, float)`.
Models simcats/sensor/_sensor_scan_sensor_generic.py:692-707 and 821-822. -/
def VoltArg.noneOrFloat : VoltArg → Bool
  | .none => true
  | .num b _ => b
  | .arr _ => false

/-- The middle point for the deformations; without deformations it is not computed (and not used).
Models simcats/sensor/_sensor_scan_sensor_generic.py:858-862. -/
noncomputable def ScanSensor.labelMiddle (s : ScanSensor) (st : ScanState) : Py (ℝ × ℝ) :=
  if s.defs.isEmpty then .ok (0, 0) else s.calcPoint st s.barrier1.pinchOff s.barrier2.pinchOff true

/-- `get_sensor_scan_labels(volt_limits_g1, volt_limits_g2, volt_limits_sensor_g1, volt_limits_sensor_g2, potential)`:
(conductive mask, peak mask).  The sensor limits are two-element arrays here.  The call of `sensor_potential` passes the
voltage of gate 1 for both plunger gates, as the code does, and overwrites the stored state.  Without peaks (`None`) the
call `zip(None, ...)` raises `TypeError`.
Models simcats/sensor/_sensor_scan_sensor_generic.py:808-929. -/
noncomputable def ScanSensor.labels (s : ScanSensor) (g1 g2 : VoltArg) (s1 s2 : ℝ × ℝ) (mu : Scan (Fin 3 → ℝ)) :
    SM (Scan ℕ × Scan ℕ) := do
  let st ← getState
  let o ← ofPy (firstOcc st.occ)
  if (g1.noneOrFloat && g2.noneOrFloat) = false then M.raise .valueError
  else do
    let p ← ofPy (s.calcPoint st s.barrier1.fullyConductive s.barrier2.fullyConductive true)
    let full ← s.potential (.d1 1 fun _ => o) g1 g1 (.num true p.1) (.num true p.2)
    let full0 ← match full with
      | .d1 1 f => (pure (f 0 0) : SM ℝ)
      -- not reachable: the potential has the shape of the occupations
      | _ => M.raise .valueError
    let st' ← getState
    let mid ← ofPy (s.labelMiddle st')
    match s.peaks with
    | none => M.raise .typeError
    | some ps =>
      match mu with
      | .d0 _ => M.raise .valueError
      | .d1 n f =>
        let cond : Fin n → ℕ := fun i => s.conductive full0 (f i)
        let peaks := s.drawPeaks (ι := Unit) ps n (fun _ j => f j 0)
          (fun _ j => middleLineDist mid s.slope (linspace s1.1 s1.2 n j, linspace s2.1 s2.2 n j))
        pure (.d1 n cond, .d1 n fun j => if cond j ≠ 1 then 0 else peaks () j)
      | .d2 r c f =>
        let cond : Fin r → Fin c → ℕ := fun i j => s.conductive full0 (f i j)
        let peaks := s.drawPeaks (ι := Fin r) ps c (fun i j => f i j 0)
          (fun i j => middleLineDist mid s.slope (linspace s1.1 s1.2 c j, linspace s2.1 s2.2 r i))
        pure (.d2 r c cond, .d2 r c fun i j => if cond i j ≠ 1 then 0 else peaks i j)

end SimCATS
