import Verif.Model.ScanSensor

/-!
Model of `Simulation.measure_sensor_scan` (simcats/_simulation.py:323-564) with a `SensorScanSensorGeneric`, and of that
sensor as sensor of `Simulation.measure`.
-/

namespace SimCATS

/-- The arguments of `measure_sensor_scan`.
Models simcats/_simulation.py:323-330. -/
structure ScanRequest where
  s1 : List ℝ
  s2 : List ℝ
  g1 : VoltArg
  g2 : VoltArg
  res : Resolution

/-- `volt is not None and limit is not None and (volt < limit[0] or volt > limit[1])` for a number or `None`.
Models simcats/_simulation.py:415-420, 422-427. -/
noncomputable def fixedOutside (lim : Option (ℝ × ℝ)) (v : VoltArg) : Bool :=
  match lim, v with
  | some l, .num _ x => open Classical in decide (x < l.1 ∨ x > l.2)
  | _, _ => false

/-- `volt is None`.
Models simcats/_simulation.py:466. -/
def VoltArg.isNone : VoltArg → Bool
  | .none => true
  | _ => false

/-- The check of fixed gates in a 2D scan.
Models simcats/_simulation.py:403-408. -/
def fixedIn2d (s1 s2 : ℝ × ℝ) : Resolution → Prop
  | .int _ => False
  | .arr ns => ns.length = 2 ∧ (s1.1 = s1.2 ∨ s2.1 = s2.2)

/-- The remaining checks of the resolution.
Models simcats/_simulation.py:450-464. -/
def scanResCheck : Resolution → Py Unit
  | .int _ => .ok ()
  | .arr ns =>
    if ns.length > 2 then .error .valueError
    else match ns with
      | [a, b] => if a ≤ 1 ∨ b ≤ 1 then .error .valueError else .ok ()
      | _ => .ok ()

/-- All checks of `measure_sensor_scan` in the order of the code; `isScan` tells if the sensor supports sensor scans.
Models simcats/_simulation.py:361-464. -/
noncomputable def scanCheck (lim : Limits) (isScan : Bool) (rq : ScanRequest) : Py ((ℝ × ℝ) × (ℝ × ℝ)) :=
  open Classical in
  if isScan = false then .error .valueError
  else match rq.s1, rq.s2 with
    | [a1, b1], [a2, b2] =>
      if rangeOutside lim.s1 (a1, b1) = true ∨ rangeOutside lim.s2 (a2, b2) = true then .error .valueError
      else if fixedIn2d (a1, b1) (a2, b2) rq.res then .error .valueError
      else if fixedOutside lim.g1 rq.g1 = true ∨ fixedOutside lim.g2 rq.g2 = true then .error .valueError
      else if rq.g1.isNone ≠ rq.g2.isNone then .error .valueError
      else match scanResCheck rq.res with
        | .error e => .error e
        | .ok () => .ok ((a1, b1), (a2, b2))
    | _, _ => .error .valueError

/-- `np.ones((resolution, 2)) * occ` resp. `np.ones((resolution[1], resolution[0], 2)) * occ`; negative sizes raise
`ValueError`, missing entries `IndexError`.
Models simcats/_simulation.py:467-470 and 484-491. -/
def fillOcc (o : ℝ × ℝ) : Resolution → Py (Scan (ℝ × ℝ))
  | .int n => if n < 0 then .error .valueError else .ok (.d1 n.toNat fun _ => o)
  | .arr (c :: r :: _) => if c < 0 ∨ r < 0 then .error .valueError else .ok (.d2 r.toNat c.toNat fun _ _ => o)
  | .arr _ => .error .indexError

/-- `if len(resolution) == 1: resolution = int(resolution[0])`: `len` of an `int` raises `TypeError`.
Models simcats/_simulation.py:481-482. -/
def lenOneToInt : Resolution → Py Resolution
  | .int _ => .error .typeError
  | .arr [n] => .ok (.int n)
  | .arr ns => .ok (.arr ns)

/-- The occupations of a sensor scan: zero without configuration or voltages, otherwise those of a one-pixel CSD.
Models simcats/_simulation.py:466-493. -/
def scanOcc {σ : Type} (gen : Option (Gen σ)) (rq : ScanRequest) : M σ (Scan (ℝ × ℝ)) :=
  match gen, rq.g1, rq.g2 with
  | some gen, .num _ v1, .num _ v2 => do
    let data ← gen (v1, v1) (v2, v2) (.int 1)
    let res ← ofPy (lenOneToInt rq.res)
    let o ← ofPy (firstOcc data.1)
    ofPy (fillOcc o res)
  | _, _, _ => ofPy (fillOcc (0, 0) rq.res)

/-- A call on the sensor object inside a larger state.
Auxiliary definition, used for the calls of the sensor in simcats/_simulation.py:498-518 and 536-537. -/
def onSensor {τ α : Type} (x : SM α) : M (Option ScanState × τ) α := fun s =>
  match x s.1 with
  | (r, st) => (r, (st, s.2))

/-- A simulation with a `SensorScanSensorGeneric`; the state is that of the sensor and of everything else (`τ`).
Models simcats/_simulation.py:33-104 (the attributes used by `measure_sensor_scan`). -/
structure ScanSim (τ : Type) where
  lim : Limits
  gen : Option (Gen (Option ScanState × τ))
  sensor : ScanSensor
  occD : Option (List (OccDist (Option ScanState × τ)))
  potD : Option (List (SigDist (Option ScanState × τ)))
  respD : Option (List (SigDist (Option ScanState × τ)))

/-- The rows of the potential array.
Auxiliary definition, used for simcats/_simulation.py:527-534. -/
def potRows (mu : Scan (Fin 3 → ℝ)) : List (Scan ℝ) := [mu.map fun m => m 0, mu.map fun m => m 1, mu.map fun m => m 2]

/-- The array with the given three rows.
Auxiliary definition, used for simcats/_simulation.py:527-534. -/
def fromRows : List (Scan ℝ) → Py (Scan (Fin 3 → ℝ))
  | [a, b, c] =>
    match a.zip b with
    | .error e => .error e
    | .ok ab =>
      match ab.zip c with
      | .error e => .error e
      | .ok abc => .ok (abc.map fun x => ![x.1.1, x.1.2, x.2])
  | _ => .error .valueError

/-- Potential distortions on the three rows (written back into the array).
Models simcats/_simulation.py:527-534. -/
def distortScanPot {τ : Type} (g1 g2 : ℝ × ℝ) (ds : Option (List (SigDist (Option ScanState × τ))))
    (mu : Scan (Fin 3 → ℝ)) : M (Option ScanState × τ) (Scan (Fin 3 → ℝ)) :=
  match ds with
  | none => pure mu
  | some ds => do
    let rows ← applyRows g1 g2 ds (potRows mu)
    ofPy (fromRows rows)

/-- `measure_sensor_scan` after validation: (scan, conductive mask, peak mask).  The response distortions receive the
range of sensor gate 1 for both gates, as in the code.
Models simcats/_simulation.py:466-544. -/
noncomputable def scanRun {τ : Type} (sim : ScanSim τ) (rq : ScanRequest) (s1 s2 : ℝ × ℝ) :
    M (Option ScanState × τ) (Scan ℝ × Scan ℕ × Scan ℕ) := do
  let occ ← scanOcc sim.gen rq
  let mu ← onSensor (sim.sensor.potential occ rq.g1 rq.g2 (.arr s1) (.arr s2))
  let mu0 ← onSensor (sim.sensor.potential occ rq.g1 rq.g2 (.arr s1) (.arr s2))
  let masks ← onSensor (sim.sensor.labels rq.g1 rq.g2 s1 s2 mu0)
  let mu' ← distortScanPot s1 s2 sim.potD mu
  let scan ← onSensor (sim.sensor.response mu')
  let scan' ← distortResponse s1 s1 sim.respD scan
  pure (scan', masks.1, masks.2)

/-- `Simulation.measure_sensor_scan`.
Models simcats/_simulation.py:323-564 (without the metadata and the warnings). -/
noncomputable def measureSensorScan {τ : Type} (sim : ScanSim τ) (rq : ScanRequest) :
    M (Option ScanState × τ) (Scan ℝ × Scan ℕ × Scan ℕ) :=
  match scanCheck sim.lim true rq with
  | .ok (s1, s2) => scanRun sim rq s1 s2
  | .error e => M.raise e

/-- A fixed sensor gate voltage of `measure` as argument of `sensor_potential`.
Auxiliary definition, used for simcats/_simulation.py:498-504. -/
def voltOfOption : Option ℝ → VoltArg
  | none => .none
  | some v => .num true v

/-- `SensorScanSensorGeneric` as sensor of `Simulation.measure` (plunger ranges are arrays).
Models simcats/sensor/_sensor_scan_sensor_generic.py as an implementation of simcats/sensor/_sensor_interface.py:86-152. -/
noncomputable def ScanSensor.toSensor {τ : Type} (s : ScanSensor) : SensorI (Option ScanState × τ) where
  scan := true
  potential := fun occ g1 g2 sv => do
    let mu ← onSensor (s.potential occ (.arr g1) (.arr g2) (voltOfOption (sv.getD (none, none)).1)
      (voltOfOption (sv.getD (none, none)).2))
    pure (.multi (potRows mu))
  response := fun pot =>
    match pot with
    | .multi rows => do
      let mu ← ofPy (fromRows rows)
      onSensor (s.response mu)
    | .single _ => M.raise .valueError

end SimCATS
