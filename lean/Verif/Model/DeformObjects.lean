import Verif.Model.ScanSensor

/-!
Deformation objects, dictionaries of deformations and the sensors that use them, as objects of a program.

A deformation reads the lever arms of "its" sensor, which the constructor of the sensor registers. Dictionaries and deformations are
shared by reference. Of a sensor only the parts used here are kept: lever arms of the sensor gates to the sensor dot, positions of the
peaks, and the dictionary.
-/

namespace SimCATS

/-- A deformation object; `owner` is the sensor object stored in it (`none`: never set).
Models simcats/sensor/deformation/_sensor_peak_deformation_interface.py:42-65. -/
structure DefObj where
  shape : Deform
  owner : Option ℕ

/-- A sensor object. `alpha` is `alpha_sensor_gate[0]` (`none`: the constructor raised before it was set), `named` is false if the
constructor raised (no name refers to the object, but deformations may). `dict = none` stands for `None`.
Models simcats/sensor/_sensor_scan_sensor_generic.py:85-100. -/
structure SensObj where
  alpha : Option (ℝ × ℝ)
  peaks : Option (List ℝ)
  dict : Option ℕ
  named : Bool

/-- The state of a program; dictionary 0 is the default argument `{}` of the constructor.
Models simcats/sensor/_sensor_scan_sensor_generic.py:38. -/
structure DefWorld where
  defs : List DefObj
  dicts : List (List (ℕ × ℕ))
  sensors : List SensObj

/-- The state after the import of the modules.
Models simcats/sensor/_sensor_scan_sensor_generic.py:38. -/
def DefWorld.init : DefWorld := ⟨[], [[]], []⟩

/-- The dictionary argument of the constructor.
Models simcats/sensor/_sensor_scan_sensor_generic.py:38 (the argument `sensor_peak_deformations`). -/
inductive DictArg
  | default
  | none
  | given (k : ℕ)

/-- Statements of a program.
Part of the programs that use the API of simcats/sensor/_sensor_scan_sensor_generic.py:28-100
and simcats/sensor/deformation/_sensor_peak_deformation_interface.py:44-65. -/
inductive DStmt
  /-- `d = SensorPeakDeformationCircle(radius)` or `SensorPeakDeformationLinear(angle)` -/
  | newDef (d : Deform)
  /-- `x = {}` -/
  | newDict
  /-- `x[idx] = d` -/
  | put (k idx d : ℕ)
  /-- `sensor.sensor_peak_deformations[idx] = d` -/
  | putOf (s idx d : ℕ)
  /-- `SensorScanSensorGeneric(...)`; `alpha = none`: an argument that is rejected in simcats/sensor/_sensor_scan_sensor_generic.py:95-97; `rest = false`: an argument that is
  rejected in simcats/sensor/_sensor_scan_sensor_generic.py:98-100. -/
  | newSensor (alpha : Option (ℝ × ℝ)) (peaks : Option (List ℝ)) (dict : DictArg) (rest : Bool)
  /-- `sensor.alpha_sensor_gate = ...` -/
  | setAlpha (s : ℕ) (alpha : ℝ × ℝ)
  /-- `sensor.sensor_peak_function = ...` -/
  | setPeaks (s : ℕ) (peaks : Option (List ℝ))
  /-- `sensor.sensor_peak_deformations = x` -/
  | setDict (s k : ℕ)

/-- A sensor with a name.
Auxiliary definition, used for simcats/sensor/_sensor_scan_sensor_generic.py:85-100. -/
def DefWorld.sensor (w : DefWorld) (s : ℕ) : Option SensObj := (w.sensors[s]?).filter (·.named)

/-- The deformation for a peak: the value of the last assignment to the key.
Library function, used in simcats/sensor/_sensor_scan_sensor_generic.py:440-441. -/
def dictGet (l : List (ℕ × ℕ)) (idx : ℕ) : Option ℕ := (l.find? fun e => e.1 == idx).map (·.2)

/-- `deformation.sensor = self`.
Models simcats/sensor/_sensor_scan_sensor_generic.py:93. -/
def DefWorld.register (s : ℕ) (defs : List DefObj) (d : ℕ) : List DefObj :=
  match defs[d]? with
  | some o => defs.set d ⟨o.shape, some s⟩
  | none => defs

/-- The deformations the constructor registers, in the order of the peaks.
Models simcats/sensor/_sensor_scan_sensor_generic.py:89-92. -/
def registered (peaks : Option (List ℝ)) (content : List (ℕ × ℕ)) : List ℕ :=
  match peaks with
  | none => []
  | some ps => (List.range ps.length).filterMap (dictGet content)

/-- The dictionary object of the constructor argument.
Models simcats/sensor/_sensor_scan_sensor_generic.py:38 (the argument `sensor_peak_deformations`). -/
def DictArg.ref : DictArg → Option ℕ
  | .default => some 0
  | .none => Option.none
  | .given k => some k

/-- The content of a dictionary; `None` and unknown names have none.
Auxiliary definition, used for simcats/sensor/_sensor_scan_sensor_generic.py:85-100. -/
def DefWorld.content (w : DefWorld) (k : Option ℕ) : List (ℕ × ℕ) := (k.bind fun k => w.dicts[k]?).getD []

/-- One statement; after an exception the program goes on with the next one. Names that do not exist are an error of the program.
Models simcats/sensor/_sensor_scan_sensor_generic.py:85-100 for the constructor: peak functions and deformations are set and the
deformations are registered before the other arguments are checked. -/
def DStmt.run (w : DefWorld) : DStmt → Py Unit × DefWorld
  | .newDef d => (.ok (), ⟨w.defs ++ [⟨d, none⟩], w.dicts, w.sensors⟩)
  | .newDict => (.ok (), ⟨w.defs, w.dicts ++ [[]], w.sensors⟩)
  | .put k idx d =>
    -- dictionary 0 has no name of its own
    if k = 0 then (.error .indexError, w) else
    match w.dicts[k]?, w.defs[d]? with
    | some c, some _ => (.ok (), ⟨w.defs, w.dicts.set k ((idx, d) :: c), w.sensors⟩)
    | _, _ => (.error .indexError, w)
  | .putOf s idx d =>
    match w.sensor s, w.defs[d]? with
    | some o, some _ =>
      match o.dict with
      | none => (.error .typeError, w)
      | some k =>
        match w.dicts[k]? with
        | some c => (.ok (), ⟨w.defs, w.dicts.set k ((idx, d) :: c), w.sensors⟩)
        | none => (.error .indexError, w)
    | _, _ => (.error .indexError, w)
  | .newSensor alpha peaks dict rest =>
    let k := dict.ref
    if (k.bind fun k => w.dicts[k]?).isNone ∧ k.isSome then (.error .indexError, w)
    else
      let s := w.sensors.length
      let defs := (registered peaks (w.content k)).foldl (DefWorld.register s) w.defs
      let ok := alpha.isSome && rest
      (if ok then .ok () else .error .valueError, ⟨defs, w.dicts, w.sensors ++ [⟨alpha, peaks, k, ok⟩]⟩)
  | .setAlpha s alpha =>
    match w.sensor s with
    | some o => (.ok (), ⟨w.defs, w.dicts, w.sensors.set s ⟨some alpha, o.peaks, o.dict, o.named⟩⟩)
    | none => (.error .indexError, w)
  | .setPeaks s peaks =>
    match w.sensor s with
    | some o => (.ok (), ⟨w.defs, w.dicts, w.sensors.set s ⟨o.alpha, peaks, o.dict, o.named⟩⟩)
    | none => (.error .indexError, w)
  | .setDict s k =>
    match w.sensor s, w.dicts[k]? with
    | some o, some _ => if k = 0 then (.error .indexError, w) else
      (.ok (), ⟨w.defs, w.dicts, w.sensors.set s ⟨o.alpha, o.peaks, some k, o.named⟩⟩)
    | _, _ => (.error .indexError, w)

/-- The state after a list of statements.
Part of the programs that use the API of simcats/sensor/_sensor_scan_sensor_generic.py:28-100
and simcats/sensor/deformation/_sensor_peak_deformation_interface.py:44-65. -/
def DefWorld.exec (w : DefWorld) (l : List DStmt) : DefWorld := l.foldl (fun w c => (c.run w).2) w

/-- `np.linalg.norm` of a pair.
Library function, used in simcats/sensor/deformation/_sensor_peak_deformation_circle.py:83
and simcats/sensor/deformation/_sensor_peak_deformation_linear.py:71. -/
noncomputable def pairNorm (a : ℝ × ℝ) : ℝ := Real.sqrt (a.1 ^ 2 + a.2 ^ 2)

/-- `deformation.calc_mu(dist, mu0)`: reads the lever arms of the stored sensor object.
Models simcats/sensor/deformation/_sensor_peak_deformation_circle.py:83, _sensor_peak_deformation_linear.py:71 and
_sensor_peak_deformation_interface.py:51-54. -/
noncomputable def DefWorld.calcMu (w : DefWorld) (d : ℕ) (dist mu0 : ℝ) : Py ℝ :=
  match w.defs[d]? with
  | none => .error .indexError
  | some o =>
    match o.owner with
    | none => .error .attributeError
    | some s =>
      match (w.sensors[s]?).bind (·.alpha) with
      | none => .error .attributeError
      | some a => .ok (o.shape.calcMu (pairNorm a) dist mu0)

/-- The position of one peak: deformed if the dictionary has an entry.
Models simcats/sensor/_sensor_scan_sensor_generic.py:440-446. -/
noncomputable def DefWorld.peakPos (w : DefWorld) (content : List (ℕ × ℕ)) (dist : ℝ) (idx : ℕ) (mu : ℝ) : Py ℝ :=
  match dictGet content idx with
  | some d => w.calcMu d dist mu
  | none => .ok mu

/-- The deformed positions of the peaks from number `idx` on.
Models simcats/sensor/_sensor_scan_sensor_generic.py:438-446. -/
noncomputable def DefWorld.peakLoop (w : DefWorld) (content : List (ℕ × ℕ)) (dist : ℝ) : ℕ → List ℝ → Py (List ℝ)
  | _, [] => .ok []
  | idx, mu :: mus =>
    match w.peakPos content dist idx mu with
    | .error e => .error e
    | .ok x =>
      match w.peakLoop content dist (idx + 1) mus with
      | .error e => .error e
      | .ok xs => .ok (x :: xs)

/-- The positions of the peaks that the response of a sensor uses in a pixel at distance `dist` from the middle line (scans of the sensor
gates); without peak functions there are none.
Models simcats/sensor/_sensor_scan_sensor_generic.py:427-446, 463 and 517-527. -/
noncomputable def DefWorld.positions (w : DefWorld) (s : ℕ) (dist : ℝ) : Py (List ℝ) :=
  match w.sensor s with
  | none => .error .indexError
  | some o =>
    match o.dict with
    -- `len(None)`
    | none => .error .typeError
    | some k =>
      match o.peaks with
      | none => .ok []
      | some ps => if w.content (some k) = [] then .ok ps else w.peakLoop (w.content (some k)) dist 0 ps

end SimCATS
