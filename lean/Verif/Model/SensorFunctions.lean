import Verif.Model.SimObjects

/-!
Peak functions, barrier functions and the rise function of sensors as Python objects: which of them the setters copy, and which
they share with the program.  Objects live in a heap, see `SimObjects`.

Left out: the other attributes of sensors (see `Objects` and `DeformObjects`), subclasses with other attributes than numbers and
references, and the difference between lists and tuples of barrier functions.
-/

namespace SimCATS

/-- The attributes of a sensor that hold functions: `sensor_peak_function`, `final_rise` and `barrier_functions`.
Models simcats/sensor/_sensor_generic.py:40
and simcats/sensor/_sensor_scan_sensor_generic.py:85-100 (the attributes that hold functions). -/
inductive FunAttr
  | peaks
  | rise
  | barriers
  deriving DecidableEq

/-- `all(isinstance(x, c) for x in entries)`
Models simcats/sensor/_sensor_generic.py:69-71 and simcats/sensor/_sensor_scan_sensor_generic.py:126-128. -/
def allOf (h : OHeap) (c : OCls) (fs : List OVal) : Bool := fs.all fun v => decide (v.cls h = some c)

/-- The setter of the peak functions.
Models simcats/sensor/_sensor_generic.py:67-79 and simcats/sensor/_sensor_scan_sensor_generic.py:124-136. -/
def setPeakFunction (h : OHeap) : OVal → Py (OHeap × OVal)
  | .none => .ok (h, .none)
  | .num _ => .error .valueError
  | .ref r =>
    match h[r]? with
    | some ⟨.peak, _⟩ =>
      let c := deepcopy h (.ref r)
      .ok (c.1 ++ [⟨.list, [c.2]⟩], .ref c.1.length)
    | some ⟨.list, fs⟩ => if allOf h .peak fs then .ok (deepcopy h (.ref r)) else .error .valueError
    | _ => .error .valueError

/-- The setter of the rise function, which keeps the object itself.
Models simcats/sensor/_sensor_scan_sensor_generic.py:162-167. -/
def setFinalRise (h : OHeap) : OVal → Py (OHeap × OVal)
  | .none => .ok (h, .none)
  | .num _ => .error .valueError
  | .ref r =>
    match h[r]? with
    | some ⟨.rise, _⟩ => .ok (h, .ref r)
    | _ => .error .valueError

/-- The setter of the barrier functions: two copies of one function, or the sequence of two functions itself.
Models simcats/sensor/_sensor_scan_sensor_generic.py:192-201. -/
def setBarrierFunctions (h : OHeap) : OVal → Py (OHeap × OVal)
  | .none => .error .valueError
  | .num _ => .error .valueError
  | .ref r =>
    match h[r]? with
    | some ⟨.barrier, _⟩ =>
      let c := deepcopies h [.ref r, .ref r]
      .ok (c.1 ++ [⟨.list, c.2⟩], .ref c.1.length)
    | some ⟨.list, fs⟩ => if allOf h .barrier fs ∧ fs.length = 2 then .ok (h, .ref r) else .error .valueError
    | _ => .error .valueError

/-- The setter of each attribute.
Models simcats/sensor/_sensor_generic.py:67-79 and simcats/sensor/_sensor_scan_sensor_generic.py:124-136, 162-167, 192-201. -/
def FunAttr.store (h : OHeap) : FunAttr → OVal → Py (OHeap × OVal)
  | .peaks => setPeakFunction h
  | .rise => setFinalRise h
  | .barriers => setBarrierFunctions h

/-- The functions of a sensor.
Auxiliary definition, used for the objects handled by simcats/sensor/_sensor_generic.py:20-79
and simcats/sensor/_sensor_scan_sensor_generic.py:28-201. -/
abbrev FunObj := FunAttr → OVal

/-- The constructor sets attributes one after the other.
Models simcats/sensor/_sensor_generic.py:40 and simcats/sensor/_sensor_scan_sensor_generic.py:85-100. -/
def setAll (h : OHeap) (vals : FunAttr → OVal) : List FunAttr → Py (OHeap × FunObj)
  | [] => .ok (h, fun _ => .none)
  | a :: l =>
    match a.store h (vals a) with
    | .error e => .error e
    | .ok (h1, v) =>
      match setAll h1 vals l with
      | .error e => .error e
      | .ok (h', o) => .ok (h', fun b => if b = a then v else o b)

/-- The attributes of a `SensorGeneric` resp. a `SensorScanSensorGeneric` in the order of the constructor.
Models simcats/sensor/_sensor_generic.py:40 and simcats/sensor/_sensor_scan_sensor_generic.py:85-87, 100. -/
def funAttrs (scan : Bool) : List FunAttr := if scan then [.peaks, .rise, .barriers] else [.peaks]

/-- The state of a program; a sensor is a scan sensor or not, and holds its functions.
Auxiliary definition, used for the objects handled by simcats/sensor/_sensor_generic.py:20-79
and simcats/sensor/_sensor_scan_sensor_generic.py:28-201. -/
structure FunWorld where
  heap : OHeap
  vars : List OVal
  sensors : List (Bool × FunObj)

/-- The state after the import.
Auxiliary definition, used for the objects handled by simcats/sensor/_sensor_generic.py:20-79
and simcats/sensor/_sensor_scan_sensor_generic.py:28-201. -/
def FunWorld.init : FunWorld := ⟨[], [], []⟩

/-- Statements of a program.
Part of the programs that use the API of simcats/sensor/_sensor_generic.py:20-79
and simcats/sensor/_sensor_scan_sensor_generic.py:28-201. -/
inductive FStmt
  /-- a step of the program itself -/
  | prim (p : Prim)
  /-- `SensorGeneric(…)` resp. `SensorScanSensorGeneric(…)`; arguments that are not functions are left out -/
  | newSensor (scan : Bool) (args : FunAttr → OExpr)
  /-- `sensor.attribute = e` -/
  | set (s : ℕ) (a : FunAttr) (e : OExpr)
  /-- `x = sensor.attribute` -/
  | get (s : ℕ) (a : FunAttr)

/-- One statement; after an exception the program goes on with the next one.  Names and attributes that do not exist are errors of
the program.
Models simcats/sensor/_sensor_generic.py:20-43, 45-79 and simcats/sensor/_sensor_scan_sensor_generic.py:28-201. -/
noncomputable def FStmt.run (w : FunWorld) : FStmt → Py Unit × FunWorld
  | .prim p =>
    let f := (p.step ⟨w.heap, w.vars, []⟩).1
    (.ok (), ⟨f.heap, f.vars, w.sensors⟩)
  | .newSensor scan args =>
    if (funAttrs scan).all fun a => ((args a).eval w.vars).isSome then
      match setAll w.heap (fun a => ((args a).eval w.vars).getD .none) (funAttrs scan) with
      | .error e => (.error e, w)
      | .ok (h, o) => (.ok (), ⟨h, w.vars, w.sensors ++ [(scan, o)]⟩)
    else (.error .indexError, w)
  | .set s a e =>
    match w.sensors[s]?, e.eval w.vars with
    | some (scan, o), some v =>
      if a ∈ funAttrs scan then
        match a.store w.heap v with
        | .error e => (.error e, w)
        | .ok (h, v') => (.ok (), ⟨h, w.vars, w.sensors.set s (scan, fun b => if b = a then v' else o b)⟩)
      else (.error .attributeError, w)
    | _, _ => (.error .indexError, w)
  | .get s a =>
    match w.sensors[s]? with
    | some (scan, o) => if a ∈ funAttrs scan then (.ok (), ⟨w.heap, w.vars ++ [o a], w.sensors⟩) else (.error .attributeError, w)
    | Option.none => (.error .indexError, w)

/-- The state after a list of statements.
Part of the programs that use the API of simcats/sensor/_sensor_generic.py:20-79
and simcats/sensor/_sensor_scan_sensor_generic.py:28-201. -/
noncomputable def FunWorld.exec (w : FunWorld) (l : List FStmt) : FunWorld := l.foldl (fun w c => (c.run w).2) w

end SimCATS
