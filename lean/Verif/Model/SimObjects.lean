import Verif.Model.Py

/-!
Model of the attributes of `Simulation` as Python objects (simcats/_simulation.py:95-104, 240-320, 474, 546-842): which objects
the constructor and the setters accept and copy, which objects the getters return, what a measurement can reach, and which
objects the metadata consist of.  Objects live in a heap, because they can be shared and changed in place.

The code that runs in a measurement (ideal data, sensor, distortions) is a parameter: any program that starts from the objects
the simulation hands to it.  Left out: the arrays that `measure` returns, components that keep or change the sweep ranges passed
to them, and components with global state.
-/

namespace SimCATS

/-- The classes of objects that matter to the simulation.
Auxiliary definition, used for the objects handled by simcats/_simulation.py:33-836. -/
inductive OCls
  | array
  | list
  | generator
  | ideal
  | sensor
  | scanSensor
  | occDist
  | potDist
  | respDist
  | metadata
  | peak
  | barrier
  | rise
  | other
  deriving DecidableEq

/-- A Python value: None, a number, or a reference to an object (its position in the heap).
Auxiliary definition, used for the objects handled by simcats/_simulation.py:33-836. -/
inductive OVal
  | none
  | num (x : ℝ)
  | ref (r : ℕ)

/-- An object: its class and its attributes or entries in a fixed order.
Auxiliary definition, used for the objects handled by simcats/_simulation.py:33-836. -/
structure OObj where
  cls : OCls
  fields : List OVal

/-- All objects.
Auxiliary definition, used for the objects handled by simcats/_simulation.py:33-836. -/
abbrev OHeap := List OObj

/-- `value is None`
Auxiliary definition, used for the objects handled by simcats/_simulation.py:33-836. -/
def OVal.isNone : OVal → Bool
  | .none => true
  | _ => false

/-- Moves references by `n` positions.
Auxiliary definition, used for the objects handled by simcats/_simulation.py:33-836. -/
def OVal.shift (n : ℕ) : OVal → OVal
  | .ref r => .ref (r + n)
  | v => v

/-- Moves the references of an object.
Auxiliary definition, used for the objects handled by simcats/_simulation.py:33-836. -/
def OObj.shift (n : ℕ) (o : OObj) : OObj := ⟨o.cls, o.fields.map (OVal.shift n)⟩

/-- `deepcopy(v)`.  The model appends a copy of the whole heap; the copies of objects that `v` does not lead to are garbage, as
nothing refers to them.  Objects that are shared below `v` are shared in the copy (memo dictionary of Python's `deepcopy`), and a
random number generator is copied with its state.
Library function, used in simcats/_simulation.py:305-318, 548-561, 593-836. -/
def deepcopy (h : OHeap) (v : OVal) : OHeap × OVal := (h ++ h.map (OObj.shift h.length), v.shift h.length)

/-- `deepcopy` of several values one after the other, each with its own memo dictionary.
Library function, used in simcats/_simulation.py:305-318, 548-561, 593-836. -/
def deepcopies (h : OHeap) : List OVal → OHeap × List OVal
  | [] => (h, [])
  | v :: vs =>
    let c := deepcopy h v
    let r := deepcopies c.1 vs
    (r.1, c.2 :: r.2)

/-! ### Code that works on objects -/

/-- An expression of a program.
Part of the programs that use the API of simcats/_simulation.py:33-836. -/
inductive OExpr
  | none
  | num (x : ℝ)
  | var (i : ℕ)

/-- Elementary steps of code.
Part of the programs that use the API of simcats/_simulation.py:33-836. -/
inductive Prim
  /-- `x = Class(e₁, …)` -/
  | new (c : OCls) (es : List OExpr)
  /-- `x = np.random.default_rng(seed)` -/
  | newGen (seed : ℝ)
  /-- `x = v.field` -/
  | load (i k : ℕ)
  /-- `v.field = e` -/
  | store (i k : ℕ) (e : OExpr)
  /-- draws the next random number from the generator `v` -/
  | draw (i : ℕ)
  /-- `v is w` -/
  | same (i j : ℕ)

/-- What code learns from a step.
Part of the programs that use the API of simcats/_simulation.py:33-836. -/
inductive Obs
  | failed
  | done
  | none
  | num (x : ℝ)
  | obj (c : OCls) (len : ℕ)
  | drawn (seed k : ℝ)
  | bool (b : Bool)

/-- What running code consists of: the objects, the values of its names, and the random numbers drawn so far (seed of the
generator and position in its sequence).
Part of the programs that use the API of simcats/_simulation.py:33-836. -/
structure Frame where
  heap : OHeap
  vars : List OVal
  log : List (ℝ × ℝ)

/-- Value of an expression.
Part of the programs that use the API of simcats/_simulation.py:33-836. -/
def OExpr.eval (vars : List OVal) : OExpr → Option OVal
  | .none => some .none
  | .num x => some (.num x)
  | .var i => vars[i]?

/-- Values of several expressions.
Part of the programs that use the API of simcats/_simulation.py:33-836. -/
def OExpr.evals (vars : List OVal) : List OExpr → Option (List OVal)
  | [] => some []
  | e :: es =>
    match e.eval vars, OExpr.evals vars es with
    | some v, some vs => some (v :: vs)
    | _, _ => Option.none

/-- What code sees of a value.
Part of the programs that use the API of simcats/_simulation.py:33-836. -/
def OVal.obs (h : OHeap) : OVal → Obs
  | .none => .none
  | .num x => .num x
  | .ref r =>
    match h[r]? with
    | some o => .obj o.cls o.fields.length
    | Option.none => .failed

/-- The object a name refers to, with its position.
Part of the programs that use the API of simcats/_simulation.py:33-836. -/
def Frame.obj (f : Frame) (i : ℕ) : Option (ℕ × OObj) :=
  match f.vars[i]? with
  | some (.ref r) => (f.heap[r]?).map fun o => (r, o)
  | _ => Option.none

/-- One step; a step that fails changes nothing.  Generators are only changed by drawing from them (their bit generators are not
modelled).
Part of the programs that use the API of simcats/_simulation.py:33-836. -/
noncomputable def Prim.step (f : Frame) : Prim → Frame × Obs
  | .new c es =>
    match OExpr.evals f.vars es with
    | some vs =>
      if c = .generator then (f, .failed)
      else (⟨f.heap ++ [⟨c, vs⟩], f.vars ++ [.ref f.heap.length], f.log⟩, .done)
    | Option.none => (f, .failed)
  | .newGen s => (⟨f.heap ++ [⟨.generator, [.num s, .num 0]⟩], f.vars ++ [.ref f.heap.length], f.log⟩, .done)
  | .load i k =>
    match f.obj i with
    | some (_, o) =>
      if o.cls = .generator then (f, .failed)
      else
        match o.fields[k]? with
        | some v => (⟨f.heap, f.vars ++ [v], f.log⟩, v.obs f.heap)
        | Option.none => (f, .failed)
    | Option.none => (f, .failed)
  | .store i k e =>
    match f.obj i, e.eval f.vars with
    | some (r, o), some v =>
      if o.cls = .generator then (f, .failed)
      else if k < o.fields.length then (⟨f.heap.set r ⟨o.cls, o.fields.set k v⟩, f.vars, f.log⟩, .done)
      else (f, .failed)
    | _, _ => (f, .failed)
  | .draw i =>
    match f.obj i with
    | some (r, ⟨.generator, [.num s, .num k]⟩) =>
      (⟨f.heap.set r ⟨.generator, [.num s, .num (k + 1)]⟩, f.vars, f.log ++ [(s, k)]⟩, .drawn s k)
    | _ => (f, .failed)
  | .same i j =>
    match f.obj i, f.obj j with
    | some (r, _), some (r', _) => (f, .bool (decide (r = r')))
    | _, _ => (f, .failed)

/-- Deterministic code: the next step depends on what it has seen before; nothing at the end.
Part of the programs that use the API of simcats/_simulation.py:33-836. -/
abbrev Code := List Obs → Option Prim

/-- Runs code for at most `n` steps.
Part of the programs that use the API of simcats/_simulation.py:33-836. -/
noncomputable def Code.run (c : Code) : ℕ → List Obs → Frame → Frame
  | 0, _, f => f
  | n + 1, seen, f =>
    match c seen with
    | Option.none => f
    | some p => Code.run c n (seen ++ [(p.step f).2]) (p.step f).1

/-! ### The simulation -/

/-- The attributes of a simulation.
Models simcats/_simulation.py:95-104. -/
inductive SimAttr
  | limG1
  | limG2
  | limSensorG1
  | limSensorG2
  | ideal
  | sensor
  | occD
  | potD
  | respD
  deriving DecidableEq

/-- The attributes in the order in which the constructor sets them. Models simcats/_simulation.py:95-104. -/
def SimAttr.all : List SimAttr := [.limG1, .limG2, .limSensorG1, .limSensorG2, .ideal, .sensor, .occD, .potD, .respD]

/-- The check of the voltage limit setters: None or a numpy array of size 2; for lists `.size` raises an `AttributeError`.
Models simcats/_simulation.py:585-592, 614-621, 643-651 and 673-681. -/
def checkLimits (h : OHeap) : OVal → Py Unit
  | .none => .ok ()
  | .num _ => .error .valueError
  | .ref r =>
    match h[r]? with
    | some ⟨.array, fs⟩ => if fs.length = 2 then .ok () else .error .valueError
    | some ⟨.list, _⟩ => .error .attributeError
    | _ => .error .valueError

/-- The class of the object a value refers to.
Auxiliary definition, used for the objects handled by simcats/_simulation.py:33-836. -/
def OVal.cls (h : OHeap) : OVal → Option OCls
  | .ref r => (h[r]?).map (·.cls)
  | _ => Option.none

/-- `value is None or isinstance(value, …)`. Models simcats/_simulation.py:705-709 and 734-744. -/
def checkClass (h : OHeap) (ok : List OCls) : OVal → Py Unit
  | .none => .ok ()
  | v =>
    match v.cls h with
    | some c => if c ∈ ok then .ok () else .error .valueError
    | Option.none => .error .valueError

open Classical in
/-- `value is None or all(isinstance(x, c) for x in value)`: lists and arrays can be iterated, the keys of a metadata dictionary
are strings, other objects and numbers are not iterable.  Tuples and other iterables are left out.
Models simcats/_simulation.py:765-773, 796-804 and 827-835. -/
noncomputable def checkDistortions (h : OHeap) (c : OCls) : OVal → Py Unit
  | .none => .ok ()
  | .num _ => .error .typeError
  | .ref r =>
    match h[r]? with
    | some ⟨.list, fs⟩ => if ∀ v ∈ fs, v.cls h = some c then .ok () else .error .valueError
    | some ⟨.array, fs⟩ => if ∀ v ∈ fs, v.cls h = some c then .ok () else .error .valueError
    | some ⟨.metadata, _⟩ => .error .valueError
    | _ => .error .typeError

/-- The check of each setter. Models simcats/_simulation.py:566-836. -/
noncomputable def SimAttr.check (h : OHeap) : SimAttr → OVal → Py Unit
  | .limG1 | .limG2 | .limSensorG1 | .limSensorG2 => checkLimits h
  | .ideal => checkClass h [.ideal]
  | .sensor => checkClass h [.sensor, .scanSensor]
  | .occD => checkDistortions h .occDist
  | .potD => checkDistortions h .potDist
  | .respD => checkDistortions h .respDist

/-- `SensorGeneric()`: no peaks, new arrays for the lever arms, offset 0.
Models simcats/sensor/_sensor_generic.py:20-43. -/
def newSensorGeneric (h : OHeap) : OHeap × OVal :=
  (h ++ [⟨.array, [.num (-1), .num (-1)]⟩, ⟨.array, [.num 0, .num 0]⟩,
    ⟨.sensor, [.none, .ref h.length, .ref (h.length + 1), .num 0]⟩], .ref (h.length + 2))

/-- What a setter stores: a deep copy of its argument; None for the sensor gives a new `SensorGeneric`.
Models simcats/_simulation.py:593, 622, 652, 682, 710, 734-744, 774, 805 and 836. -/
def SimAttr.store (h : OHeap) (a : SimAttr) (v : OVal) : OHeap × OVal :=
  match a, v with
  | .sensor, .none => newSensorGeneric h
  | _, v => deepcopy h v

/-- The objects a simulation holds.
Auxiliary definition, used for the objects handled by simcats/_simulation.py:33-836. -/
abbrev SimObj := SimAttr → OVal

/-- Sets attributes of a new simulation one after the other.
Models simcats/_simulation.py:33-104. -/
noncomputable def construct (h : OHeap) (vals : SimAttr → OVal) : List SimAttr → Py (OHeap × SimObj)
  | [] => .ok (h, fun _ => .none)
  | a :: l =>
    match a.check h (vals a) with
    | .error e => .error e
    | .ok () =>
      let s := a.store h (vals a)
      match construct s.1 vals l with
      | .error e => .error e
      | .ok (h', o) => .ok (h', fun b => if b = a then s.2 else o b)

/-- The state of a program: all objects, the values of its names, the simulations, and the random numbers drawn so far, by the
program itself or in measurements of a simulation.
Auxiliary definition, used for simcats/_simulation.py:33-836. -/
structure SimWorld where
  heap : OHeap
  vars : List OVal
  sims : List SimObj
  log : List (Option ℕ × ℝ × ℝ)

/-- The state after the import: `SensorGeneric()`, the default value of the parameter `sensor`, is created once.
Models simcats/_simulation.py:40. -/
def SimWorld.init : SimWorld := ⟨(newSensorGeneric []).1, [], [], []⟩

/-- The default value of a parameter of the constructor. Models simcats/_simulation.py:35-44. -/
def SimAttr.default : SimAttr → OVal
  | .sensor => .ref 2
  | _ => .none

/-- The arguments of the constructor; missing ones have their default values.
Models simcats/_simulation.py:33-104. -/
def SimWorld.ctorVals (w : SimWorld) (args : SimAttr → Option OExpr) (a : SimAttr) : Option OVal :=
  match args a with
  | some e => e.eval w.vars
  | Option.none => some a.default

/-- Statements of a program.
Part of the programs that use the API of simcats/_simulation.py:33-836. -/
inductive SStmt
  /-- a step of the program itself -/
  | prim (p : Prim)
  /-- `Simulation(…)` -/
  | newSim (args : SimAttr → Option OExpr)
  /-- `sim.attribute = e` -/
  | set (s : ℕ) (a : SimAttr) (e : OExpr)
  /-- `x = sim.attribute` -/
  | get (s : ℕ) (a : SimAttr)
  /-- `csd, occupations, lead_transitions, x = sim.measure(…)`, or `sim.measure_sensor_scan(…)` with `scan`.  `code` is what the
  components do, for at most `fuel` steps, `ok` tells if they return normally.  `args` are the arguments reported in the
  metadata; for sensor scans without the resolution, which the code may replace by an integer.  Requests that are rejected
  because of their voltages or resolution (C01, C02, C51) change nothing and are left out. -/
  | measure (s : ℕ) (scan : Bool) (args : List OExpr) (code : Code) (fuel : ℕ) (ok : Bool)

/-- The objects handed to the components: a copy of the ideal CSD configuration, and the sensor and the distortions themselves.
Models simcats/_simulation.py:242, 250-301, 474 and 498-542. -/
def SimWorld.start (w : SimWorld) (o : SimObj) : Frame :=
  let c := deepcopy w.heap (o .ideal)
  ⟨c.1, [c.2, o .sensor, o .occD, o .potD, o .respD], []⟩

/-- The metadata dictionary: deep copies of the arguments and of all attributes.
Models simcats/_simulation.py:304-319 and 546-562. -/
def makeMetadata (h : OHeap) (args : List OVal) (o : SimObj) : OHeap × OVal :=
  let c := deepcopies h (args ++ SimAttr.all.map o)
  (c.1 ++ [⟨.metadata, c.2⟩], .ref c.1.length)

open Classical in
/-- One statement; after an exception the program goes on with the next one.
Models simcats/_simulation.py:33-104 and 566-836 (the effect of one step on the objects). -/
noncomputable def SStmt.run (w : SimWorld) : SStmt → Py Unit × SimWorld
  | .prim p =>
    let f := (p.step ⟨w.heap, w.vars, []⟩).1
    (.ok (), ⟨f.heap, f.vars, w.sims, w.log ++ f.log.map fun d => (Option.none, d)⟩)
  | .newSim args =>
    if ∀ a, (w.ctorVals args a).isSome then
      match construct w.heap (fun a => (w.ctorVals args a).getD .none) SimAttr.all with
      | .error e => (.error e, w)
      | .ok (h, o) => (.ok (), ⟨h, w.vars, w.sims ++ [o], w.log⟩)
    else (.error .indexError, w)
  | .set s a e =>
    match w.sims[s]?, e.eval w.vars with
    | some o, some v =>
      match a.check w.heap v with
      | .error e => (.error e, w)
      | .ok () =>
        let c := a.store w.heap v
        (.ok (), ⟨c.1, w.vars, w.sims.set s (fun b => if b = a then c.2 else o b), w.log⟩)
    | _, _ => (.error .indexError, w)
  | .get s a =>
    match w.sims[s]? with
    | some o => (.ok (), ⟨w.heap, w.vars ++ [o a], w.sims, w.log⟩)
    | Option.none => (.error .indexError, w)
  | .measure s scan args code fuel ok =>
    match w.sims[s]?, OExpr.evals w.vars args with
    | some o, some vs =>
      if (scan = true ∧ (o .sensor).cls w.heap = some .scanSensor) ∨ (scan = false ∧ (o .ideal).isNone = false) then
        let f := code.run fuel [] (w.start o)
        let log := w.log ++ f.log.map fun d => (some s, d)
        if ok then
          let m := makeMetadata f.heap vs o
          (.ok (), ⟨m.1, w.vars ++ [m.2], w.sims, log⟩)
        else (.error .valueError, ⟨f.heap, w.vars, w.sims, log⟩)
      else (.error .valueError, w)
    | _, _ => (.error .indexError, w)

/-- The state after a list of statements.
Part of the programs that use the API of simcats/_simulation.py:33-836. -/
noncomputable def SimWorld.exec (w : SimWorld) (l : List SStmt) : SimWorld := l.foldl (fun w c => (c.run w).2) w

end SimCATS
