import Verif.Model.Sensor
import Mathlib.Algebra.Order.Floor.Defs
import Mathlib.Algebra.Order.Archimedean.Real.Basic

/-!
Models of the attributes of `SensorGeneric` and `SensorScanSensorGeneric` that hold numpy arrays: which arguments the
setters and constructors accept, whether the array itself or a copy of it is stored, and what the program around them can do
with arrays.  Arrays live in a heap, because several names can refer to the same array.

Left out: views, in-place reshaping, reading of elements, data types other than integers and floats, arrays that share part
of their memory.
-/

namespace SimCATS

/-- A numpy array: integer or float entries, shape, entries in row-major order.
Auxiliary definition, used for the arrays of simcats/sensor/_sensor_generic.py:81-128
and simcats/sensor/_sensor_scan_sensor_generic.py:203-381. -/
structure NpArray where
  isInt : Bool
  shape : List ℕ
  data : List ℝ

/-- `.size`
Auxiliary definition, used for the arrays of simcats/sensor/_sensor_generic.py:81-128
and simcats/sensor/_sensor_scan_sensor_generic.py:203-381. -/
def NpArray.size (a : NpArray) : ℕ := a.shape.prod

/-- Conversion of a number to an entry of the array: integer arrays cut off the decimals.
Auxiliary definition, used for the arrays of simcats/sensor/_sensor_generic.py:81-128
and simcats/sensor/_sensor_scan_sensor_generic.py:203-381. -/
noncomputable def NpArray.entry (a : NpArray) (x : ℝ) : ℝ :=
  if a.isInt then (if 0 ≤ x then (⌊x⌋ : ℝ) else (⌈x⌉ : ℝ)) else x

/-- `a.flat[i] = x`
Auxiliary definition, used for the arrays of simcats/sensor/_sensor_generic.py:81-128
and simcats/sensor/_sensor_scan_sensor_generic.py:203-381. -/
noncomputable def NpArray.put (a : NpArray) (i : ℕ) (x : ℝ) : NpArray := { a with data := a.data.set i (a.entry x) }

/-- An argument of a setter after evaluation; arrays are passed by reference (position in the heap).
Auxiliary definition, used for the arguments of the setters simcats/sensor/_sensor_generic.py:93-128
and simcats/sensor/_sensor_scan_sensor_generic.py:218-381. -/
inductive ObjArg
  | none
  | number (isInt : Bool) (x : ℝ)
  | array (r : ℕ)
  | other

/-- What a setter stores: the array of the argument itself or a new array.
Auxiliary definition, used for the arrays of simcats/sensor/_sensor_generic.py:81-128
and simcats/sensor/_sensor_scan_sensor_generic.py:203-381. -/
inductive Stored
  | keep (r : ℕ)
  | fresh (a : NpArray)

/-- The attributes that hold arrays.
Models simcats/sensor/_sensor_generic.py:93-128 and simcats/sensor/_sensor_scan_sensor_generic.py:218-381 (one case for each attribute). -/
inductive AttrKind
  | genericDot
  | genericGate
  | scanDot
  | scanGate
  | scanSensorGate
  | scanOffset
  deriving DecidableEq

/-- Setter of `alpha_dot` and `alpha_gate` of `SensorGeneric`: arrays of size 2 are copied, everything else is rejected.
Models simcats/sensor/_sensor_generic.py:93-104 and 118-128. -/
def setGenericAlpha (heap : List NpArray) : ObjArg → Py Stored
  | .array r =>
    match heap[r]? with
    | some a => if a.size = 2 then .ok (.fresh a) else .error .valueError
    | none => .error .valueError
  | _ => .error .valueError

/-- Setter of `alpha_dot` and `alpha_gate` of `SensorScanSensorGeneric`: an array of shape (2,) is repeated in a new array, an
array of shape (3, 2) is stored itself, None gives a new integer array of zeros.
Models simcats/sensor/_sensor_scan_sensor_generic.py:218-253 and 270-304. -/
def setScanAlpha (heap : List NpArray) : ObjArg → Py Stored
  | .array r =>
    match heap[r]? with
    | some a =>
      if a.shape = [2] then .ok (.fresh ⟨a.isInt, [3, 2], a.data ++ a.data ++ a.data⟩)
      else if a.shape = [3, 2] then .ok (.keep r) else .error .valueError
    | none => .error .valueError
  | .none => .ok (.fresh ⟨true, [3, 2], [0, 0, 0, 0, 0, 0]⟩)
  | _ => .error .valueError

/-- Setter of `alpha_sensor_gate`: only arrays of shape (3, 2), stored without a copy.
Models simcats/sensor/_sensor_scan_sensor_generic.py:321-348. -/
def setScanSensorGate (heap : List NpArray) : ObjArg → Py Stored
  | .array r =>
    match heap[r]? with
    | some a => if a.shape = [3, 2] then .ok (.keep r) else .error .valueError
    | none => .error .valueError
  | _ => .error .valueError

/-- Setter of `offset_mu_sens` of `SensorScanSensorGeneric`: arrays of shape (3,) are stored without a copy, a number is used for
all three potentials.
Models simcats/sensor/_sensor_scan_sensor_generic.py:363-381. -/
def setScanOffset (heap : List NpArray) : ObjArg → Py Stored
  | .array r =>
    match heap[r]? with
    | some a => if a.shape = [3] then .ok (.keep r) else .error .valueError
    | none => .error .valueError
  | .number b x => .ok (.fresh ⟨b, [3], [x, x, x]⟩)
  | _ => .error .valueError

/-- The setter of an attribute.
Models simcats/sensor/_sensor_generic.py:93-128 and simcats/sensor/_sensor_scan_sensor_generic.py:218-381 (one case for each attribute). -/
def AttrKind.setter : AttrKind → List NpArray → ObjArg → Py Stored
  | .genericDot | .genericGate => setGenericAlpha
  | .scanDot | .scanGate => setScanAlpha
  | .scanSensorGate => setScanSensorGate
  | .scanOffset => setScanOffset

/-- The arrays that are created once as default values of the constructor parameters when the modules are imported.
Models simcats/sensor/_sensor_generic.py:23-24 and simcats/sensor/_sensor_scan_sensor_generic.py:34-36. -/
def defaultArrays : List NpArray :=
  [⟨true, [2], [-1, -1]⟩, ⟨true, [2], [0, 0]⟩, ⟨true, [3, 2], [0, 0, 0, 0, 0, 0]⟩, ⟨true, [3, 2], [0, 0, 0, 0, 0, 0]⟩,
    ⟨true, [3], [0, 0, 0]⟩]

/-- Position of the default array of a constructor parameter; `alpha_sensor_gate` has no default.
Models simcats/sensor/_sensor_generic.py:23-24 and simcats/sensor/_sensor_scan_sensor_generic.py:34-36. -/
def AttrKind.default : AttrKind → Option ℕ
  | .genericDot => some 0
  | .genericGate => some 1
  | .scanGate => some 2
  | .scanDot => some 3
  | .scanOffset => some 4
  | .scanSensorGate => none

/-- The state of a program: all arrays, the arrays with a name of their own, and the attributes of all sensors in the order of
their creation (kind of the attribute and position of its array).
Auxiliary definition, used for simcats/sensor/_sensor_generic.py:20-128 and simcats/sensor/_sensor_scan_sensor_generic.py:28-381. -/
structure World where
  heap : List NpArray
  vars : List ℕ
  attrs : List (AttrKind × ℕ)

/-- The state after the import of the modules.
Auxiliary definition, used for simcats/sensor/_sensor_generic.py:20-128 and simcats/sensor/_sensor_scan_sensor_generic.py:28-381. -/
def World.init : World := ⟨defaultArrays, [], []⟩

/-- A way to refer to an array: a name of the program, or an attribute of a sensor (the getters return the stored array).
Part of the programs that use the API of simcats/sensor/_sensor_generic.py:20-128
and simcats/sensor/_sensor_scan_sensor_generic.py:28-381. -/
inductive Root
  | var (i : ℕ)
  | attr (i : ℕ)
  deriving DecidableEq

/-- The array a name refers to. Models the getters simcats/sensor/_sensor_generic.py:81-91, 106-116 and
simcats/sensor/_sensor_scan_sensor_generic.py:203-216, 255-268, 306-319, 350-361. -/
def World.ref (w : World) : Root → Option ℕ
  | .var i => w.vars[i]?
  | .attr i => (w.attrs[i]?).map (·.2)

/-- Current content of the array a name refers to.
Auxiliary definition, used for simcats/sensor/_sensor_generic.py:20-128 and simcats/sensor/_sensor_scan_sensor_generic.py:28-381. -/
def World.value (w : World) (p : Root) : Option NpArray := (w.ref p).bind fun r => w.heap[r]?

/-- An argument as written in the program.
Part of the programs that use the API of simcats/sensor/_sensor_generic.py:20-128
and simcats/sensor/_sensor_scan_sensor_generic.py:28-381. -/
inductive ArgExpr
  | none
  | number (isInt : Bool) (x : ℝ)
  | root (p : Root)
  | other

/-- Evaluation of an argument; names that do not exist are an error of the program.
Part of the programs that use the API of simcats/sensor/_sensor_generic.py:20-128
and simcats/sensor/_sensor_scan_sensor_generic.py:28-381. -/
def World.eval (w : World) : ArgExpr → Py ObjArg
  | .none => .ok .none
  | .number b x => .ok (.number b x)
  | .other => .ok .other
  | .root p =>
    match w.ref p with
    | some r => .ok (.array r)
    | Option.none => .error .indexError

/-- Puts the result of a setter in the heap.
Auxiliary definition, used for the arrays of simcats/sensor/_sensor_generic.py:81-128
and simcats/sensor/_sensor_scan_sensor_generic.py:203-381. -/
def Stored.place (heap : List NpArray) : Stored → List NpArray × ℕ
  | .keep r => (heap, r)
  | .fresh a => (heap ++ [a], heap.length)

/-- Statements of a program.
Part of the programs that use the API of simcats/sensor/_sensor_generic.py:20-128
and simcats/sensor/_sensor_scan_sensor_generic.py:28-381. -/
inductive Stmt
  /-- `x = np.array(...)` -/
  | alloc (a : NpArray)
  /-- `x = sensor.attribute` -/
  | bind (i : ℕ)
  /-- `x.flat[i] = v` or `sensor.attribute.flat[i] = v` -/
  | write (p : Root) (i : ℕ) (v : ℝ)
  /-- `sensor.attribute = e` -/
  | set (i : ℕ) (e : ArgExpr)
  /-- `SensorGeneric(alpha_dot=..., alpha_gate=...)`; omitted parameters are `none`. -/
  | newGeneric (dot gate : Option ArgExpr)
  /-- `SensorScanSensorGeneric(alpha_dot=..., alpha_gate=..., alpha_sensor_gate=..., offset_mu_sens=...)` -/
  | newScan (dot gate sensorGate offset : Option ArgExpr)

/-- The argument of a constructor parameter; a missing argument without default is a `TypeError`.
Models simcats/sensor/_sensor_generic.py:20-43, 93-128
and simcats/sensor/_sensor_scan_sensor_generic.py:28-100, 218-381 (the effect of one step on the objects). -/
def World.ctorArg (w : World) (k : AttrKind) : Option ArgExpr → Py ObjArg
  | some e => w.eval e
  | none =>
    match k.default with
    | some r => .ok (.array r)
    | none => .error .typeError

/-- Sets the attributes of a new sensor one after the other.
Models simcats/sensor/_sensor_generic.py:20-43, 93-128
and simcats/sensor/_sensor_scan_sensor_generic.py:28-100, 218-381 (the effect of one step on the objects). -/
def World.create (w : World) : List (AttrKind × ObjArg) → Py World
  | [] => .ok w
  | (k, a) :: l =>
    match k.setter w.heap a with
    | .error e => .error e
    | .ok st =>
      let h := st.place w.heap
      World.create ⟨h.1, w.vars, w.attrs ++ [(k, h.2)]⟩ l

/-- Evaluation of all constructor arguments.
Models simcats/sensor/_sensor_generic.py:20-43, 93-128
and simcats/sensor/_sensor_scan_sensor_generic.py:28-100, 218-381 (the effect of one step on the objects). -/
def World.ctorArgs (w : World) : List (AttrKind × Option ArgExpr) → Py (List (AttrKind × ObjArg))
  | [] => .ok []
  | (k, e) :: l =>
    match w.ctorArg k e, w.ctorArgs l with
    | .ok a, .ok as => .ok ((k, a) :: as)
    | .error e, _ => .error e
    | _, .error e => .error e

/-- A constructor; if it fails there is no new sensor.
Models simcats/sensor/_sensor_generic.py:40-43 and simcats/sensor/_sensor_scan_sensor_generic.py:85-100 (attributes without
arrays left out). -/
def World.construct (w : World) (l : List (AttrKind × Option ArgExpr)) : Py Unit × World :=
  match w.ctorArgs l with
  | .error e => (.error e, w)
  | .ok as =>
    match w.create as with
    | .error e => (.error e, w)
    | .ok w' => (.ok (), w')

/-- One statement; after an exception the program goes on with the next one.
Models simcats/sensor/_sensor_generic.py:20-43, 93-128
and simcats/sensor/_sensor_scan_sensor_generic.py:28-100, 218-381 (the effect of one step on the objects). -/
noncomputable def Stmt.run (w : World) : Stmt → Py Unit × World
  | .alloc a =>
    if a.data.length = a.size then (.ok (), ⟨w.heap ++ [a], w.vars ++ [w.heap.length], w.attrs⟩) else (.error .valueError, w)
  | .bind i =>
    match w.ref (.attr i) with
    | some r => (.ok (), ⟨w.heap, w.vars ++ [r], w.attrs⟩)
    | none => (.error .indexError, w)
  | .write p i v =>
    match w.ref p with
    | some r =>
      match w.heap[r]? with
      | some a => if i < a.size then (.ok (), ⟨w.heap.set r (a.put i v), w.vars, w.attrs⟩) else (.error .indexError, w)
      | none => (.error .indexError, w)
    | none => (.error .indexError, w)
  | .set i e =>
    match w.attrs[i]?, w.eval e with
    | some (k, _), .ok a =>
      match k.setter w.heap a with
      | .error e => (.error e, w)
      | .ok st =>
        let h := st.place w.heap
        (.ok (), ⟨h.1, w.vars, w.attrs.set i (k, h.2)⟩)
    | some _, .error e => (.error e, w)
    | none, _ => (.error .indexError, w)
  | .newGeneric d g => w.construct [(.genericDot, d), (.genericGate, g)]
  | .newScan d g s o => w.construct [(.scanDot, d), (.scanGate, g), (.scanSensorGate, s), (.scanOffset, o)]

/-- The state after a list of statements.
Part of the programs that use the API of simcats/sensor/_sensor_generic.py:20-128
and simcats/sensor/_sensor_scan_sensor_generic.py:28-381. -/
noncomputable def World.exec (w : World) (l : List Stmt) : World := l.foldl (fun w c => (c.run w).2) w

/-! ### Shape of the potential of `SensorGeneric` -/

/-- Shape of `a.dot(b)` for an array `a` with at least one axis: the last axis of `a` is summed with the last but one of `b`, or
with its only one.
Library function, used in simcats/sensor/_sensor_generic.py:215. -/
def dotShape (a b : List ℕ) : Py (List ℕ) :=
  match b.reverse with
  | [] => .ok a
  | [n] => if a.getLast? = some n then .ok a.dropLast else .error .valueError
  | n :: m :: rest => if a.getLast? = some m then .ok (a.dropLast ++ rest.reverse ++ [n]) else .error .valueError

/-- Broadcasting of two shapes, given from the last axis to the first.
Library function, used in simcats/sensor/_sensor_generic.py:215. -/
def broadcastRev : List ℕ → List ℕ → Py (List ℕ)
  | [], ys => .ok ys
  | x :: xs, [] => .ok (x :: xs)
  | x :: xs, y :: ys =>
    match broadcastRev xs ys with
    | .error e => .error e
    | .ok zs => if x = y then .ok (x :: zs) else if x = 1 then .ok (y :: zs) else if y = 1 then .ok (x :: zs) else .error .valueError

/-- Shape of `a + b`.
Library function, used in simcats/sensor/_sensor_generic.py:215. -/
def addShape (a b : List ℕ) : Py (List ℕ) :=
  match broadcastRev a.reverse b.reverse with
  | .ok s => .ok s.reverse
  | .error e => .error e

/-- Shape of `sensor_potential(...)` of `SensorGeneric` for a scan with the axes `dims` (all at least 1) and lever arms of the given
shapes: `occupations.dot(alpha_dot) + voltages.dot(alpha_gate) + offset`.
Models simcats/sensor/_sensor_generic.py:201-216. -/
def potentialShape (dims dot gate : List ℕ) : Py (List ℕ) :=
  match dotShape (dims ++ [2]) dot with
  | .error e => .error e
  | .ok a =>
    match dotShape (dims ++ [2]) gate with
    | .error e => .error e
    | .ok b => addShape a b

end SimCATS
