import Verif.Model.Objects

/-! Specifications for the array attributes of sensors. -/

namespace SimCATS.Spec

/-- An argument by value. -/
inductive ArgVal
  | none
  | number (isInt : Bool) (x : ℝ)
  | array (a : NpArray)
  | other

/-- The value an argument of a program has at the moment; nothing for names that do not exist. -/
def argVal (w : World) : ArgExpr → Option ArgVal
  | .none => some .none
  | .number b x => some (.number b x)
  | .root p => (w.value p).map .array
  | .other => some .other

/-- The documented configuration for an argument of an attribute; nothing for arguments that are not supported. -/
def documented : AttrKind → ArgVal → Option NpArray
  -- a numpy array of size 2
  | .genericDot, .array a | .genericGate, .array a => if a.shape.prod = 2 then some a else Option.none
  -- one pair of lever arms for all three potentials, or one pair for each of them
  | .scanDot, .array a | .scanGate, .array a =>
    if a.shape = [2] then some ⟨a.isInt, [3, 2], a.data ++ a.data ++ a.data⟩ else if a.shape = [3, 2] then some a else Option.none
  -- no influence
  | .scanDot, .none | .scanGate, .none => some ⟨true, [3, 2], [0, 0, 0, 0, 0, 0]⟩
  | .scanSensorGate, .array a => if a.shape = [3, 2] then some a else Option.none
  -- one offset for each potential, or one for all
  | .scanOffset, .array a => if a.shape = [3] then some a else Option.none
  | .scanOffset, .number b x => some ⟨b, [3], [x, x, x]⟩
  | _, _ => Option.none

/-- The shapes that an attribute can have. -/
def Fits (k : AttrKind) (a : NpArray) : Prop :=
  match k with
  | .genericDot | .genericGate => a.shape.prod = 2
  | .scanDot | .scanGate | .scanSensorGate => a.shape = [3, 2]
  | .scanOffset => a.shape = [3]

/-- The arguments that a statement passes to a sensor. -/
def args : Stmt → List ArgExpr
  | .set _ e => [e]
  | .newGeneric d g => [d, g].filterMap id
  | .newScan d g s o => [d, g, s, o].filterMap id
  | _ => []

/-- The statement changes attribute `i` explicitly: it sets it or writes into it by its name. -/
def Changes (i : ℕ) (c : Stmt) : Prop := (∃ e, c = .set i e) ∨ ∃ j v, c = .write (.attr i) j v

/-- Attribute of a `SensorGeneric`. -/
def IsGeneric (k : AttrKind) : Prop := k = .genericDot ∨ k = .genericGate

end SimCATS.Spec
