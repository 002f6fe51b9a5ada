import Verif.Model.SensorFunctions
import Verif.Spec.SimObjects

/-! Specifications for the functions that sensors hold. -/

namespace SimCATS.Spec

/-- A list of objects of one class. -/
def IsListOf (h : OHeap) (c : OCls) (v : OVal) : Prop :=
  ∃ r fs, v = .ref r ∧ h[r]? = some ⟨.list, fs⟩ ∧ ∀ x ∈ fs, HasClass h [c] x

/-- A list of two barrier functions. -/
def IsPair (h : OHeap) (v : OVal) : Prop :=
  ∃ r x y, v = .ref r ∧ h[r]? = some ⟨.list, [x, y]⟩ ∧ HasClass h [.barrier] x ∧ HasClass h [.barrier] y

/-- The documented values of an attribute. -/
def FunAccepted (h : OHeap) : FunAttr → OVal → Prop
  | .peaks, v => v = .none ∨ HasClass h [.peak] v ∨ IsListOf h .peak v
  | .rise, v => v = .none ∨ HasClass h [.rise] v
  | .barriers, v => HasClass h [.barrier] v ∨ IsPair h v

/-- The value `v'` holds the documented configuration for the argument `v`. -/
def FunStored (h : OHeap) (a : FunAttr) (v : OVal) (h' : OHeap) (v' : OVal) : Prop :=
  match a with
  -- one peak stands for a list of one peak
  | .peaks => (¬ HasClass h [.peak] v → Same h v h' v') ∧
      (HasClass h [.peak] v → ∃ r x, v' = .ref r ∧ h'[r]? = some ⟨.list, [x]⟩ ∧ Same h v h' x)
  | .rise => Same h v h' v'
  -- one barrier function is used for both barriers
  | .barriers => (¬ HasClass h [.barrier] v → Same h v h' v') ∧
      (HasClass h [.barrier] v → ∃ r x y, v' = .ref r ∧ h'[r]? = some ⟨.list, [x, y]⟩ ∧ Same h v h' x ∧ Same h v h' y)

/-- The arguments that are copied: peak functions, and one barrier function for both barriers. -/
def Copied (h : OHeap) (a : FunAttr) (v : OVal) : Prop := a = .peaks ∨ (a = .barriers ∧ HasClass h [.barrier] v)

/-- The statement passes `v` for an attribute of the sensor `s`: to a setter or to the constructor of a new sensor. -/
def Passes (w : FunWorld) (c : FStmt) (s : ℕ) (a : FunAttr) (v : OVal) : Prop :=
  (∃ e, c = .set s a e ∧ e.eval w.vars = some v) ∨
  (∃ scan args, c = .newSensor scan args ∧ s = w.sensors.length ∧ a ∈ funAttrs scan ∧ (args a).eval w.vars = some v)

/-- The value of an attribute changes only through the sensor: if the getter never handed it out, no program changes it without
setting it. -/
def OwnFunctions (a : FunAttr) : Prop :=
  ∀ (p q : List FStmt) (s : ℕ) (x : Bool × FunObj), (∀ c ∈ p ++ q, c ≠ .get s a) → (∀ c ∈ q, ∀ e, c ≠ .set s a e) →
    (FunWorld.init.exec p).sensors[s]? = some x →
    ∃ x', (FunWorld.init.exec (p ++ q)).sensors[s]? = some x' ∧
      Same (FunWorld.init.exec p).heap (x.2 a) (FunWorld.init.exec (p ++ q)).heap (x'.2 a)

/-- Two values share no object. -/
def Separate (h : OHeap) (v v' : OVal) : Prop := ∀ r, LeadsTo h v r → ¬ LeadsTo h v' r

end SimCATS.Spec
