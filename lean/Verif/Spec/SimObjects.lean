import Verif.Model.SimObjects

/-! Specifications for the objects that a simulation holds. -/

namespace SimCATS.Spec

/-- Two values agree if `B` tells which objects correspond to each other. -/
inductive ValMatch (B : ℕ → ℕ → Prop) : OVal → OVal → Prop
  | none : ValMatch B .none .none
  | num (x : ℝ) : ValMatch B (.num x) (.num x)
  | ref {r s : ℕ} : B r s → ValMatch B (.ref r) (.ref s)

/-- `B` is a one-to-one correspondence of objects with the same class and the same content. -/
structure Corr (h h' : OHeap) (B : ℕ → ℕ → Prop) : Prop where
  left : ∀ r s t, B r s → B r t → s = t
  right : ∀ r s t, B r t → B s t → r = s
  obj : ∀ r s, B r s →
    ∃ o o', h[r]? = some o ∧ h'[s]? = some o' ∧ o.cls = o'.cls ∧ List.Forall₂ (ValMatch B) o.fields o'.fields

/-- A family of values has the same content in two heaps, including what is shared between its members. -/
def SameAll {ι : Type} (h : OHeap) (v : ι → OVal) (h' : OHeap) (v' : ι → OVal) : Prop :=
  ∃ B, Corr h h' B ∧ ∀ i, ValMatch B (v i) (v' i)

/-- Two values have the same content. -/
def Same (h : OHeap) (v : OVal) (h' : OHeap) (v' : OVal) : Prop := ∃ B, Corr h h' B ∧ ValMatch B v v'

/-- The object `r` can be reached from a value. -/
inductive LeadsTo (h : OHeap) : OVal → ℕ → Prop
  | here (r : ℕ) : LeadsTo h (.ref r) r
  | step {v : OVal} {r q : ℕ} {o : OObj} : LeadsTo h v r → h[r]? = some o → .ref q ∈ o.fields → LeadsTo h v q

/-- A list of distortions of one kind. -/
def IsDistortions (h : OHeap) (c : OCls) (v : OVal) : Prop :=
  ∃ r o, v = .ref r ∧ h[r]? = some o ∧ (o.cls = .list ∨ o.cls = .array) ∧ ∀ x ∈ o.fields, ∃ q d, x = .ref q ∧ h[q]? = some d ∧ d.cls = c

/-- The object that a value refers to has one of the classes. -/
def HasClass (h : OHeap) (cs : List OCls) (v : OVal) : Prop := ∃ r o, v = .ref r ∧ h[r]? = some o ∧ o.cls ∈ cs

/-- The values that the documentation allows for an attribute. -/
def Accepted (h : OHeap) (a : SimAttr) (v : OVal) : Prop :=
  v = .none ∨
  match a with
  -- a numpy array of size 2
  | .limG1 | .limG2 | .limSensorG1 | .limSensorG2 => ∃ r x y, v = .ref r ∧ h[r]? = some ⟨.array, [x, y]⟩
  -- an implementation of the interface
  | .ideal => HasClass h [.ideal] v
  | .sensor => HasClass h [.sensor, .scanSensor] v
  -- a list of implementations of the interface
  | .occD => IsDistortions h .occDist v
  | .potD => IsDistortions h .potDist v
  | .respD => IsDistortions h .respDist v

/-- The sensor that is used if none is configured: no peaks, lever arms (-1, -1) of the dots and (0, 0) of the gates, offset 0. -/
def IsDefaultSensor (h : OHeap) (v : OVal) : Prop :=
  ∃ r d g, v = .ref r ∧ h[r]? = some ⟨.sensor, [.none, .ref d, .ref g, .num 0]⟩ ∧
    h[d]? = some ⟨.array, [.num (-1), .num (-1)]⟩ ∧ h[g]? = some ⟨.array, [.num 0, .num 0]⟩

/-- The value stored for an argument of an attribute: its content; None stands for the default sensor. -/
def Stored (h : OHeap) (a : SimAttr) (v : OVal) (h' : OHeap) (v' : OVal) : Prop :=
  (a = .sensor → v = .none → IsDefaultSensor h' v') ∧ ((a ≠ .sensor ∨ v ≠ .none) → Same h v h' v')

/-- The attributes that `measure` reads only: limits, and the ideal CSD configuration, of which it uses a copy. -/
def ReadOnly (a : SimAttr) : Prop := a = .limG1 ∨ a = .limG2 ∨ a = .limSensorG1 ∨ a = .limSensorG2 ∨ a = .ideal

/-- What a statement has to do with the simulation `s`. -/
def Gets (s : ℕ) (c : SStmt) : Prop := ∃ a, c = .get s a
def Sets (s : ℕ) (c : SStmt) : Prop := ∃ a e, c = .set s a e
def Measures (s : ℕ) (c : SStmt) : Prop := ∃ scan args code fuel ok, c = .measure s scan args code fuel ok

/-- The names that a step uses. -/
def exprNames : OExpr → List ℕ
  | .var i => [i]
  | _ => []

def names : Prim → List ℕ
  | .new _ es => es.flatMap exprNames
  | .newGen _ => []
  | .load i _ => [i]
  | .store i _ e => i :: exprNames e
  | .draw i => [i]
  | .same i j => [i, j]

/-- The objects with which measurements of some simulations `S` draw random numbers. -/
def Components (w : SimWorld) (S : ℕ → Prop) (v : OVal) : Prop :=
  ∃ s o, S s ∧ w.sims[s]? = some o ∧ (v = o .sensor ∨ v = o .occD ∨ v = o .potD ∨ v = o .respD)

/-- All generators that can be reached from the values have different seeds (each generator may be shared). -/
def DistinctSeeds (h : OHeap) (vs : OVal → Prop) : Prop :=
  ∀ v v', vs v → vs v' → ∀ r r' s k k', LeadsTo h v r → LeadsTo h v' r' → h[r]? = some ⟨.generator, [.num s, k]⟩ →
    h[r']? = some ⟨.generator, [.num s, k']⟩ → r = r'

/-- No random number generator can be reached from the value. -/
def NoGenerator (h : OHeap) (v : OVal) : Prop := ∀ r o, LeadsTo h v r → h[r]? = some o → o.cls ≠ .generator

/-- Code that creates no random number generators. -/
def KeepsGenerators (code : Code) : Prop := ∀ seen seed, code seen ≠ some (.newGen seed)

/-- The random numbers used in the measurements of simulations: seed of the generator and position in its sequence. -/
noncomputable def numbersOf (S : ℕ → Prop) (log : List (Option ℕ × ℝ × ℝ)) : List (ℝ × ℝ) :=
  open Classical in log.filterMap fun d => if ∃ s, S s ∧ d.1 = some s then some d.2 else none

/-- The seeds of the generators that a program creates. -/
def seedsOf (p : List SStmt) : List ℝ :=
  p.filterMap fun c => match c with | .prim (.newGen seed) => some seed | _ => none

/-- Every generator of the program has its own seed. -/
def OwnSeeds (p : List SStmt) : Prop :=
  (seedsOf p).Nodup ∧ ∀ c ∈ p, ∀ s scan args code fuel ok, c = .measure s scan args code fuel ok → KeepsGenerators code

/-- Code that neither changes objects that exist nor draws random numbers. -/
def Pure (code : Code) : Prop := ∀ seen p, code seen = some p → (∀ i k e, p ≠ .store i k e) ∧ ∀ i, p ≠ .draw i

/-- Position of an attribute among the attributes in the metadata. -/
def pos : SimAttr → ℕ
  | .limG1 => 0
  | .limG2 => 1
  | .limSensorG1 => 2
  | .limSensorG2 => 3
  | .ideal => 4
  | .sensor => 5
  | .occD => 6
  | .potD => 7
  | .respD => 8

/-- Creates a simulation from the configuration in the metadata `m`, whose first `k` entries are arguments of the measurement. -/
def rebuild (m k : ℕ) : List SStmt :=
  [.prim (.load m k), .prim (.load m (k + 1)), .prim (.load m (k + 2)), .prim (.load m (k + 3)), .prim (.load m (k + 4)),
    .prim (.load m (k + 5)), .prim (.load m (k + 6)), .prim (.load m (k + 7)), .prim (.load m (k + 8)),
    .newSim fun a => some (.var (m + 1 + pos a))]

end SimCATS.Spec
