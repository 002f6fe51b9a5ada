import Verif.Model.Sensor

/-!
Model of simcats/_simulation.py: validation of requests, `Simulation.measure` and the property setters.

The components of a simulation (ideal CSD, sensor, distortions) are stateful objects.  Their common state (parameters
frozen by a distortion, random generator, state stored by a sensor) is the type `σ`.
-/

namespace SimCATS

/-- A Python call that reads and writes the state `σ`; the state reached is kept also if an exception is raised.
Auxiliary definition, used for the methods with side effects, simcats/_simulation.py:241-302. -/
def M (σ α : Type) := σ → Py α × σ

/-- `return a`.
Auxiliary definition, used for the methods with side effects, simcats/_simulation.py:241-302. -/
def M.ret {σ α : Type} (a : α) : M σ α := fun s => (.ok a, s)

/-- `raise e`.
Auxiliary definition, used for the methods with side effects, simcats/_simulation.py:241-302. -/
def M.raise {σ α : Type} (e : PyErr) : M σ α := fun s => (.error e, s)

/-- Sequential composition; an exception skips the rest.
Auxiliary definition, used for the methods with side effects, simcats/_simulation.py:241-302. -/
def M.andThen {σ α β : Type} (x : M σ α) (f : α → M σ β) : M σ β := fun s =>
  match x s with
  | (.ok a, s') => f a s'
  | (.error e, s') => (.error e, s')

/-- Auxiliary definition, used for the methods with side effects, simcats/_simulation.py:241-302. -/
instance {σ : Type} : Monad (M σ) where
  pure := M.ret
  bind := M.andThen

/-- A computation without effect that may raise.
Auxiliary definition, used for the methods with side effects, simcats/_simulation.py:241-302. -/
def ofPy {σ α : Type} (x : Py α) : M σ α := fun s => (x, s)

/-- The four optional voltage limits of a simulation.
Models simcats/_simulation.py:95-98. -/
structure Limits where
  g1 : Option (ℝ × ℝ)
  g2 : Option (ℝ × ℝ)
  s1 : Option (ℝ × ℝ)
  s2 : Option (ℝ × ℝ)

/-- The arguments of `measure`.
Models simcats/_simulation.py:106-113. -/
structure Request where
  g1 : List ℝ
  g2 : List ℝ
  s1 : Option ℝ
  s2 : Option ℝ
  res : Resolution

/-- `limit is not None and (np.min(v) < limit[0] or np.min(v) > limit[1] or np.max(v) < limit[0] or
np.max(v) > limit[1])` for a range of two entries.
Models simcats/_simulation.py:161-167, 169-175, 377-383, 385-391. -/
noncomputable def rangeOutside (lim : Option (ℝ × ℝ)) (g : ℝ × ℝ) : Bool :=
  match lim with
  | none => false
  | some l => open Classical in
    decide (min g.1 g.2 < l.1 ∨ min g.1 g.2 > l.2 ∨ max g.1 g.2 < l.1 ∨ max g.1 g.2 > l.2)

/-- `limit is not None and (v < limit[0] or v > limit[1])` where comparing `None` raises `TypeError`.
Models simcats/_simulation.py:186-190, 192-196. -/
noncomputable def valueOutside (lim : Option (ℝ × ℝ)) (v : Option ℝ) : Py Bool :=
  match lim, v with
  | none, _ => .ok false
  | some _, none => .error .typeError
  | some l, some x => .ok (open Classical in decide (x < l.1 ∨ x > l.2))

/-- The check of the sensor voltages (`or` is short-circuit).
Models simcats/_simulation.py:185-198. -/
noncomputable def sensorOutside (lim : Limits) (s1 s2 : Option ℝ) : Py Bool :=
  match valueOutside lim.s1 s1 with
  | .error e => .error e
  | .ok true => .ok true
  | .ok false => valueOutside lim.s2 s2

/-- The checks of the resolution in the order of `measure`.
Models simcats/_simulation.py:214-239. -/
noncomputable def resCheck (g1 g2 : ℝ × ℝ) : Resolution → Py Unit
  | .int _ => .ok ()
  | .arr ns =>
    if ns.length > 2 then .error .valueError
    else if ns.length = 2 ∧ (g1.1 = g1.2 ∨ g2.1 = g2.2) then .error .valueError
    else match ns with
      | [a, b] => if a ≤ 1 ∨ b ≤ 1 then .error .valueError else .ok ()
      | _ => .ok ()

/-- All checks of `measure` in the order of the code; an accepted request yields the two sweep ranges as pairs.
Models simcats/_simulation.py:148-239. -/
noncomputable def measureCheck (lim : Limits) (hasCfg : Bool) (rq : Request) : Py ((ℝ × ℝ) × (ℝ × ℝ)) :=
  if hasCfg = false then .error .valueError
  else match rq.g1, rq.g2 with
    | [a1, b1], [a2, b2] =>
      if rangeOutside lim.g1 (a1, b1) = true ∨ rangeOutside lim.g2 (a2, b2) = true then .error .valueError
      else match sensorOutside lim rq.s1 rq.s2 with
        | .error e => .error e
        | .ok true => .error .valueError
        | .ok false =>
          if rq.s1.isNone ≠ rq.s2.isNone then .error .valueError
          else match resCheck (a1, b1) (a2, b2) rq.res with
            | .error e => .error e
            | .ok () => .ok ((a1, b1), (a2, b2))
    | _, _ => .error .valueError

/-- `get_csd_data(volt_limits_g1, volt_limits_g2, resolution)`.
Models simcats/_simulation.py:242. -/
abbrev Gen (σ : Type) := ℝ × ℝ → ℝ × ℝ → Resolution → M σ CsdData

/-- `noise_function(occupations, lead_transitions, volt_limits_g1, volt_limits_g2, generate_csd, freeze)` of an
occupation distortion.  Python distortions work in place; the result here is the content of the two arrays after the
call.
Models simcats/distortions/_distortion_interfaces.py:43-83. -/
abbrev OccDist (σ : Type) := CsdData → ℝ × ℝ → ℝ × ℝ → Gen σ → Bool → M σ CsdData

/-- `noise_function(values, volt_limits_g1, volt_limits_g2)` of a sensor potential or response distortion.
Models simcats/distortions/_distortion_interfaces.py:90-134. -/
abbrev SigDist (σ : Type) := Scan ℝ → ℝ × ℝ → ℝ × ℝ → M σ (Scan ℝ)

/-- The array returned by `sensor_potential`: one potential or (sensor scan sensors) several of them.
Auxiliary definition, used for simcats/_simulation.py:280-292. -/
inductive Pot
  | single (p : Scan ℝ)
  | multi (ps : List (Scan ℝ))

/-- A sensor.  `scan` tells if it implements `SensorScanSensorInterface`; only then the sensor voltages are passed.
Models simcats/sensor/_sensor_interface.py:86-152. -/
structure SensorI (σ : Type) where
  scan : Bool
  potential : Scan (ℝ × ℝ) → ℝ × ℝ → ℝ × ℝ → Option (Option ℝ × Option ℝ) → M σ Pot
  response : Pot → M σ (Scan ℝ)

/-- A simulation.
Models simcats/_simulation.py:95-104. -/
structure Simulation (σ : Type) where
  lim : Limits
  gen : Option (Gen σ)
  sensor : SensorI σ
  occD : Option (List (OccDist σ))
  potD : Option (List (SigDist σ))
  respD : Option (List (SigDist σ))

/-- `generate_csd_with_noise` with its arguments bound by `partial`.
Models simcats/_simulation.py:254-265. -/
def withNoise {σ : Type} (gen : Gen σ) (d : OccDist σ) : Gen σ := fun v1 v2 res => do
  let data ← gen v1 v2 res
  d data v1 v2 gen true

/-- The loop over the occupation distortions: the data and the generator after the loop.
Models simcats/_simulation.py:251-265. -/
def applyOcc {σ : Type} (g1 g2 : ℝ × ℝ) : List (OccDist σ) → Gen σ → CsdData → M σ (CsdData × Gen σ)
  | [], gen, data => pure (data, gen)
  | d :: ds, gen, data => do
    let data' ← d data g1 g2 gen false
    applyOcc g1 g2 ds (withNoise gen d) data'

/-- The rank check of the potential: arrays of the same rank as the scan are distorted.
Models simcats/_simulation.py:281. -/
def sameRank {α β : Type} (a : Scan α) (b : Scan β) : Bool := a.shape.length == b.shape.length

/-- `for i in distortions: x = i.noise_function(x, g1, g2)`.
Models simcats/_simulation.py:282-285 and 299-302. -/
def applySig {σ : Type} (g1 g2 : ℝ × ℝ) : List (SigDist σ) → Scan ℝ → M σ (Scan ℝ)
  | [], x => pure x
  | d :: ds, x => do
    let y ← d x g1 g2
    applySig g1 g2 ds y

/-- One distortion applied to every row of the potential array.
Models simcats/_simulation.py:289-292. -/
def distortRows {σ : Type} (g1 g2 : ℝ × ℝ) (d : SigDist σ) : List (Scan ℝ) → M σ (List (Scan ℝ))
  | [] => pure []
  | p :: ps => do
    let q ← d p g1 g2
    let qs ← distortRows g1 g2 d ps
    pure (q :: qs)

/-- The loop over the distortions for several potentials.
Models simcats/_simulation.py:288-292. -/
def applyRows {σ : Type} (g1 g2 : ℝ × ℝ) : List (SigDist σ) → List (Scan ℝ) → M σ (List (Scan ℝ))
  | [], ps => pure ps
  | d :: ds, ps => do
    let qs ← distortRows g1 g2 d ps
    applyRows g1 g2 ds qs

/-- Sensor potential distortions; potentials with a rank that does not fit to the scan are left alone.
Models simcats/_simulation.py:280-292 and 519-534. -/
def distortPotential {σ : Type} (g1 g2 : ℝ × ℝ) (occ : Scan (ℝ × ℝ)) (ds : Option (List (SigDist σ))) (pot : Pot) :
    M σ Pot :=
  match ds with
  | none => pure pot
  | some ds =>
    match pot with
    | .single p =>
      if sameRank occ p then do
        let q ← applySig g1 g2 ds p
        pure (.single q)
      else pure pot
    | .multi ps =>
      if ps.all (fun p => sameRank occ p) then do
        let qs ← applyRows g1 g2 ds ps
        pure (.multi qs)
      else pure pot

/-- Sensor response distortions.
Models simcats/_simulation.py:298-302. -/
def distortResponse {σ : Type} (g1 g2 : ℝ × ℝ) (ds : Option (List (SigDist σ))) (x : Scan ℝ) : M σ (Scan ℝ) :=
  match ds with
  | none => pure x
  | some ds => applySig g1 g2 ds x

/-- The part of `measure` after validation: (csd, occupations, lead transitions).
Models simcats/_simulation.py:241-302 (the metadata dictionary, 304-321, is not modelled). -/
def measureRun {σ : Type} (sim : Simulation σ) (gen : Gen σ) (rq : Request) (g1 g2 : ℝ × ℝ) :
    M σ (Scan ℝ × Scan (ℝ × ℝ) × Scan ℕ) := do
  let data ← gen g1 g2 rq.res
  let out ← applyOcc g1 g2 (sim.occD.getD []) gen data
  let pot ← sim.sensor.potential out.1.1 g1 g2 (if sim.sensor.scan then some (rq.s1, rq.s2) else none)
  let pot' ← distortPotential g1 g2 out.1.1 sim.potD pot
  let csd ← sim.sensor.response pot'
  let csd' ← distortResponse g1 g2 sim.respD csd
  pure (csd', out.1.1, out.1.2)

/-- `Simulation.measure`.
Models simcats/_simulation.py:106-321. -/
noncomputable def measure {σ : Type} (sim : Simulation σ) (rq : Request) : M σ (Scan ℝ × Scan (ℝ × ℝ) × Scan ℕ) :=
  match measureCheck sim.lim sim.gen.isSome rq, sim.gen with
  | .ok (g1, g2), some gen => measureRun sim gen rq g1 g2
  | .ok _, none => M.raise .valueError
  | .error e, _ => M.raise e

/-- The geometric ideal CSD as CSD generator of a simulation (it has no state of its own).
Models simcats/_simulation.py:242-248. -/
noncomputable def idealGen {σ : Type} (cfg : IdealCfg) (lab : Labelling) : Gen σ := fun g1 g2 res =>
  match idealCsd cfg lab [g1.1, g1.2] [g2.1, g2.2] res with
  | .ok out => pure out.data
  | .error e => M.raise e

/-- `SensorGeneric` as sensor of a simulation (it is not changed by a measurement).
Models simcats/sensor/_sensor_generic.py as an implementation of simcats/sensor/_sensor_interface.py:86-152. -/
noncomputable def genericSensor {σ : Type} (s : SensorGeneric) : SensorI σ where
  scan := false
  potential := fun occ g1 g2 _ =>
    match s.potential occ g1 g2 with
    | .ok p => pure (.single p)
    | .error e => M.raise e
  response := fun pot =>
    match pot with
    | .single p => pure (s.response p)
    -- not reachable: this sensor has a single potential
    | .multi _ => M.raise .valueError

/-! ### Setters -/

/-- A Python value offered as voltage limits: `None`, an `ndarray` or a `list` (flattened entries), anything else.
Models simcats/_simulation.py:585-592 (the types of the argument). -/
inductive LimVal
  | none
  | ndarray (xs : List ℝ)
  | list (xs : List ℝ)
  | other

/-- The voltage limit setters: a `list` has no attribute `size`.
Models simcats/_simulation.py:585-593, 614-622, 643-652, 673-682. -/
def setLimits : LimVal → Py (Option (List ℝ))
  | .none => .ok Option.none
  | .ndarray xs => if xs.length = 2 then .ok (some xs) else .error .valueError
  | .list _ => .error .attributeError
  | .other => .error .valueError

/-- The setters of the distortion lists: `isOk` is the `isinstance` check of one element.
Models simcats/_simulation.py:765-774, 796-805, 827-836. -/
def setDistortions {α : Type} (isOk : α → Bool) : Option (List α) → Py (Option (List α))
  | none => .ok none
  | some xs => if xs.all isOk then .ok (some xs) else .error .valueError

end SimCATS
