import Verif.Model.SampledSim

/-!
A simulation with any combination of the components of SimCATS: a geometric configuration or none, one of the two sensors, and lists of the
shipped distortions with any parameters, in any order.

Every distortion object has a number, which says where its state is kept; an object that occurs twice has the same number twice.
-/

namespace SimCATS

/-- The state of all distortion objects (`latest_sigma`, the state of dot jumps, `activated`) and of the random number generators and samplers.
Models the attributes simcats/distortions/_transition_blurring.py:30, 146, simcats/distortions/_dot_jumps.py:54, 314, 462,
simcats/distortions/_pink_noise.py:40, simcats/distortions/_random_telegraph_noise.py:55 and simcats/distortions/_white_noise.py:33. -/
structure ObjState (τ : Type) where
  sigma : ℕ → Option ℝ
  jumps : ℕ → DotState
  active : ℕ → Option Bool
  gens : τ

variable {τ : Type}

/-- The place of `latest_sigma` of the object `i`.
Models simcats/distortions/_transition_blurring.py:30, 146, simcats/distortions/_pink_noise.py:40 and simcats/distortions/_white_noise.py:33. -/
def sigmaSlot (τ : Type) (i : ℕ) : Slot (ObjState τ) (Option ℝ) :=
  ⟨fun s => s.sigma i, fun d s => { s with sigma := Function.update s.sigma i d }, fun _ _ => Function.update_self .., fun s => by
    simp only [Function.update_eq_self], fun _ _ _ => by simp only [Function.update_idem]⟩

/-- The place of the state of the dot jumps object `i`.
Models simcats/distortions/_dot_jumps.py:54, 314, 462. -/
def jumpsSlot (τ : Type) (i : ℕ) : Slot (ObjState τ) DotState :=
  ⟨fun s => s.jumps i, fun d s => { s with jumps := Function.update s.jumps i d }, fun _ _ => Function.update_self .., fun s => by
    simp only [Function.update_eq_self], fun _ _ _ => by simp only [Function.update_idem]⟩

/-- The place of `activated` of the telegraph noise object `i`.
Models simcats/distortions/_random_telegraph_noise.py:55. -/
def activeSlot (τ : Type) (i : ℕ) : Slot (ObjState τ) (Option Bool) :=
  ⟨fun s => s.active i, fun d s => { s with active := Function.update s.active i d }, fun _ _ => Function.update_self .., fun s => by
    simp only [Function.update_eq_self], fun _ _ _ => by simp only [Function.update_idem]⟩

/-- A draw as call on the whole state.
Auxiliary definition, used for the generators and samplers of the distortions, for instance simcats/distortions/_dot_jumps.py:51-53. -/
def drawing {α : Type} (x : M τ α) : M (ObjState τ) α := fun s =>
  match x s.gens with
  | (r, t) => (r, { s with gens := t })

/-- A generator that works on the whole state.
Auxiliary definition, used for the generators of the distortions, for instance simcats/distortions/_dot_jumps.py:51-53. -/
def Rng.drawing (rng : Rng τ) : Rng (ObjState τ) where
  binomial p := SimCATS.drawing (rng.binomial p)
  geometric p n := SimCATS.drawing (rng.geometric p n)
  poisson lam := SimCATS.drawing (rng.poisson lam)
  normal m s := SimCATS.drawing (rng.normal m s)

/-- An occupation distortion object: its number and its parameters (a parameter is a number or a call of a sampler).
Models the constructors simcats/distortions/_transition_blurring.py:20-30, 136-146 and simcats/distortions/_dot_jumps.py:26-54. -/
inductive OccObject (τ : Type)
  | fermi (i : ℕ) (sigma : M τ ℝ)
  | gauss (i : ℕ) (sigma : M τ ℝ)
  | jumps (i : ℕ) (scale lam : M τ ℝ) (axis : Axis) (ratio : ℝ) (rng : Rng τ) (np2 : Bool) (nan : ℝ)

/-- A distortion object for the sensor potential or response: pink and white noise (`additive`), telegraph noise (`rtn`).
Models the constructors simcats/distortions/_pink_noise.py:20-40, simcats/distortions/_white_noise.py:19-33 and
simcats/distortions/_random_telegraph_noise.py:28-55. -/
inductive SigObject (τ : Type)
  | additive (i : ℕ) (sigma : M τ ℝ) (noise : ℝ → ℕ → M τ (List ℝ))
  | rtn (i : ℕ) (scale std height : M τ ℝ) (ratio : ℝ) (rng : Rng τ)

/-- `noise_function` of the object.
Models simcats/distortions/_transition_blurring.py:49-124, 165-240 and simcats/distortions/_dot_jumps.py:113-257. -/
noncomputable def OccObject.dist : OccObject τ → OccDist (ObjState τ)
  | .fermi i sigma => OccDist.on (sigmaSlot τ i) (fermiBlur (drawing sigma)).noiseFunction
  | .gauss i sigma => OccDist.on (sigmaSlot τ i) (gaussBlur (drawing sigma)).noiseFunction
  | .jumps i scale lam axis ratio rng np2 nan =>
    OccDist.on (jumpsSlot τ i) (DotJumps.noiseFunction ⟨drawing scale, drawing lam, axis, ratio, rng.drawing, np2, nan⟩)

/-- `noise_function` of the object.
Models simcats/distortions/_pink_noise.py:93-128, simcats/distortions/_white_noise.py:81-107 and
simcats/distortions/_random_telegraph_noise.py:109-165. -/
noncomputable def SigObject.dist : SigObject τ → SigDist (ObjState τ)
  | .additive i sigma noise => SigDist.on (sigmaSlot τ i) (WhiteNoise.noiseFunction ⟨drawing sigma, fun v n => drawing (noise v n)⟩)
  | .rtn i scale std height ratio rng =>
    SigDist.on (activeSlot τ i) (Rtn.noiseFunction ⟨drawing scale, drawing std, drawing height, ratio, rng.drawing⟩)

/-- A simulation made of shipped components.
Models simcats/_simulation.py:33-104. -/
structure AnySim (τ : Type) where
  lim : Limits
  ideal : Option IdealCfg
  sensor : SensorObject
  occ : Option (List (OccObject τ))
  pot : Option (List (SigObject τ))
  resp : Option (List (SigObject τ))

/-- The state of a simulation: that of a sensor scan sensor (unused by a `SensorGeneric`) and that of the distortions.
Auxiliary definition, used for simcats/_simulation.py:33-104. -/
abbrev SimState (τ : Type) := Option ScanState × ObjState τ

/-- The simulation with a `SensorGeneric` as used by `measure`.
Models simcats/_simulation.py:33-104. -/
noncomputable def AnySim.generic (sim : AnySim τ) (lab : Labelling) (d : SensorGeneric) : Simulation (ObjState τ) where
  lim := sim.lim
  gen := sim.ideal.map fun cfg => idealGen cfg lab
  sensor := genericSensor d
  occD := sim.occ.map fun ds => ds.map OccObject.dist
  potD := sim.pot.map fun ds => ds.map SigObject.dist
  respD := sim.resp.map fun ds => ds.map SigObject.dist

/-- The simulation with a `SensorScanSensorGeneric`.
Models simcats/_simulation.py:33-104. -/
noncomputable def AnySim.scan (sim : AnySim τ) (lab : Labelling) (d : ScanSensor) : ScanSim (ObjState τ) where
  lim := sim.lim
  gen := sim.ideal.map fun cfg => idealGen cfg lab
  sensor := d
  occD := sim.occ.map fun ds => (ds.map OccObject.dist).map OccDist.beside
  potD := sim.pot.map fun ds => (ds.map SigObject.dist).map SigDist.beside
  respD := sim.resp.map fun ds => (ds.map SigObject.dist).map SigDist.beside

/-- `measure(...)`.
Models simcats/_simulation.py:106-321. -/
noncomputable def AnySim.measure (sim : AnySim τ) (lab : Labelling) (rq : Request) : M (SimState τ) (Scan ℝ × Scan (ℝ × ℝ) × Scan ℕ) :=
  match sim.sensor with
  | .generic d => onRest (SimCATS.measure (sim.generic lab d) rq)
  | .scan d => SimCATS.measure (sim.scan lab d).csd rq

/-- `measure_sensor_scan(...)`; a `SensorGeneric` does not support sensor scans.
Models simcats/_simulation.py:323-564 (the sensor is checked in lines 361-366). -/
noncomputable def AnySim.measureScan (sim : AnySim τ) (lab : Labelling) (rq : ScanRequest) : M (SimState τ) (Scan ℝ × Scan ℕ × Scan ℕ) :=
  match sim.sensor with
  | .generic _ => M.raise .valueError
  | .scan d => measureSensorScan (sim.scan lab d) rq

/-- A call of one of the two measuring methods.
Models simcats/_simulation.py:106-113 and 323-331. -/
inductive MeasureCall
  | csd (rq : Request)
  | scan (rq : ScanRequest)

/-- What such a call returns: (csd, occupations, lead transitions) or (scan, conductive mask, peak mask).
Models simcats/_simulation.py:321 and 564. -/
inductive MeasureResult
  | csd (out : Scan ℝ × Scan (ℝ × ℝ) × Scan ℕ)
  | scan (out : Scan ℝ × Scan ℕ × Scan ℕ)

/-- The call as a step of a program.
Models simcats/_simulation.py:106-321 and 323-564. -/
noncomputable def AnySim.call (sim : AnySim τ) (lab : Labelling) : MeasureCall → M (SimState τ) MeasureResult
  | .csd rq => do
    let out ← sim.measure lab rq
    pure (.csd out)
  | .scan rq => do
    let out ← sim.measureScan lab rq
    pure (.scan out)

/-- A program that makes one call after the other, catches every exception and may change the configuration in between (every call comes with the
configuration at that time): the list of all outcomes.
Part of the programs that use the API of simcats/_simulation.py:106-564 and 566-836. -/
noncomputable def callAll (lab : Labelling) : List (AnySim τ × MeasureCall) → SimState τ → List (Py MeasureResult) × SimState τ
  | [], s => ([], s)
  | (sim, c) :: cs, s =>
    match sim.call lab c s with
    | (r, s') =>
      match callAll lab cs s' with
      | (rs, s'') => (r :: rs, s'')

/-- New objects: no measurement has been made; the generators are in the given state.
Models simcats/distortions/_transition_blurring.py:30, 146, simcats/distortions/_dot_jumps.py:54, simcats/distortions/_pink_noise.py:40,
simcats/distortions/_random_telegraph_noise.py:55, simcats/distortions/_white_noise.py:33 and
simcats/sensor/_sensor_scan_sensor_generic.py:39-101. -/
def newState (g : τ) : SimState τ := (none, ⟨fun _ => none, fun _ => ⟨none, none⟩, fun _ => none, g⟩)

end SimCATS
