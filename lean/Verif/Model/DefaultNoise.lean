import Verif.Model.DefaultConfigs
import Verif.Model.Blur
import Verif.Model.DotJumps

/-!
The default configuration "GaAs_v1" with its distortions (simcats/_default_configs.py:24-88).

Every distortion is an object with a state of its own.  `Slot` says where the state of one object is kept in the state of the
whole simulation; `OccDist.on` and `SigDist.on` let an object work on its own slot.  The CSD generator that is handed to an
occupation distortion works on the state of the whole simulation, because it calls the distortions before it.
-/

namespace SimCATS

/-- A component `D` of the state `σ`.
Auxiliary definition, used for the state of the distortions listed in simcats/_default_configs.py:69-87. -/
structure Slot (σ D : Type) where
  get : σ → D
  put : D → σ → σ
  get_put : ∀ d s, get (put d s) = d
  put_get : ∀ s, put (get s) s = s
  put_put : ∀ d d' s, put d (put d' s) = put d s

/-- A call of an object with own state `D` as call on the whole state.
Auxiliary definition, used for the state of the distortions listed in simcats/_default_configs.py:69-87. -/
def Slot.run {σ D α : Type} (L : Slot σ D) (x : M (D × σ) α) : M σ α := fun s =>
  match x (L.get s, s) with
  | (r, p) => (r, L.put p.1 p.2)

/-- A call on the whole state made by an object with own state `D`.
Auxiliary definition, used for the state of the distortions listed in simcats/_default_configs.py:69-87. -/
def Slot.inner {σ D α : Type} (L : Slot σ D) (x : M σ α) : M (D × σ) α := fun p =>
  match x (L.put p.1 p.2) with
  | (r, s) => (r, (L.get s, s))

/-- An occupation distortion with own state in a slot.
Auxiliary definition, used for the state of the distortions listed in simcats/_default_configs.py:69-87. -/
def OccDist.on {σ D : Type} (L : Slot σ D) (d : OccDist (D × σ)) : OccDist σ := fun data g1 g2 gen freeze =>
  L.run (d data g1 g2 (fun v1 v2 res => L.inner (gen v1 v2 res)) freeze)

/-- A potential or response distortion with own state in a slot.
Auxiliary definition, used for the state of the distortions listed in simcats/_default_configs.py:69-87. -/
def SigDist.on {σ D : Type} (L : Slot σ D) (d : SigDist (D × σ)) : SigDist σ := fun x g1 g2 => L.run (d x g1 g2)

/-- The state of the seven distortions and of the random number generators.
Models the attributes simcats/distortions/_transition_blurring.py:146, _dot_jumps.py:54, 462, _pink_noise.py:40,
_random_telegraph_noise.py:55 and _white_noise.py:33 of the objects in simcats/_default_configs.py:69-87. -/
structure NoiseState (τ : Type) where
  blur : Option ℝ
  jumps0 : DotState
  jumps1 : DotState
  pink : Option ℝ
  potRtn : Option Bool
  respRtn : Option Bool
  white : Option ℝ
  gens : τ

/-- The place of the state of this distortion.
Models simcats/_default_configs.py:69. -/
def blurSlot (τ : Type) : Slot (NoiseState τ) (Option ℝ) :=
  ⟨(·.blur), fun d s => { s with blur := d }, fun _ _ => rfl, fun _ => rfl, fun _ _ _ => rfl⟩

/-- The place of the state of this distortion.
Models simcats/_default_configs.py:70-72. -/
def jumps0Slot (τ : Type) : Slot (NoiseState τ) DotState :=
  ⟨(·.jumps0), fun d s => { s with jumps0 := d }, fun _ _ => rfl, fun _ => rfl, fun _ _ _ => rfl⟩

/-- The place of the state of this distortion.
Models simcats/_default_configs.py:73-75. -/
def jumps1Slot (τ : Type) : Slot (NoiseState τ) DotState :=
  ⟨(·.jumps1), fun d s => { s with jumps1 := d }, fun _ _ => rfl, fun _ => rfl, fun _ _ _ => rfl⟩

/-- The place of the state of this distortion.
Models simcats/_default_configs.py:77-79. -/
def pinkSlot (τ : Type) : Slot (NoiseState τ) (Option ℝ) :=
  ⟨(·.pink), fun d s => { s with pink := d }, fun _ _ => rfl, fun _ => rfl, fun _ _ _ => rfl⟩

/-- The place of the state of this distortion.
Models simcats/_default_configs.py:80-81. -/
def potRtnSlot (τ : Type) : Slot (NoiseState τ) (Option Bool) :=
  ⟨(·.potRtn), fun d s => { s with potRtn := d }, fun _ _ => rfl, fun _ => rfl, fun _ _ _ => rfl⟩

/-- The place of the state of this distortion.
Models simcats/_default_configs.py:83-84. -/
def respRtnSlot (τ : Type) : Slot (NoiseState τ) (Option Bool) :=
  ⟨(·.respRtn), fun d s => { s with respRtn := d }, fun _ _ => rfl, fun _ => rfl, fun _ _ _ => rfl⟩

/-- The place of the state of this distortion.
Models simcats/_default_configs.py:85-87. -/
def whiteSlot (τ : Type) : Slot (NoiseState τ) (Option ℝ) :=
  ⟨(·.white), fun d s => { s with white := d }, fun _ _ => rfl, fun _ => rfl, fun _ _ _ => rfl⟩

/-- A draw as call on the whole state.
Library objects: the generators of the distortions in simcats/_default_configs.py:69-87. -/
def onGens {τ α : Type} (x : M τ α) : M (NoiseState τ) α := fun s =>
  match x s.gens with
  | (r, t) => (r, { s with gens := t })

/-- A generator that works on the whole state.
Library objects: the generators of the distortions in simcats/_default_configs.py:69-87. -/
def Rng.onGens {τ : Type} (rng : Rng τ) : Rng (NoiseState τ) where
  binomial p := SimCATS.onGens (rng.binomial p)
  geometric p n := SimCATS.onGens (rng.geometric p n)
  poisson lam := SimCATS.onGens (rng.poisson lam)
  normal m s := SimCATS.onGens (rng.normal m s)

/-- The random numbers of the objects: generators of the dot jumps and of the telegraph noise, calls of the samplers of the
pink and white noise, and their noise; `np2` and `nan` as for `DotJumps`.
Library objects: the generators of the distortions in simcats/_default_configs.py:69-87. -/
structure NoiseEnv (τ : Type) where
  jumps0 : Rng τ
  jumps1 : Rng τ
  pot : Rng τ
  resp : Rng τ
  pinkSigma : M τ ℝ
  whiteSigma : M τ ℝ
  pinkNoise : ℝ → ℕ → M τ (List ℝ)
  whiteNoise : ℝ → ℕ → M τ (List ℝ)
  np2 : Bool
  nan : ℝ

variable {τ : Type}

/-- `OccupationTransitionBlurringGaussian(0.75 * 0.03 / 100)`.
Models simcats/_default_configs.py:69. -/
noncomputable def defaultBlur : OccDist (NoiseState τ) := OccDist.on (blurSlot τ) (gaussBlur (pure (0.75 * 0.03 / 100))).noiseFunction

/-- `OccupationDotJumps(ratio=0.01, scale=100 * 0.03 / 100, lam=6 * 0.03 / 100, axis=0)`.
Models simcats/_default_configs.py:70-72. -/
noncomputable def defaultJumps0 (env : NoiseEnv τ) : DotJumps (NoiseState τ) :=
  ⟨pure (100 * 0.03 / 100), pure (6 * 0.03 / 100), .g2, 0.01, env.jumps0.onGens, env.np2, env.nan⟩

/-- `OccupationDotJumps(ratio=0.01 / 6, scale=100 * 0.03 / 100, lam=6 * 0.03 / 100, axis=1)`.
Models simcats/_default_configs.py:73-75. -/
noncomputable def defaultJumps1 (env : NoiseEnv τ) : DotJumps (NoiseState τ) :=
  ⟨pure (100 * 0.03 / 100), pure (6 * 0.03 / 100), .g1, 0.01 / 6, env.jumps1.onGens, env.np2, env.nan⟩

/-- `SensorPotentialPinkNoise(sigma=UniformSamplingRange(...), fmin=0)`.
Models simcats/_default_configs.py:77-79. -/
noncomputable def defaultPink (env : NoiseEnv τ) : WhiteNoise (NoiseState τ) :=
  ⟨onGens env.pinkSigma, fun s n => onGens (env.pinkNoise s n)⟩

/-- `SensorPotentialRTN(scale=74.56704 * 0.03 / 100, std=3.491734e-05, height=2.53855325e-05, ratio=1 / 6)`.
Models simcats/_default_configs.py:80-81. -/
noncomputable def defaultPotRtn (env : NoiseEnv τ) : Rtn (NoiseState τ) :=
  ⟨pure (74.56704 * 0.03 / 100), pure 3.491734e-05, pure 2.53855325e-05, 1 / 6, env.pot.onGens⟩

/-- `SensorResponseRTN(scale=10000 * 0.03 / 100, std=0.047453767599999995, height=0.0152373696, ratio=0.03)`.
Models simcats/_default_configs.py:83-84. -/
noncomputable def defaultRespRtn (env : NoiseEnv τ) : Rtn (NoiseState τ) :=
  ⟨pure (10000 * 0.03 / 100), pure 0.047453767599999995, pure 0.0152373696, 0.03, env.resp.onGens⟩

/-- `SensorResponseWhiteNoise(sigma=NormalSamplingRange(...))`.
Models simcats/_default_configs.py:85-87. -/
noncomputable def defaultWhite (env : NoiseEnv τ) : WhiteNoise (NoiseState τ) :=
  ⟨onGens env.whiteSigma, fun s n => onGens (env.whiteNoise s n)⟩

/-- A simulation with the default configuration "GaAs_v1" and its distortions.
Models simcats/_default_configs.py:24-88 passed to the constructor, simcats/_simulation.py:95-104. -/
noncomputable def noisySim (env : NoiseEnv τ) (lab : Labelling) : Simulation (NoiseState τ) where
  lim := ⟨some (-0.2, -0.087), some (-0.2, -0.047), none, none⟩
  gen := some (idealGen defaultIdeal lab)
  sensor := genericSensor defaultSensor
  occD := some [defaultBlur, OccDist.on (jumps0Slot τ) (defaultJumps0 env).noiseFunction,
    OccDist.on (jumps1Slot τ) (defaultJumps1 env).noiseFunction]
  potD := some [SigDist.on (pinkSlot τ) (defaultPink env).noiseFunction, SigDist.on (potRtnSlot τ) (defaultPotRtn env).noiseFunction]
  respD := some [SigDist.on (respRtnSlot τ) (defaultRespRtn env).noiseFunction,
    SigDist.on (whiteSlot τ) (defaultWhite env).noiseFunction]

end SimCATS
