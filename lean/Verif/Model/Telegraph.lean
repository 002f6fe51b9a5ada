import Verif.Model.Simulation

/-!
Models of the random number generator interface, of the blockwise two-state noise that telegraph noise and dot jumps share,
and of simcats/distortions/_random_telegraph_noise.py and _white_noise.py.

Scales in pixels are `Option ℝ`: `none` stands for the infinite or undefined value that numpy computes when a range of
length 0 is used as divisor.
-/

namespace SimCATS

/-- The part of `np.random.Generator` that is used; `τ` contains the state of the generator.
Library object: the generator of simcats/distortions/_random_telegraph_noise.py:298-314,
simcats/distortions/_dot_jumps.py:590-607, 729-736 and simcats/distortions/_white_noise.py:105-107. -/
structure Rng (τ : Type) where
  binomial : ℝ → M τ Bool
  geometric : ℝ → ℕ → M τ (ℕ → ℕ)
  poisson : ℝ → M τ ℕ
  normal : ℝ → ℝ → M τ ℝ

/-- The documented behaviour of the generator that the theorems rely on: `geometric` accepts exactly `0 < p <= 1` and
returns values >= 1.
Library object: the generator of simcats/distortions/_random_telegraph_noise.py:298-314,
simcats/distortions/_dot_jumps.py:590-607, 729-736 and simcats/distortions/_white_noise.py:105-107. -/
structure Rng.Valid {τ : Type} (rng : Rng τ) : Prop where
  geometric_error : ∀ p n s, ¬ (0 < p ∧ p ≤ 1) → rng.geometric p n s = (.error .valueError, s)
  geometric_ok : ∀ p n s, 0 < p → p ≤ 1 → ∃ w s', rng.geometric p n s = (.ok w, s') ∧ ∀ i < n, 1 ≤ w i

/-- The loop that concatenates blocks: `todo` remaining iterations, loop index `i`, state `bi`, noise so far.
`np.array([bi] * int(width[i])) * amplitude` is a block of the constant `bi * amplitude`.
Models simcats/distortions/_random_telegraph_noise.py:304-311 and simcats/distortions/_dot_jumps.py:596-604, 729-736. -/
def burstLoop {τ α : Type} [Semiring α] (amp : M τ α) (size : ℕ) (width : ℕ → ℕ) : ℕ → ℕ → ℕ → List α → M τ (List α)
  | 0, _, _, noise => pure noise
  | todo + 1, i, bi, noise =>
    if 0 < width i then do
      let a ← amp
      let noise' := noise ++ List.replicate (width i) ((bi : α) * a)
      if size ≤ noise'.length then pure noise' else burstLoop amp size width todo (i + 1) (if bi = 0 then 1 else 0) noise'
    else
      if size ≤ noise.length then pure noise else burstLoop amp size width todo (i + 1) bi noise

/-- `np.prod(shape)` of an array of rank >= 1.
Library function, used in simcats/distortions/_random_telegraph_noise.py:300. -/
def Scan.size {α : Type} : Scan α → ℕ
  | .d0 _ => 1
  | .d1 n _ => n
  | .d2 r c _ => r * c

/-- `original + noise.reshape(original.shape)`; noise of another length raises `ValueError`.
Models simcats/distortions/_random_telegraph_noise.py:313-314. -/
def addNoise (x : Scan ℝ) (noise : List ℝ) : Py (Scan ℝ) :=
  if noise.length ≠ x.size then .error .valueError
  else match x with
    | .d0 v => .ok (.d0 (v + noise.getD 0 0))
    | .d1 n f => .ok (.d1 n fun i => f i + noise.getD i 0)
    | .d2 r c f => .ok (.d2 r c fun i j => f i j + noise.getD (i * c + j) 0)

/-- `random_telegraph_noise(original, scale, std, height, rng)`; for an infinite or undefined scale the generator is
called with `p = 0` or nan.
Models simcats/distortions/_random_telegraph_noise.py:298-314. -/
noncomputable def telegraphNoise {τ : Type} (rng : Rng τ) (x : Scan ℝ) (scale : Option ℝ) (std height : ℝ) : M τ (Scan ℝ) :=
  open Classical in
  match scale with
  | none => M.raise .valueError
  | some scale =>
    if scale = 0 then pure x
    else do
      let w ← rng.geometric (1 / scale) x.size
      let noise ← burstLoop (rng.normal height std) x.size w x.size 0 0 []
      ofPy (addNoise x (noise.take x.size))

/-- `n / (np.max(g) - np.min(g))`, `none` for a range of length 0.
Auxiliary definition, used for simcats/distortions/_random_telegraph_noise.py:138-153, simcats/distortions/_dot_jumps.py:185-194
and simcats/distortions/_transition_blurring.py:104-121. -/
noncomputable def pxPerVolt (n : ℕ) (g : ℝ × ℝ) : Option ℝ :=
  open Classical in
  if max g.1 g.2 - min g.1 g.2 = 0 then none else some (n / (max g.1 g.2 - min g.1 g.2))

/-- `np.maximum`; an infinite value dominates.
Library function, used in simcats/distortions/_random_telegraph_noise.py:138-153. -/
noncomputable def optMax (a b : Option ℝ) : Option ℝ := a.bind fun x => b.map fun y => max x y

/-- The factor from volts to pixels in `RandomTelegraphNoise.noise_function`.
Models simcats/distortions/_random_telegraph_noise.py:138-153. -/
noncomputable def rtnFactor (g1 g2 : ℝ × ℝ) : Scan ℝ → Option ℝ
  | .d0 _ => none
  | .d1 n _ =>
    open Classical in
    let m := max (max g1.1 g1.2 - min g1.1 g1.2) (max g2.1 g2.2 - min g2.1 g2.2)
    if m = 0 then none else some (n / m)
  | .d2 r c _ =>
    open Classical in
    if g1.1 = g1.2 then pxPerVolt c g2
    else if g2.1 = g2.2 then pxPerVolt r g1
    else optMax (pxPerVolt r g1) (pxPerVolt c g2)

/-- A `RandomTelegraphNoise` object; `scale`, `std`, `height` are a number or a call of a sampler.
Models simcats/distortions/_random_telegraph_noise.py:27-55. -/
structure Rtn (τ : Type) where
  scale : M τ ℝ
  std : M τ ℝ
  height : M τ ℝ
  ratio : ℝ
  rng : Rng τ

/-- A call on the rest of the state of a distortion with own state `D`.
Auxiliary definition, used for the attributes written by simcats/distortions/_random_telegraph_noise.py:109-165,
simcats/distortions/_white_noise.py:81-107, simcats/distortions/_pink_noise.py:93-128. -/
def onRest {D τ α : Type} (x : M τ α) : M (D × τ) α := fun s =>
  match x s.2 with
  | (r, t) => (r, (s.1, t))

/-- Assignment of the own state.
Auxiliary definition, used for the attributes written by simcats/distortions/_random_telegraph_noise.py:109-165,
simcats/distortions/_white_noise.py:81-107, simcats/distortions/_pink_noise.py:93-128. -/
def setOwn {D τ : Type} (d : D) : M (D × τ) Unit := fun s => (.ok (), (d, s.2))

/-- The own state.
Auxiliary definition, used for the attributes written by simcats/distortions/_random_telegraph_noise.py:109-165,
simcats/distortions/_white_noise.py:81-107, simcats/distortions/_pink_noise.py:93-128. -/
def getOwn {D τ : Type} : M (D × τ) D := fun s => (.ok s.1, s)

/-- `RandomTelegraphNoise.noise_function` (also that of `SensorPotentialRTN` and `SensorResponseRTN`); the own state is
`activated`.
Models simcats/distortions/_random_telegraph_noise.py:109-165.
Simplification: an array of rank 0 (never a potential or response of a scan) raises `ValueError` instead of `IndexError`. -/
noncomputable def Rtn.noiseFunction {τ : Type} (d : Rtn τ) : SigDist (Option Bool × τ) := fun x g1 g2 => do
  let b ← onRest (d.rng.binomial d.ratio)
  setOwn (some b)
  if b = false then pure x
  else do
    let scale ← onRest d.scale
    let std ← onRest d.std
    let height ← onRest d.height
    onRest (telegraphNoise d.rng x ((rtnFactor g1 g2 x).map fun k => scale * k) std height)

/-- A `SensorResponseWhiteNoise` object; `noise sigma size` is `rng.normal(0, sigma, size)` in row-major order.
Models simcats/distortions/_white_noise.py:19-33 and simcats/distortions/_pink_noise.py:20-40. -/
structure WhiteNoise (τ : Type) where
  sigma : M τ ℝ
  noise : ℝ → ℕ → M τ (List ℝ)

/-- `SensorResponseWhiteNoise.noise_function`; the own state is `latest_sigma`.  With
`noise = powerlaw_psd_gaussian(...) * sigma` this is also `SensorPotentialPinkNoise.noise_function`.
Models simcats/distortions/_white_noise.py:81-107 and simcats/distortions/_pink_noise.py:93-128. -/
def WhiteNoise.noiseFunction {τ : Type} (d : WhiteNoise τ) : SigDist (Option ℝ × τ) := fun x _ _ => do
  let s ← onRest d.sigma
  setOwn (some s)
  let n ← onRest (d.noise s x.size)
  ofPy (addNoise x n)

end SimCATS
