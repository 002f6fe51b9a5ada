import Verif.Model.Telegraph

/-!
Model of simcats/distortions/_dot_jumps.py.

Images are functions of two natural indices with values in `Option α`; `none` is NaN.  Only the entries inside the stated
shape are meaningful.
-/

namespace SimCATS

/-- The axis of the jumps: `g1` is `axis=1`, `g2` is `axis=0`.
Models simcats/distortions/_dot_jumps.py:185-194 and 466-482 (the parameter `axis`). -/
inductive Axis
  | g1
  | g2
  deriving DecidableEq

/-- `generate_dot_jumps_blockwise` for an axis of length `size`; `astype("uint8")` reduces modulo 256.
Models simcats/distortions/_dot_jumps.py:590-607. -/
noncomputable def generateJumps {τ : Type} (rng : Rng τ) (size : ℕ) (scale lam : ℝ) : M τ (List ℕ) :=
  open Classical in
  if scale = 0 then pure (List.replicate size 0)
  else do
    let w ← rng.geometric (1 / scale) size
    let noise ← burstLoop (rng.poisson lam) size w size 0 0 []
    pure ((noise.take size).map (· % 256))

/-- The innermost loop over `k`: writes entry `j + k` and stops at the end of the lane.
Models simcats/distortions/_dot_jumps.py:658-665 (the same code in 672-679). -/
def jumpInner {α : Type} (n : ℕ) (orig : ℕ → Option α) (nj j : ℕ) : ℕ → ℕ → (ℕ → Option α) → ℕ → Option α
  | 0, _, shifted => shifted
  | todo + 1, k, shifted =>
    if n ≤ j + k then shifted
    else
      let src := (max 0 ((j : ℤ) - nj + k)).toNat
      jumpInner n orig nj j todo (k + 1)
        (Function.update shifted (j + k) (if orig src = none then orig (j + k) else orig src))

/-- The loop over `j` in one row (or column) of length `n`; the assignment to the loop variable has no effect.
Models simcats/distortions/_dot_jumps.py:655-666 (the same code in 669-680). -/
def jumpLane {α : Type} (n : ℕ) (orig : ℕ → Option α) (noise : ℕ → ℕ) : ℕ → ℕ → (ℕ → Option α) → ℕ → Option α
  | 0, _, shifted => shifted
  | todo + 1, j, shifted =>
    jumpLane n orig noise todo (j + 1) (jumpInner n orig (noise j) j (noise j + 1) 0 shifted)

/-- `dot_jumps_blockwise(original, scale, lam, noise, axis)` with given noise; `empty` is the uninitialised array.
`scale` is `None` if the distortion is frozen.  A lane longer than the noise raises `IndexError`.
Models simcats/distortions/_dot_jumps.py:645-684.
Simplification: `noise` has a signed integer type, as in all calls in the class. -/
noncomputable def dotJumpsBlockwise {α : Type} (axis : Axis) (rows cols : ℕ) (scale : Option ℝ) (orig : ℕ → ℕ → Option α)
    (noise : List ℕ) (empty : ℕ → ℕ → Option α) : Py (ℕ → ℕ → Option α) :=
  open Classical in
  if scale = some 0 then .ok orig
  else match axis with
    | .g1 =>
      if 0 < rows ∧ noise.length < cols then .error .indexError
      else .ok fun i => jumpLane cols (orig i) (fun j => noise.getD j 0) cols 0 (empty i)
    | .g2 =>
      if 0 < cols ∧ noise.length < rows then .error .indexError
      else .ok fun j i => jumpLane rows (fun j => orig j i) (fun j => noise.getD j 0) rows 0 (fun j => empty j i) j

/-- `dot_jumps_pixelwise(original, scale, lam, noise)` with given noise of the shape of the image (no NaN).
Models simcats/distortions/_dot_jumps.py:742-754. -/
def dotJumpsPixelwise {α : Type} (cols : ℕ) (orig : ℕ → ℕ → Option α) (noise : ℕ → ℕ → ℕ) (empty : ℕ → ℕ → Option α) :
    ℕ → ℕ → Option α :=
  fun i => jumpLane cols (orig i) (noise i) cols 0 (empty i)

/-- The own state of `OccupationDotJumps`: `activated` and the previous noise.
Models simcats/distortions/_dot_jumps.py:54, 314 and 462. -/
structure DotState where
  activated : Option Bool
  prev : Option (List ℕ)

/-- An `OccupationDotJumps` object.  `scale` and `lam` are a number or a call of a sampler; `np2` tells if numpy >= 2 is
used (a Python int combined with a `uint8` stays `uint8`); `nan` stands for NaN in a result.
Models simcats/distortions/_dot_jumps.py:23-54. -/
structure DotJumps (τ : Type) where
  scale : M τ ℝ
  lam : M τ ℝ
  axis : Axis
  ratio : ℝ
  rng : Rng τ
  np2 : Bool
  nan : ℝ

/-- An array of a scan as image.
Library function, used in simcats/distortions/_dot_jumps.py:331-363, 479-497. -/
def toImg {α : Type} {r c : ℕ} (f : Fin r → Fin c → α) : ℕ → ℕ → Option α :=
  fun i j => if h : i < r ∧ j < c then some (f ⟨i, h.1⟩ ⟨j, h.2⟩) else none

/-- `np.max(noise)`, `ValueError` for an empty array.
Library function, used in simcats/distortions/_dot_jumps.py:315 and 463. -/
def maxJump : List ℕ → Py ℕ
  | [] => .error .valueError
  | x :: xs => .ok (xs.foldl max x)

/-- Step of the border data along one axis with `n` pixels.
Models simcats/distortions/_dot_jumps.py:320, 346, 468, 484. -/
noncomputable def borderStep (g : ℝ × ℝ) (n : ℕ) : ℝ := (g.2 - g.1) / n

/-- `np.reshape(data, (r, c))` of an array that was generated with this number of entries; other shapes raise
`ValueError`.
Simplification: shapes other than `(r, c)`, `(r,)` for `c = 1` and `(c,)` for `r = 1` are all rejected.
Library function, used in simcats/distortions/_dot_jumps.py:477-478 and 493-494. -/
def reshape2 {α : Type} (r c : ℕ) : Scan α → Py (Fin r → Fin c → α)
  | .d2 r' c' f => if h : r = r' ∧ c = c' then .ok fun i j => f (Fin.cast h.1 i) (Fin.cast h.2 j) else .error .valueError
  | .d1 n f =>
    if h : r = n ∧ c = 1 then .ok fun i _ => f (Fin.cast h.1 i)
    else if h : c = n ∧ r = 1 then .ok fun _ j => f (Fin.cast h.1 j)
    else .error .valueError
  | .d0 _ => .error .valueError

/-- The call of `generate_csd` for the border of a 2D scan.
Models simcats/distortions/_dot_jumps.py:466-475 and 482-492. -/
noncomputable def borderCall {σ : Type} (axis : Axis) (gen : Gen σ) (g1 g2 : ℝ × ℝ) (rows cols m : ℕ) : M σ CsdData :=
  match axis with
  | .g1 => gen (g1.1 - m * borderStep g1 cols, g1.1 - borderStep g1 cols) g2
      (if m > 1 then .arr [(m : ℤ), (rows : ℤ)] else .int rows)
  | .g2 => gen g1 (g2.1 - m * borderStep g2 rows, g2.1 - borderStep g2 rows)
      (if m > 1 then .arr [(cols : ℤ), (m : ℤ)] else .int cols)

/-- `np.hstack((left, image))` with `m` columns resp. `np.vstack((top, image))` with `m` rows.
Library function, used in simcats/distortions/_dot_jumps.py:331-363, 479-497. -/
def stackImg {α : Type} (axis : Axis) (m : ℕ) (border img : ℕ → ℕ → Option α) : ℕ → ℕ → Option α :=
  match axis with
  | .g1 => fun i j => if j < m then border i j else img i (j - m)
  | .g2 => fun i j => if i < m then border i j else img (i - m) j

/-- `dot_jumps_blockwise(stacked, ..., zeros + noise)[0]` without the first `m` columns (rows).
Models simcats/distortions/_dot_jumps.py:503-558. -/
noncomputable def shiftImg {α : Type} (axis : Axis) (rows cols m : ℕ) (scale : Option ℝ) (stacked : ℕ → ℕ → Option α)
    (noise : List ℕ) : Py (ℕ → ℕ → Option α) :=
  match axis with
  | .g1 => (dotJumpsBlockwise .g1 rows (m + cols) scale stacked (List.replicate m 0 ++ noise) fun _ _ => none).map
      fun img i j => img i (m + j)
  | .g2 => (dotJumpsBlockwise .g2 (m + rows) cols scale stacked (List.replicate m 0 ++ noise) fun _ _ => none).map
      fun img i j => img (m + i) j

/-- The first dot of an image of occupations.
Auxiliary definition, used for simcats/distortions/_dot_jumps.py:374-389 and 506-548. -/
def chan1 (img : ℕ → ℕ → Option (ℝ × ℝ)) : ℕ → ℕ → Option ℝ := fun i j => (img i j).map (·.1)

/-- The second dot of an image of occupations.
Auxiliary definition, used for simcats/distortions/_dot_jumps.py:374-389 and 506-548. -/
def chan2 (img : ℕ → ℕ → Option (ℝ × ℝ)) : ℕ → ℕ → Option ℝ := fun i j => (img i j).map (·.2)

/-- The border of a 2D scan as two images and their number of columns (rows): nothing without jumps.
Models simcats/distortions/_dot_jumps.py:464-502 (`generate_csd` is always given). -/
noncomputable def border2d {σ : Type} (axis : Axis) (gen : Gen σ) (g1 g2 : ℝ × ℝ) (rows cols m : ℕ) :
    M σ ((ℕ → ℕ → Option (ℝ × ℝ)) × (ℕ → ℕ → Option ℕ)) :=
  if m = 0 then pure (fun _ _ => none, fun _ _ => none)
  else do
    let data ← borderCall axis gen g1 g2 rows cols m
    match axis with
    | .g1 => do
      let o ← ofPy (reshape2 rows m data.1)
      let l ← ofPy (reshape2 rows m data.2)
      pure (toImg o, toImg l)
    | .g2 => do
      let o ← ofPy (reshape2 m cols data.1)
      let l ← ofPy (reshape2 m cols data.2)
      pure (toImg o, toImg l)

/-- The shifted occupations and lead transitions of a 2D scan for given noise.
Models simcats/distortions/_dot_jumps.py:463-558. -/
noncomputable def apply2d {σ : Type} (axis : Axis) (nan : ℝ) (rows cols : ℕ) (occ : Fin rows → Fin cols → ℝ × ℝ)
    (lead : Fin rows → Fin cols → ℕ) (g1 g2 : ℝ × ℝ) (gen : Gen σ) (scale : Option ℝ) (noise : List ℕ) :
    M σ ((Fin rows → Fin cols → ℝ × ℝ) × (Fin rows → Fin cols → ℕ)) := do
  let m ← ofPy (maxJump noise)
  let b ← border2d axis gen g1 g2 rows cols m
  let o1 ← ofPy (shiftImg axis rows cols m scale (stackImg axis m (chan1 b.1) (chan1 (toImg occ))) noise)
  let o2 ← ofPy (shiftImg axis rows cols m scale (stackImg axis m (chan2 b.1) (chan2 (toImg occ))) noise)
  let l ← ofPy (shiftImg axis rows cols m scale (stackImg axis m b.2 (toImg lead)) noise)
  pure (fun i j => ((o1 i j).getD nan, (o2 i j).getD nan), fun i j => (l i j).getD 0)

/-- A diagonal matrix with NaN elsewhere (`np.full` and `np.fill_diagonal`).
Models simcats/distortions/_dot_jumps.py:303-308. -/
def diagImg {α : Type} {n : ℕ} (f : Fin n → α) : ℕ → ℕ → Option α :=
  fun i j => if h : i = j ∧ i < n then some (f ⟨i, h.2⟩) else none

/-- One column (row) of NaN is added in front, then the main diagonal is filled.
Models simcats/distortions/_dot_jumps.py:330-344 and 356-370. -/
def addDiag {α : Type} {n : ℕ} (axis : Axis) (f : Fin n → α) (img : ℕ → ℕ → Option α) : ℕ → ℕ → Option α :=
  fun i j =>
    if h : i = j ∧ i < n then some (f ⟨i, h.2⟩)
    else match axis with
      | .g1 => if j = 0 then none else img i (j - 1)
      | .g2 => if i = 0 then none else img (i - 1) j

/-- An array of a 1D scan with `n` pixels.
Auxiliary definition, used for simcats/distortions/_dot_jumps.py:320-370. -/
def as1d {α : Type} (n : ℕ) : Scan α → Py (Fin n → α)
  | .d1 n' f => if h : n = n' then .ok fun i => f (Fin.cast h i) else .error .valueError
  | _ => .error .valueError

/-- The loop that adds the shifted scans as diagonals: `todo` remaining iterations, loop index `i`.
The step is that of gate 1 for both axes, as in the code.
Models simcats/distortions/_dot_jumps.py:315-372. -/
noncomputable def border1d {σ : Type} (axis : Axis) (gen : Gen σ) (g1 g2 : ℝ × ℝ) (n : ℕ) :
    ℕ → ℕ → (ℕ → ℕ → Option (ℝ × ℝ)) → (ℕ → ℕ → Option ℕ) → M σ ((ℕ → ℕ → Option (ℝ × ℝ)) × (ℕ → ℕ → Option ℕ))
  | 0, _, o, l => pure (o, l)
  | todo + 1, i, o, l => do
    let d := ((i : ℝ) + 1) * borderStep g1 n
    let data ← match axis with
      | .g1 => gen (g1.1 - d, g1.2 - d) g2 (.int n)
      | .g2 => gen g1 (g2.1 - d, g2.2 - d) (.int n)
    let a ← ofPy (as1d n data.1)
    let b ← ofPy (as1d n data.2)
    border1d axis gen g1 g2 n todo (i + 1) (addDiag axis a o) (addDiag axis b l)

/-- `i + added_pixels`: `added_pixels` is the `uint8` maximum of the noise, or the int 0.  With numpy >= 2 the sum is a
`uint8`, too: ints above 255 raise `OverflowError`, larger sums wrap around.
Models simcats/distortions/_dot_jumps.py:391, 393. -/
def addedIndex (np2 : Bool) (i m : ℕ) : Py ℕ :=
  if np2 = true ∧ m > 0 then (if 255 < i then .error .overflowError else .ok ((i + m) % 256)) else .ok (i + m)

/-- The entries `image[i, i + added_pixels]` (resp. transposed) of a 1D scan, evaluated from `i = 0` on.
Models simcats/distortions/_dot_jumps.py:391-414. -/
def readDiag {α : Type} (np2 : Bool) (axis : Axis) (m : ℕ) (img : ℕ → ℕ → Option α) (n : ℕ) : Py (Fin n → Option α) :=
  if np2 = true ∧ m > 0 ∧ 256 < n then .error .overflowError
  else .ok fun i =>
    match addedIndex np2 i m, axis with
    | .ok k, .g1 => img i k
    | .ok k, .g2 => img k i
    -- not reachable after the check
    | .error _, _ => none

/-- The stacked image of one channel after the jumps.
Models simcats/distortions/_dot_jumps.py:374-389. -/
noncomputable def shiftDiag {α : Type} (axis : Axis) (n m : ℕ) (scale : Option ℝ) (img : ℕ → ℕ → Option α) (noise : List ℕ) :
    Py (ℕ → ℕ → Option α) :=
  match axis with
  | .g1 => dotJumpsBlockwise .g1 n (m + n) scale img (List.replicate m 0 ++ noise) fun _ _ => none
  | .g2 => dotJumpsBlockwise .g2 (m + n) n scale img (List.replicate m 0 ++ noise) fun _ _ => none

/-- The shifted occupations and lead transitions of a 1D scan for given noise.  The lead transitions are read through
slices, which are not affected by the integer type.
Models simcats/distortions/_dot_jumps.py:303-414. -/
noncomputable def apply1d {σ : Type} (axis : Axis) (np2 : Bool) (nan : ℝ) (n : ℕ) (occ : Fin n → ℝ × ℝ) (lead : Fin n → ℕ)
    (g1 g2 : ℝ × ℝ) (gen : Gen σ) (scale : Option ℝ) (noise : List ℕ) : M σ ((Fin n → ℝ × ℝ) × (Fin n → ℕ)) := do
  let m ← ofPy (maxJump noise)
  let b ← border1d axis gen g1 g2 n m 0 (diagImg occ) (diagImg lead)
  let s1 ← ofPy (shiftDiag axis n m scale (chan1 b.1) noise)
  let s2 ← ofPy (shiftDiag axis n m scale (chan2 b.1) noise)
  let o1 ← ofPy (readDiag np2 axis m s1 n)
  let o2 ← ofPy (readDiag np2 axis m s2 n)
  let sl ← ofPy (shiftDiag axis n m scale b.2 noise)
  let l ← ofPy (readDiag false axis m sl n)
  pure (fun i => ((o1 i).getD nan, (o2 i).getD nan), fun i => (l i).getD 0)

/-- The factor from volts to pixels.
Models simcats/distortions/_dot_jumps.py:172, 185-194. -/
noncomputable def jumpFactor (axis : Axis) (g1 g2 : ℝ × ℝ) (occ : Scan (ℝ × ℝ)) : Option ℝ :=
  match axis, occ with
  | .g1, .d2 r _ _ => pxPerVolt r g1
  | .g2, .d2 _ c _ => pxPerVolt c g2
  | .g1, .d1 n _ => pxPerVolt n g1
  | .g2, .d1 n _ => pxPerVolt n g2
  | _, .d0 _ => none

/-- Scale and lambda in pixels; scales below 1 are set to 1.  An infinite factor makes `geometric` or `poisson` raise
`ValueError` (`none`).
Models simcats/distortions/_dot_jumps.py:173-201. -/
noncomputable def pixelParams (k : Option ℝ) (scale lam : ℝ) : Option (ℝ × ℝ) :=
  open Classical in
  k.map fun k => (if scale * k < 1 then 1 else scale * k, lam * k)

/-- The noise of this call and the scale passed on: the previous noise if frozen, otherwise new noise, which is stored.
Models simcats/distortions/_dot_jumps.py:172-201, 310-314, 458-462.
Simplification: for an infinite factor the exception comes before the draws of the generator. -/
noncomputable def DotJumps.noise {τ : Type} (d : DotJumps τ) (g1 g2 : ℝ × ℝ) (occ : Scan (ℝ × ℝ)) (size : ℕ) (freeze : Bool) :
    M (DotState × τ) (List ℕ × Option ℝ) :=
  if freeze then do
    let st ← getOwn
    match st.prev with
    | none => M.raise .attributeError
    | some noise => pure (noise, none)
  else do
    let scale ← onRest d.scale
    let lam ← onRest d.lam
    match pixelParams (jumpFactor d.axis g1 g2 occ) scale lam with
    | none => M.raise .valueError
    | some (scale, lam) => do
      let noise ← onRest (generateJumps d.rng size scale lam)
      setOwn ⟨some true, some noise⟩
      pure (noise, some scale)

/-- The length of the noise: `shape[axis]`.
Models simcats/distortions/_dot_jumps.py:185-194 and 466-482 (the parameter `axis`). -/
def Axis.size (axis : Axis) (rows cols : ℕ) : ℕ :=
  match axis with
  | .g1 => cols
  | .g2 => rows

/-- `g[0] > g[1]`.
Models simcats/distortions/_dot_jumps.py:211, 225, 230, 234, 249, 253. -/
def Desc (g : ℝ × ℝ) : Prop := g.2 < g.1

/-- 1D part of `noise_function`: both axes are sorted, the scan is reversed if one of them descends.
Models simcats/distortions/_dot_jumps.py:203-228. -/
noncomputable def DotJumps.run1d {τ : Type} (d : DotJumps τ) (n : ℕ) (occ : Fin n → ℝ × ℝ) (lead : Fin n → ℕ) (g1 g2 : ℝ × ℝ)
    (gen : Gen (DotState × τ)) (p : List ℕ × Option ℝ) : M (DotState × τ) CsdData :=
  open Classical in
  if Desc g2 ∨ Desc g1 then do
    let out ← apply1d d.axis d.np2 d.nan n (fun i => occ i.rev) (fun i => lead i.rev) (sortLim g1) (sortLim g2) gen p.2 p.1
    pure (.d1 n fun i => out.1 i.rev, .d1 n fun i => out.2 i.rev)
  else do
    let out ← apply1d d.axis d.np2 d.nan n occ lead (sortLim g1) (sortLim g2) gen p.2 p.1
    pure (.d1 n out.1, .d1 n out.2)

/-- Which of the two axes of the image is reversed: the second assignment of the code overwrites the first, so at most one.
Models simcats/distortions/_dot_jumps.py:230-237 and 249-256. -/
noncomputable def flip2d {r c : ℕ} {α : Type} (g1 g2 : ℝ × ℝ) (f : Fin r → Fin c → α) : Fin r → Fin c → α :=
  open Classical in
  if Desc g1 then fun i j => f i j.rev
  else if Desc g2 then fun i j => f i.rev j
  else f

/-- 2D part of `noise_function`.
Models simcats/distortions/_dot_jumps.py:203-209, 229-256. -/
noncomputable def DotJumps.run2d {τ : Type} (d : DotJumps τ) (r c : ℕ) (occ : Fin r → Fin c → ℝ × ℝ) (lead : Fin r → Fin c → ℕ)
    (g1 g2 : ℝ × ℝ) (gen : Gen (DotState × τ)) (p : List ℕ × Option ℝ) : M (DotState × τ) CsdData := do
  let out ← apply2d d.axis d.nan r c (flip2d g1 g2 occ) (flip2d g1 g2 lead) (sortLim g1) (sortLim g2) gen p.2 p.1
  pure (.d2 r c (flip2d g1 g2 out.1), .d2 r c (flip2d g1 g2 out.2))

/-- The part of `noise_function` of an active distortion.
Models simcats/distortions/_dot_jumps.py:172-257.
Simplification: occupations and lead transitions of different shapes raise `ValueError`. -/
noncomputable def DotJumps.active {τ : Type} (d : DotJumps τ) (data : CsdData) (g1 g2 : ℝ × ℝ) (gen : Gen (DotState × τ))
    (freeze : Bool) : M (DotState × τ) CsdData :=
  match data with
  | (.d1 n occ, lead) => do
    let lead ← ofPy (as1d n lead)
    let p ← d.noise g1 g2 (.d1 n occ) n freeze
    d.run1d n occ lead g1 g2 gen p
  | (.d2 r c occ, lead) => do
    let lead ← ofPy (reshape2 r c lead)
    let p ← d.noise g1 g2 (.d2 r c occ) (d.axis.size r c) freeze
    d.run2d r c occ lead g1 g2 gen p
  | (.d0 _, _) => M.raise .valueError

/-- `OccupationDotJumps.noise_function`.
Models simcats/distortions/_dot_jumps.py:113-257. -/
noncomputable def DotJumps.noiseFunction {τ : Type} (d : DotJumps τ) : OccDist (DotState × τ) := fun data g1 g2 gen freeze => do
  let st ← getOwn
  if freeze then
    if st.activated = some true then d.active data g1 g2 gen true else pure data
  else do
    let b ← onRest (d.rng.binomial d.ratio)
    setOwn { st with activated := some b }
    if b = false then pure data else d.active data g1 g2 gen false

end SimCATS
