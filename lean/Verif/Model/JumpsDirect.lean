import Verif.Model.DotJumps

/-!
Model of direct calls of `dot_jumps_blockwise` and `dot_jumps_pixelwise`, in which the jumps keep the type in which they
were generated.

Library behaviour of numpy: from version 2 on, a Python int combined with a `uint8` has to be in 0..255 (else
`OverflowError`) and the result is a `uint8`, reduced modulo 256; before, the result is a signed integer.
-/

namespace SimCATS

/-- The type of an array of jumps: `uint8` as generated, a signed integer, or float (`np.zeros`).
Auxiliary definition, used for simcats/distortions/_dot_jumps.py:591, 606 and 646-648. -/
inductive JumpType
  | u8
  | signed
  | float
  deriving DecidableEq

/-- An array of jumps.
Auxiliary definition, used for the parameter `noise` of simcats/distortions/_dot_jumps.py:610-617. -/
structure JumpArr where
  type : JumpType
  vals : List ℕ

/-- The numbers of `range(0, noise[j] + 1)`: their count; `wrap`: arithmetic modulo 256.
Models simcats/distortions/_dot_jumps.py:658, 672 and 748. -/
def jumpCount (wrap : Bool) (n : ℕ) : ℕ := if wrap then (n + 1) % 256 else n + 1

/-- `np.maximum(0, j - noise[j] + k)`; `wrap`: arithmetic modulo 256.
Models simcats/distortions/_dot_jumps.py:662, 665, 676, 679 and 751. -/
def jumpSource (wrap : Bool) (j n k : ℕ) : Py ℕ :=
  if wrap then
    if 255 < j then .error .overflowError else .ok (((256 + j - n) % 256 + k) % 256)
  else .ok (max 0 ((j : ℤ) - n + k)).toNat

/-- The innermost loop over `k` in a lane of `n` pixels.
Models simcats/distortions/_dot_jumps.py:658-665 (the same code in 672-679). -/
def directInner {α : Type} (wrap : Bool) (n : ℕ) (orig : ℕ → Option α) (nj j : ℕ) :
    ℕ → ℕ → (ℕ → Option α) → Py (ℕ → Option α)
  | 0, _, shifted => .ok shifted
  | todo + 1, k, shifted =>
    if n ≤ j + k then .ok shifted
    else
      match jumpSource wrap j nj k with
      | .error e => .error e
      | .ok src =>
        if n ≤ src then .error .indexError
        else directInner wrap n orig nj j todo (k + 1)
          (Function.update shifted (j + k) (if orig src = none then orig (j + k) else orig src))

/-- The loop over `j` in one lane of `n` pixels with jumps `noise`, of which there are `len`.
Models simcats/distortions/_dot_jumps.py:655-666 (the same code in 669-680). -/
def directLane {α : Type} (wrap : Bool) (n : ℕ) (orig : ℕ → Option α) (noise : ℕ → ℕ) (len : ℕ) :
    ℕ → ℕ → (ℕ → Option α) → Py (ℕ → Option α)
  | 0, _, shifted => .ok shifted
  | todo + 1, j, shifted =>
    if len ≤ j then .error .indexError
    else
      match directInner wrap n orig (noise j) j (jumpCount wrap (noise j)) 0 shifted with
      | .error e => .error e
      | .ok shifted' =>
        -- `j = j + noise[j]`
        if wrap ∧ 255 < j then .error .overflowError
        else directLane wrap n orig noise len todo (j + 1) shifted'

/-- The outer loop over the lanes.
Models simcats/distortions/_dot_jumps.py:654-655, 668-669 and 745-746. -/
def directLanes {α : Type} (lane : ℕ → Py (ℕ → Option α)) : ℕ → ℕ → (ℕ → ℕ → Option α) → Py (ℕ → ℕ → Option α)
  | 0, _, shifted => .ok shifted
  | todo + 1, i, shifted =>
    match lane i with
    | .error e => .error e
    | .ok l => directLanes lane todo (i + 1) (Function.update shifted i l)

/-- The loops of `dot_jumps_blockwise` for jumps of a given type; `range` of a float raises `TypeError`.  The result is
indexed by lane and position in the lane.
Models simcats/distortions/_dot_jumps.py:650-682. -/
def jumpLoops {α : Type} (np2 : Bool) (lanes n : ℕ) (orig : ℕ → ℕ → Option α) (noise : JumpArr)
    (empty : ℕ → ℕ → Option α) : Py (ℕ → ℕ → Option α) :=
  if noise.type = .float ∧ 0 < lanes ∧ 0 < n then .error (if noise.vals.length = 0 then .indexError else .typeError)
  else directLanes (fun i => directLane (np2 && noise.type == .u8) n (orig i) (fun j => noise.vals.getD j 0)
    noise.vals.length n 0 (empty i)) lanes 0 empty

/-- `dot_jumps_blockwise(original, scale, lam, noise, axis, rng)` for an image of `rows` x `cols` pixels; `np2`: numpy >= 2.
Models simcats/distortions/_dot_jumps.py:645-684. -/
noncomputable def jumpsDirect {τ α : Type} (np2 : Bool) (rng : Rng τ) (axis : Axis) (rows cols : ℕ)
    (orig : ℕ → ℕ → Option α) (scale lam : ℝ) (noise : Option JumpArr) (empty : ℕ → ℕ → Option α) :
    M τ ((ℕ → ℕ → Option α) × JumpArr) :=
  open Classical in
  let size := match axis with
    | .g1 => cols
    | .g2 => rows
  if scale = 0 then pure (orig, ⟨.float, List.replicate size 0⟩)
  else do
    let noise ← match noise with
      | some a => pure a
      | none => do
        let l ← generateJumps rng size scale lam
        pure ⟨.u8, l⟩
    match axis with
    | .g1 => do
      let res ← ofPy (jumpLoops np2 rows cols orig noise empty)
      pure (res, noise)
    | .g2 => do
      let res ← ofPy (jumpLoops np2 cols rows (fun i j => orig j i) noise fun i j => empty j i)
      pure (fun j i => res i j, noise)

/-- `dot_jumps_pixelwise(original, scale, lam, noise=None, rng)`; the jumps are drawn for the pixels in row-major order.
Models simcats/distortions/_dot_jumps.py:722-755.
Simplification: images without NaN (this function has no rule for NaN) and no given jumps. -/
noncomputable def jumpsPixelwise {τ α : Type} (np2 : Bool) (rng : Rng τ) (rows cols : ℕ)
    (orig : ℕ → ℕ → α) (scale lam : ℝ) (empty : ℕ → ℕ → Option α) : M τ ((ℕ → ℕ → Option α) × JumpArr) :=
  open Classical in
  if scale = 0 then pure (fun i j => some (orig i j), ⟨.float, List.replicate (rows * cols) 0⟩)
  else do
    let l ← generateJumps rng (rows * cols) scale lam
    let res ← ofPy (directLanes (fun i => directLane np2 cols (fun j => some (orig i j)) (fun j => l.getD (i * cols + j) 0)
      cols cols 0 (empty i)) rows 0 empty)
    pure (res, ⟨.u8, l⟩)

end SimCATS
