import Verif.Model.Blur

/-!
Model of the function `fermi_filter1d` with all of its arguments (simcats/support_functions/_fermi_filter1d.py:30-74).

Not modelled: the data type of the output (`scipy.ndimage.convolve1d` returns an array of the type of the input, so that integer inputs give
truncated values), inputs with more than two axes, and rounding.
-/

namespace SimCATS

/-- The exceptions of `fermi_filter1d`: `RuntimeError` and numpy's `AxisError`, both raised in `scipy.ndimage.convolve1d`.
Auxiliary definition, used for simcats/support_functions/_fermi_filter1d.py:30-74. -/
inductive FilterErr
  | runtimeError
  | axisError
  deriving DecidableEq, Repr

/-- The modes in which an array is extended beyond its boundaries.
Models simcats/support_functions/_fermi_filter1d.py:45-60 (documentation of the parameter). -/
inductive FilterMode
  | reflect
  | constant
  | nearest
  | mirror
  | wrap
  deriving DecidableEq, Repr

/-- The names of the modes, as documented.
Models simcats/support_functions/_fermi_filter1d.py:45-60 (interpreted in `scipy.ndimage.convolve1d`). -/
def FilterMode.parse : String → Option FilterMode
  | "reflect" => some .reflect
  | "grid-mirror" => some .reflect
  | "constant" => some .constant
  | "grid-constant" => some .constant
  | "nearest" => some .nearest
  | "mirror" => some .mirror
  | "wrap" => some .wrap
  | "grid-wrap" => some .wrap
  | _ => none

/-- Index of the pixel that mode 'mirror' (d c b | a b c d | c b a) uses at position `k` of an axis of length `n`.
Library function, used in simcats/support_functions/_fermi_filter1d.py:74. -/
def mirrorIdx (n : ℕ) (k : ℤ) : ℕ :=
  let m := (k % (2 * (n - 1 : ℕ))).toNat
  if n = 1 then 0 else if m < n then m else 2 * (n - 1) - m

theorem mirrorIdx_lt {n : ℕ} (hn : 0 < n) (k : ℤ) : mirrorIdx n k < n := by
  unfold mirrorIdx
  simp only
  split_ifs with h1 h2
  · omega
  · exact h2
  · have h3 := Int.emod_nonneg k (show (2 * ((n - 1 : ℕ) : ℤ)) ≠ 0 by omega)
    omega

/-- Index of the pixel that mode 'nearest' (a a a a | a b c d | d d d d) uses at position `k` of an axis of length `n`.
Library function, used in simcats/support_functions/_fermi_filter1d.py:74. -/
def nearestIdx (n : ℕ) (k : ℤ) : ℕ := min k.toNat (n - 1)

/-- Index of the pixel that mode 'wrap' (a b c d | a b c d | a b c d) uses at position `k` of an axis of length `n`.
Library function, used in simcats/support_functions/_fermi_filter1d.py:74. -/
def wrapIdx (n : ℕ) (k : ℤ) : ℕ := (k % n).toNat

/-- The value at position `k` of a line that is extended beyond its boundaries.
Models the library function `scipy.ndimage.convolve1d` as documented; used in simcats/support_functions/_fermi_filter1d.py:74. -/
noncomputable def extended (mode : FilterMode) (cval : ℝ) {n : ℕ} (hn : 0 < n) (f : Fin n → ℝ) (k : ℤ) : ℝ :=
  match mode with
  | .reflect => f ⟨reflectIdx n k, reflectIdx_lt hn k⟩
  | .constant => if h : 0 ≤ k ∧ k < n then f ⟨k.toNat, by omega⟩ else cval
  | .nearest => f ⟨nearestIdx n k, by unfold nearestIdx; omega⟩
  | .mirror => f ⟨mirrorIdx n k, mirrorIdx_lt hn k⟩
  | .wrap => f ⟨wrapIdx n k, by
      have h1 := Int.emod_nonneg k (show (n : ℤ) ≠ 0 by omega)
      have h2 := Int.emod_lt_of_pos k (show (0 : ℤ) < n by omega)
      unfold wrapIdx
      omega⟩

/-- `scipy.ndimage.convolve1d` for one line and a kernel of odd size.
Models the library function as documented; used in simcats/support_functions/_fermi_filter1d.py:74. -/
noncomputable def filterLine (mode : FilterMode) (cval : ℝ) (K : Kernel) {n : ℕ} (f : Fin n → ℝ) (p : Fin n) : ℝ :=
  ∑ k ∈ Finset.Icc (-(K.radius : ℤ)) K.radius, K.w k * extended mode cval p.pos f (p - k)

/-- The radius of the kernel.
Models simcats/support_functions/_fermi_filter1d.py:68-69. -/
noncomputable def filterRadius (σ : ℝ) : Option ℤ → ℤ
  | none => pyRound (4.0 * σ)
  | some r => r

/-- The normalised kernel; `none` is a kernel of NaN (all entries are divided by a sigma of 0).  With a negative radius the kernel is
empty, which `convolve1d` rejects before it looks at the other arguments.
Models simcats/support_functions/_fermi_filter1d.py:67-73. -/
noncomputable def fermiFilterKernel (σ : ℝ) (radius : Option ℤ) : Except FilterErr (Option Kernel) :=
  open Classical in
  let r := filterRadius σ radius
  if r < 0 then .error .runtimeError
  else if σ = 0 then .ok none
  else .ok (some (normalized r.toNat fun k => fermiDeriv k σ))

/-- The axis counted from the front; `none` is an axis that the array does not have (numpy's `normalize_axis_index`).
Library function, used in simcats/support_functions/_fermi_filter1d.py:74. -/
def normAxis (ndim : ℕ) (axis : ℤ) : Option ℕ :=
  if 0 ≤ axis ∧ axis < ndim then some axis.toNat
  else if -(ndim : ℤ) ≤ axis ∧ axis < 0 then some (axis + ndim).toNat
  else none

/-- The filter along an axis of the array.
Library function, used in simcats/support_functions/_fermi_filter1d.py:74. -/
noncomputable def filterAlong (mode : FilterMode) (cval : ℝ) (K : Kernel) (axis : ℕ) : Scan ℝ → Scan ℝ
  | .d0 v => .d0 v
  | .d1 n f => .d1 n (filterLine mode cval K f)
  | .d2 r c f =>
    if axis = 0 then .d2 r c fun i j => filterLine mode cval K (fun i' => f i' j) i
    else .d2 r c fun i j => filterLine mode cval K (f i) j

/-- `fermi_filter1d(input, sigma, axis, mode, cval, radius)`; the result `none` is an array of NaN.
Models simcats/support_functions/_fermi_filter1d.py:30-74. -/
noncomputable def fermiFilter (input : Scan ℝ) (σ : ℝ) (axis : ℤ) (mode : String) (cval : ℝ) (radius : Option ℤ) :
    Except FilterErr (Option (Scan ℝ)) :=
  match fermiFilterKernel σ radius with
  | .error e => .error e
  | .ok K =>
    match normAxis input.shape.length axis with
    | none => .error .axisError
    | some a =>
      match FilterMode.parse mode with
      | none => .error .runtimeError
      | some m => .ok (K.map fun K => filterAlong m cval K a input)

end SimCATS
