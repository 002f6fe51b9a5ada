import Verif.Model.Telegraph
import Mathlib.Analysis.SpecialFunctions.Trigonometric.DerivHyp
import Mathlib.Analysis.SpecialFunctions.Exp
import Mathlib.Algebra.BigOperators.Intervals
import Mathlib.Algebra.Order.Round
import Mathlib.Order.Interval.Finset.Nat
import Mathlib.Data.Int.Interval

/-!
Models of simcats/distortions/_transition_blurring.py and simcats/support_functions/_fermi_filter1d.py.
-/

namespace SimCATS

/-- A filter kernel: entries for the positions `-radius, ..., radius`.
Auxiliary definition, used for simcats/support_functions/_fermi_filter1d.py:67-74. -/
structure Kernel where
  radius : ℕ
  w : ℤ → ℝ

/-- Index of the pixel that mode 'reflect' (d c b a | a b c d | d c b a) uses at position `k` of an axis of length `n`.
Library function, used in simcats/support_functions/_fermi_filter1d.py:74
and simcats/distortions/_transition_blurring.py:224-225, 238-239. -/
def reflectIdx (n : ℕ) (k : ℤ) : ℕ :=
  let m := (k % (2 * n)).toNat
  if m < n then m else 2 * n - 1 - m

theorem reflectIdx_lt {n : ℕ} (hn : 0 < n) (k : ℤ) : reflectIdx n k < n := by
  have h1 := Int.emod_nonneg k (show (2 * n : ℤ) ≠ 0 by omega)
  have h2 := Int.emod_lt_of_pos k (show (0 : ℤ) < 2 * n by omega)
  unfold reflectIdx
  simp only
  split_ifs <;> omega

/-- `scipy.ndimage.convolve1d(input, weights, mode="reflect")` for one row and a kernel of odd size.
Models the library function as documented; used in simcats/support_functions/_fermi_filter1d.py:74. -/
noncomputable def convolve {n : ℕ} (K : Kernel) (f : Fin n → ℝ) (p : Fin n) : ℝ :=
  ∑ k ∈ Finset.Icc (-(K.radius : ℤ)) K.radius, K.w k * f ⟨reflectIdx n (p - k), reflectIdx_lt p.pos _⟩

/-- Python's `round(x)` (ties to even).
Library function, used in simcats/support_functions/_fermi_filter1d.py:69. -/
noncomputable def pyRound (x : ℝ) : ℤ :=
  open Classical in
  if x - ⌊x⌋ < 1 / 2 then ⌊x⌋
  else if 1 / 2 < x - ⌊x⌋ then ⌊x⌋ + 1
  else if Even ⌊x⌋ then ⌊x⌋ else ⌊x⌋ + 1

/-- `fermi_dirac_derivative(x, 0, sigma)`.
Models simcats/support_functions/_fermi_filter1d.py:13-27. -/
noncomputable def fermiDeriv (x σ : ℝ) : ℝ := (0.5 * (1 / Real.cosh (x / σ)) ^ 2) / σ

/-- A kernel of positive values divided by their sum.
Auxiliary definition, used for simcats/support_functions/_fermi_filter1d.py:67-74. -/
noncomputable def normalized (radius : ℕ) (v : ℤ → ℝ) : Kernel :=
  ⟨radius, fun k => v k / ∑ i ∈ Finset.Icc (-(radius : ℤ)) radius, v i⟩

/-- The kernel of `fermi_filter1d` with default radius.
Models simcats/support_functions/_fermi_filter1d.py:67-73. -/
noncomputable def fermiKernel (σ : ℝ) : Kernel := normalized (pyRound (4 * σ)).toNat fun k => fermiDeriv k σ

/-- The kernel of `scipy.ndimage.gaussian_filter1d` with default radius `int(4 * sigma + 0.5)`.
Models the library function as documented; used in simcats/distortions/_transition_blurring.py:224-225, 238-239. -/
noncomputable def gaussKernel (σ : ℝ) : Kernel := normalized ⌊4 * σ + 1 / 2⌋.toNat fun k => Real.exp (-(k : ℝ) ^ 2 / (2 * σ ^ 2))

/-- A transition blurring object; `sigma` is a number or a call of a sampler.
Models simcats/distortions/_transition_blurring.py:20-30 and 136-146. -/
structure Blur (τ : Type) where
  sigma : M τ ℝ
  kernel : ℝ → Kernel

/-- The factor from volts to pixels.
Models simcats/distortions/_transition_blurring.py:104-107, 111-121 (the same code in 220-223, 227-237). -/
noncomputable def blurFactor (g1 g2 : ℝ × ℝ) : Scan (ℝ × ℝ) → Option ℝ
  | .d0 _ => none
  | .d1 n _ =>
    open Classical in
    if g1.1 = g1.2 then pxPerVolt n g2
    else if g2.1 = g2.2 then pxPerVolt n g1
    else optMax (pxPerVolt n g1) (pxPerVolt n g2)
  | .d2 r _ _ => pxPerVolt r g1

/-- The filter applied to both dots along the last axis.
Models simcats/distortions/_transition_blurring.py:104-123 and 220-239. -/
noncomputable def blurScan (K : Kernel) : Scan (ℝ × ℝ) → Scan (ℝ × ℝ)
  | .d0 v => .d0 v
  | .d1 n f => .d1 n fun p => (convolve K (fun i => (f i).1) p, convolve K (fun i => (f i).2) p)
  | .d2 r c f => .d2 r c fun i p => (convolve K (fun j => (f i j).1) p, convolve K (fun j => (f i j).2) p)

/-- The part of `noise_function` after sigma is known.  An infinite scale makes the computation of the radius raise
`OverflowError`.
Models simcats/distortions/_transition_blurring.py:102-124 (the same code in 218-240).
Simplification: occupations of rank 0 (never those of a scan) raise `OverflowError`. -/
noncomputable def Blur.apply {τ : Type} (d : Blur τ) (data : CsdData) (g1 g2 : ℝ × ℝ) (σ : ℝ) : Py CsdData :=
  open Classical in
  if 0 < σ then
    match blurFactor g1 g2 data.1 with
    | none => .error .overflowError
    | some k => .ok (blurScan (d.kernel (σ * k)) data.1, data.2)
  else .ok data

/-- The sigma of this call: the latest one if frozen, otherwise a new one.
Models simcats/distortions/_transition_blurring.py:94-100 (the same code in 210-216). -/
def Blur.sample {τ : Type} (d : Blur τ) (freeze : Bool) : M (Option ℝ × τ) (Option ℝ) :=
  if freeze then getOwn
  else do
    let s ← onRest d.sigma
    pure (some s)

/-- `noise_function` of both blurring classes; the own state is `latest_sigma`.
Models simcats/distortions/_transition_blurring.py:49-124 and 165-240. -/
noncomputable def Blur.noiseFunction {τ : Type} (d : Blur τ) : OccDist (Option ℝ × τ) := fun data g1 g2 _ freeze => do
  let s ← d.sample freeze
  setOwn s
  match s with
  | none => M.raise .typeError
  | some σ => ofPy (d.apply data g1 g2 σ)

/-- Models `OccupationTransitionBlurringFermiDirac` (simcats/distortions/_transition_blurring.py:17-130). -/
noncomputable def fermiBlur {τ : Type} (sigma : M τ ℝ) : Blur τ := ⟨sigma, fermiKernel⟩

/-- Models `OccupationTransitionBlurringGaussian` (simcats/distortions/_transition_blurring.py:133-246). -/
noncomputable def gaussBlur {τ : Type} (sigma : M τ ℝ) : Blur τ := ⟨sigma, gaussKernel⟩

end SimCATS
