import Verif.Model.Support
import Verif.Model.Cdf
import Verif.Model.Tct

/-!
Models of simcats/ideal_csd/geometric/_get_electron_occupation.py and _initialize_tct_functions.py.
Arrays are functions on an arbitrary index set `ι` (pixels).
-/

namespace SimCATS

/-- The argument `cdf_type`: one of the two supported names or any other string.
Models simcats/ideal_csd/geometric/_get_electron_occupation.py:47-49 and 132-134. -/
inductive CdfType
  | sigmoid
  | cauchy
  | other
  deriving DecidableEq, Repr

/-- `_occupation_func(points, ref_line_points, params, cdf_type)` for one point, reference line through `l0`, `l1`.
Models simcats/ideal_csd/geometric/_get_electron_occupation.py:42-56. -/
noncomputable def occupationFunc (l0 l1 : ℝ × ℝ) (params : List ℝ) (cdf : CdfType) (pt : ℝ × ℝ) : Py (ℝ × ℝ) :=
  let maxOcc : ℝ := (params.length : ℝ) / 2
  let dist := signedDist l0 l1 pt
  let occ1 : Py ℝ := match cdf with
    | .sigmoid => multiCdf sigmoidCdf dist params
    | .cauchy => multiCdf cauchyCdf dist params
    | .other => .error .valueError
  match occ1 with
  | .error e => .error e
  | .ok o => .ok (o, maxOcc - o)

/-- The gamma factor used for the widths.
Models simcats/ideal_csd/geometric/_get_electron_occupation.py:131-140. -/
noncomputable def gammaFactor (cdf : CdfType) (gf : Option ℝ) : Py ℝ :=
  match gf with
  | some g => .ok g
  | none => match cdf with
    | .sigmoid => .ok 2.2
    | .cauchy => .ok 6.15
    | .other => .error .valueError

/-- The entries of `range(0, len, 2)` of a list.
Auxiliary definition, used for simcats/ideal_csd/geometric/_get_electron_occupation.py:221-232. -/
def everyOther {α : Type} : List α → List α
  | [] => []
  | [a] => [a]
  | a :: _ :: rest => a :: everyOther rest

/-- The flat list of CDF parameters (position and width of every interdot transition of a region).
Models simcats/ideal_csd/geometric/_get_electron_occupation.py:221-232. -/
noncomputable def occParams (l0 l1 : ℝ × ℝ) (gf : ℝ) (rows : List Anchor) : List ℝ :=
  (everyOther rows).flatMap fun a =>
    [signedDist l0 l1 a.center, (signedDist l0 l1 a.right - signedDist l0 l1 a.left) / gf]

/-- Occupation of a point in region `reg`; region 0 is skipped and keeps the initial (0, 0).  A key missing in
`bezier_coords` is an `IndexError`.
Models simcats/ideal_csd/geometric/_get_electron_occupation.py:199-251 (one region, one of its pixels). -/
noncomputable def regionOcc (coords : ℕ → Option (List Anchor)) (cdf : CdfType) (gf : ℝ) (reg : ℕ) (pt : ℝ × ℝ) :
    Py (ℝ × ℝ) :=
  if reg = 0 then .ok (0, 0)
  else match coords (reg + 1), coords reg with
    | some upper, some rows =>
      match upper[1]?, rows[0]? with
      | some valley, some peak =>
        occupationFunc valley.center peak.center (occParams valley.center peak.center gf rows) cdf pt
      | _, _ => .error .indexError
    | _, _ => .error .indexError

open Classical in
/-- `np.unique(mask)`: the distinct values of an array in ascending order (finite pixel set).
Library function, used in simcats/ideal_csd/geometric/_get_electron_occupation.py:199. -/
noncomputable def uniqueSorted {ι : Type} [Fintype ι] (mask : ι → ℕ) : List ℕ :=
  (Finset.univ.image mask).sort (· ≤ ·)

/-- The exception raised by the first failing pixel group, if any: regions ascending, within a region any pixel.
Auxiliary definition, used for the loop simcats/ideal_csd/geometric/_get_electron_occupation.py:200-251. -/
noncomputable def firstError {ι : Type} (f : ℕ → ι → Py (ℝ × ℝ)) (mask : ι → ℕ) : List ℕ → Option PyErr
  | [] => none
  | reg :: rest =>
    open Classical in
    if h : ∃ e, ∃ i, mask i = reg ∧ f reg i = .error e then some h.choose else firstError f mask rest

/-- The final loop over the regions of the mask.
Models simcats/ideal_csd/geometric/_get_electron_occupation.py:199-253. -/
noncomputable def occupationsOfMask {ι : Type} [Fintype ι] (coords : ℕ → Option (List Anchor)) (cdf : CdfType) (gf : ℝ)
    (pts : ι → ℝ × ℝ) (mask : ι → ℕ) : Py (ι → ℝ × ℝ) :=
  match firstError (fun reg i => regionOcc coords cdf gf reg (pts i)) mask (uniqueSorted mask) with
  | some e => .error e
  | none => .ok fun i =>
    match regionOcc coords cdf gf (mask i) (pts i) with
    | .ok o => o
    | .error _ => (0, 0)

/-- The dictionary of `initialize_tct_functions(tct_params, max_peaks)`, in insertion order: key `max_peaks + i` holds
`tct_bezier` with the i-th parameters and `max_peaks + i` peaks.
Models simcats/ideal_csd/geometric/_initialize_tct_functions.py:45-65. -/
def tctDict (params : List TctParams) (maxPeaks : ℕ) : List (ℕ × TctParams) :=
  (params.zipIdx).map fun (p, i) => (maxPeaks + i, p)

/-- The region loop of a 2D scan for one representative point (already rotated back): walk the transitions in
ascending order while they are at or below the point.
Models simcats/ideal_csd/geometric/_get_electron_occupation.py:170-178. -/
noncomputable def regionLoop2d (lut : Option ℕ) (pt : ℝ × ℝ) : List (ℕ × TctParams) → ℕ → Py ℕ
  | [], regVal => .ok regVal
  | (k, p) :: rest, regVal =>
    match tctBezierAt p lut (some k) pt.1 with
    | .error e => .error e
    | .ok y => if y ≤ pt.2 then regionLoop2d lut pt rest k else .ok regVal

/-- The region loop of a 1D scan for all points (already rotated back): transitions in descending order, every
pixel below the transition is overwritten.
Models simcats/ideal_csd/geometric/_get_electron_occupation.py:187-196. -/
noncomputable def regionLoop1d {ι : Type} (lut : Option ℕ) (pts : ι → ℝ × ℝ) :
    List (ℕ × TctParams) → (ι → ℕ) → Py (ι → ℕ)
  | [], mask => .ok mask
  | (k, p) :: rest, mask =>
    match tctBezier p lut (some k) (fun i => (pts i).1) with
    | .error e => .error e
    | .ok y => regionLoop1d lut pts rest fun i => if (pts i).2 < y i then k - 1 else mask i

/-- Everything `get_electron_occupation` needs besides the image.
Models simcats/ideal_csd/geometric/_ideal_csd_geometric_class.py:56-60 (the attributes of `IdealCSDGeometric`). -/
structure IdealCfg where
  params : List TctParams
  rotation : ℝ
  lut : Option ℕ
  cdf : CdfType
  gf : Option ℝ

/-- `get_electron_occupation` for a 1D scan (csd all zero).  The pixel voltages are
`linspace(g1, n)`, `linspace(g2, n)`.
Models simcats/ideal_csd/geometric/_get_electron_occupation.py:131-253 (branch `csd.ndim == 1`) with the dictionaries
built in _ideal_csd_geometric.py:130-136. -/
noncomputable def occupation1d (cfg : IdealCfg) (n : ℕ) (pts : Fin n → ℝ × ℝ) : Py (Fin n → ℝ × ℝ) :=
  match gammaFactor cfg.cdf cfg.gf with
  | .error e => .error e
  | .ok gf =>
    match regionLoop1d cfg.lut (fun i => rotatePoint (-cfg.rotation) (pts i)) (tctDict cfg.params 1).reverse
        (fun _ => 0) with
    | .error e => .error e
    | .ok mask => occupationsOfMask (allAnchors cfg.params 1 cfg.rotation) cfg.cdf gf pts mask

open Classical in
/-- The region mask of a 2D scan: labelled pixels keep their label, every other pixel gets the value of the
representative (`rep`) of its connected region.  `rep` stands for the labelling of diplib and the choice of the first
pixel of a label (`np.where(...)[..][0]`).
Models simcats/ideal_csd/geometric/_get_electron_occupation.py:152-179. -/
noncomputable def mask2d {ι : Type} (cfg : IdealCfg) (pts : ι → ℝ × ℝ) (lead : ι → ℕ) (rep : ι → ι) : Py (ι → ℕ) :=
  let val := fun i => regionLoop2d cfg.lut (rotatePoint (-cfg.rotation) (pts (rep i))) (tctDict cfg.params 1) 0
  if h : ∃ e, ∃ i, lead i = 0 ∧ val i = .error e then .error h.choose
  else .ok fun i => if lead i ≠ 0 then lead i else match val i with
    | .ok r => r
    | .error _ => 0

/-- `get_electron_occupation` for a 2D scan with the lead transition mask `lead`.
Models simcats/ideal_csd/geometric/_get_electron_occupation.py:131-253 (branch `csd.ndim == 2`). -/
noncomputable def occupation2d {ι : Type} [Fintype ι] (cfg : IdealCfg) (pts : ι → ℝ × ℝ) (lead : ι → ℕ) (rep : ι → ι) :
    Py (ι → ℝ × ℝ) :=
  match gammaFactor cfg.cdf cfg.gf with
  | .error e => .error e
  | .ok gf =>
    match mask2d cfg pts lead rep with
    | .error e => .error e
    | .ok mask => occupationsOfMask (allAnchors cfg.params 1 cfg.rotation) cfg.cdf gf pts mask

end SimCATS
