import Verif.Model.Support
import Mathlib.Algebra.Order.Floor.Ring
import Mathlib.Data.List.MinMax

/-!
Model of `tct_bezier` and of the anchor computation.
-/

namespace SimCATS

/-- The eight TCT parameters `tct_params[0..7]`.
Models the parameter list in simcats/ideal_csd/geometric/_tct_bezier.py:31-39. -/
structure TctParams where
  lenL : ℝ
  lenR : ℝ
  gradL : ℝ
  gradR : ℝ
  x0 : ℝ
  y0 : ℝ
  x2 : ℝ
  y2 : ℝ

/-- The centre anchor, before the assertions.
Models simcats/ideal_csd/geometric/_tct_bezier.py:66-75.
Equal slopes divide by zero: numpy yields inf/nan, for which the assertion of line 79 fails. -/
noncomputable def tctCenterRaw (p : TctParams) : Py (ℝ × ℝ) :=
  if p.x0 = p.x2 ∧ p.y0 = p.y2 then .ok (p.x0, p.y0)
  else if p.gradR - p.gradL = 0 then .error .assertionError
  else
    let xc := (p.y0 - p.y2 + p.x2 * p.gradR - p.x0 * p.gradL) / (p.gradR - p.gradL)
    .ok (xc, p.y0 + p.gradL * (xc - p.x0))

/-- The centre anchor with both assertions.
Models simcats/ideal_csd/geometric/_tct_bezier.py:66-81. -/
noncomputable def tctCenter (p : TctParams) : Py (ℝ × ℝ) :=
  match tctCenterRaw p with
  | .error e => .error e
  | .ok c =>
    if ¬(c.1 ≥ p.x0 ∧ c.1 ≤ p.x2) then .error .assertionError
    else if ¬(p.lenL ≥ 2 * (c.1 - p.x0) ∧ p.lenR ≥ 2 * (p.x2 - c.1)) then .error .assertionError
    else .ok c

/-- x coordinate of the quadratic Bezier curve at parameter `s` (`bezier_curve.evaluate_multi`).
Library function (bezier), used in simcats/ideal_csd/geometric/_tct_bezier.py:86-93. -/
def bezCoord (a b c s : ℝ) : ℝ := (1 - s) ^ 2 * a + 2 * s * (1 - s) * b + s ^ 2 * c

/-- Coefficients of `(1, s, s^2)` of a quadratic Bezier coordinate, lowest first.
Library function (bezier), used in simcats/ideal_csd/geometric/_tct_bezier.py:86-93. -/
def bezCoeffs (a b c : ℝ) : ℝ × ℝ × ℝ := (a, 2 * (b - a), a - 2 * b + c)

/-- Coefficients (of `1`, `y`, `y^2`) of the implicit equation of the quadratic Bezier curve at abscissa `x`:
the resultant in `s` of `x(s) - x` and `y(s) - y`.
Models `bezier_curve.implicitize()` (library `bezier`) used in simcats/ideal_csd/geometric/_tct_bezier.py:93. -/
def implicitCoeffs (p : TctParams) (c : ℝ × ℝ) (x : ℝ) : ℝ × ℝ × ℝ :=
  let cx := bezCoeffs p.x0 c.1 p.x2
  let cy := bezCoeffs p.y0 c.2 p.y2
  let ax := cx.2.2
  let bx := cx.2.1
  let ay := cy.2.2
  let by' := cy.2.1
  let X := cx.1 - x
  let c0 := cy.1
  let k := ax * by' - ay * bx
  -- (ax*(c0-y) - ay*X)^2 - k*(bx*(c0-y) - by*X)
  ((ax * c0 - ay * X) ^ 2 - k * (bx * c0 - by' * X),
    -(2 * ax * (ax * c0 - ay * X)) + k * bx,
    ax ^ 2)

/-- The value chosen by the explicit evaluation: the larger of the two roots in `y`, or the only root.
Models simcats/ideal_csd/geometric/_tct_bezier.py:92-94 and 147-158.
Simplification: if the implicit equation had no real root, numpy would fail on complex numbers; the theorem
`C09_discriminant_nonneg` shows that this does not happen in the segment. -/
noncomputable def explicitRoot (p : TctParams) (c : ℝ × ℝ) (x : ℝ) : ℝ :=
  let f := implicitCoeffs p c x
  if f.2.2 = 0 then -f.1 / f.2.1
  else
    let d := Real.sqrt (f.2.1 ^ 2 - 4 * f.2.2 * f.1)
    max ((-f.2.1 + d) / (2 * f.2.2)) ((-f.2.1 - d) / (2 * f.2.2))

/-- The value chosen by the lookup table evaluation: the ordinate of the first table entry whose abscissa is closest.
Models simcats/ideal_csd/geometric/_tct_bezier.py:89-90 and 143-145. -/
noncomputable def lutValue (p : TctParams) (c : ℝ × ℝ) (n : ℕ) (x : ℝ) : ℝ :=
  match (List.range n).argmin (fun i => |bezCoord p.x0 c.1 p.x2 (linAt 0 1 n i) - x|) with
  | some i => bezCoord p.y0 c.2 p.y2 (linAt 0 1 n i)
  | none => 0

/-- Evaluation of the Bezier part; `lut_entries` 0 is falsy in Python and means explicit evaluation.
Models the tests `if lut_entries:` in simcats/ideal_csd/geometric/_tct_bezier.py:88, 143 and 170. -/
noncomputable def bezierValue (p : TctParams) (c : ℝ × ℝ) (lut : Option ℕ) (x : ℝ) : ℝ :=
  match lut with
  | some (n + 1) => lutValue p c (n + 1) x
  | _ => explicitRoot p c x

/-- `y_offset_inv_bezier`. Models simcats/ideal_csd/geometric/_tct_bezier.py:110. -/
def yOffInv (p : TctParams) (c : ℝ × ℝ) : ℝ :=
  (p.y2 + (p.lenR - 2 * (p.x2 - c.1)) * p.gradR) - (-1 * p.y2)

/-- `y_offset_period`. Models simcats/ideal_csd/geometric/_tct_bezier.py:114. -/
def yOffPeriod (p : TctParams) (c : ℝ × ℝ) : ℝ :=
  p.y0 - ((yOffInv p c - p.y0) + (p.lenL - 2 * (c.1 - p.x0)) * p.gradL)

/-- One iteration of the loop over the periodic part at absolute position `x`; `bez` evaluates the Bezier curve.
Models simcats/ideal_csd/geometric/_tct_bezier.py:98-106 and 137-199. -/
noncomputable def waveValue (p : TctParams) (c : ℝ × ℝ) (bez : ℝ → ℝ) (x : ℝ) : ℝ :=
  let bl := p.x2 - p.x0
  let rl := p.lenR - 2 * (p.x2 - c.1)
  let per := p.lenL + p.lenR
  let xe := x - p.x0
  let no : ℝ := (⌊xe / per⌋ : ℤ)
  let xm := xe - per * no
  (if xm < bl then bez (xm + p.x0)
    else if xm < bl + rl then p.y2 + (xm - bl) * p.gradR
    else if xm < bl * 2 + rl then -1 * bez (2 * bl + rl - xm + p.x0) + yOffInv p c
    else (yOffInv p c - p.y0) + (xm - (bl * 2 + rl)) * p.gradL) - yOffPeriod p c * no

/-- `x_range_wave[1]`. Models simcats/ideal_csd/geometric/_tct_bezier.py:124. -/
def waveEnd (p : TctParams) (mp : ℕ) : ℝ := p.x2 + ((mp : ℝ) - 1) * (p.lenL + p.lenR)

/-- Is `x` outside of the wave range? Models simcats/ideal_csd/geometric/_tct_bezier.py:117-130. -/
def outsideWave (p : TctParams) (maxPeaks : Option ℕ) (x : ℝ) : Prop :=
  match maxPeaks with
  | none => False
  | some mp => ¬(x ≥ p.x0 ∧ x ≤ waveEnd p mp)

open Classical in
/-- The value of one entry; `outer` says whether some entry of the array is outside of the wave range
(`ids_wave.size < x_eval.size`). The later assignments of lines 205 and 211 win over the earlier ones.
Models simcats/ideal_csd/geometric/_tct_bezier.py:117-211. -/
noncomputable def tctEntry (p : TctParams) (c : ℝ × ℝ) (bez : ℝ → ℝ) (maxPeaks : Option ℕ) (outer : Prop)
    (x : ℝ) : ℝ :=
  match maxPeaks with
  | none => waveValue p c bez x
  | some mp =>
    let lo := p.x0
    let hi := waveEnd p mp
    let r0 := if x ≥ lo ∧ x ≤ hi then waveValue p c bez x else 0
    if outer then
      let r1 := if x ≤ lo then p.y0 + (x - lo) * p.gradL else r0
      if x ≥ hi then
        (p.y0 - ((mp : ℝ) - 1) * yOffPeriod p c + (p.y2 - p.y0)) + (x - hi) * p.gradR
      else r1
    else r0

/-- `tct_bezier(tct_params, x_eval, lut_entries, max_peaks)` for an array of floats with index set `ι`.
Models simcats/ideal_csd/geometric/_tct_bezier.py:19-216.
Simplification: a zero period (division by zero in line 139) is totalised; the theorems exclude it. -/
noncomputable def tctBezier {ι : Type} (p : TctParams) (lut maxPeaks : Option ℕ) (xs : ι → ℝ) : Py (ι → ℝ) :=
  match tctCenter p with
  | .error e => .error e
  | .ok c => .ok fun i => tctEntry p c (bezierValue p c lut) maxPeaks (∃ j, outsideWave p maxPeaks (xs j)) (xs i)

/-- `tct_bezier` for a single number: a one-element array is evaluated and its entry returned.
Models simcats/ideal_csd/geometric/_tct_bezier.py:53-58 and 213-216. -/
noncomputable def tctBezierAt (p : TctParams) (lut maxPeaks : Option ℕ) (x : ℝ) : Py ℝ :=
  match tctBezier p lut maxPeaks (fun _ : Unit => x) with
  | .error e => .error e
  | .ok y => .ok (y ())

/-! ### Anchors -/

/-- One row of `temp_bezier_coords`: left, centre and right anchor.
Models simcats/ideal_csd/geometric/_calculate_all_bezier_anchors.py:84-94. -/
structure Anchor where
  left : ℝ × ℝ
  center : ℝ × ℝ
  right : ℝ × ℝ

/-- The first row. The centre is always computed with the intersection formula.
Models simcats/ideal_csd/geometric/_calculate_all_bezier_anchors.py:67-80. -/
noncomputable def firstAnchor (p : TctParams) : Anchor :=
  let cx := (p.y0 - p.y2 + p.x2 * p.gradR - p.x0 * p.gradL) / (p.gradR - p.gradL)
  ⟨(p.x0, p.y0), (cx, p.y0 + p.gradL * (cx - p.x0)), (p.x2, p.y2)⟩

/-- The update at the end of iteration `i`; `xdl`, `xdr` are the x distances of the first row.
Models simcats/ideal_csd/geometric/_calculate_all_bezier_anchors.py:97-114. -/
noncomputable def stepAnchor (p : TctParams) (xdl xdr : ℝ) (i : ℕ) (a : Anchor) : Anchor :=
  if i % 2 ≠ 0 then
    let cx := a.center.1 + p.lenL
    let cy := a.center.2 + p.lenL * p.gradL
    ⟨(cx - xdl, cy - xdl * p.gradL), (cx, cy), (cx + xdr, cy + xdr * p.gradR)⟩
  else
    let cx := a.center.1 + p.lenR
    let cy := a.center.2 + p.lenR * p.gradR
    ⟨(cx - xdr, cy - xdr * p.gradR), (cx, cy), (cx + xdl, cy + xdl * p.gradL)⟩

/-- The loop: `n` rows starting with iteration `i` and current anchors `a`.
Models simcats/ideal_csd/geometric/_calculate_all_bezier_anchors.py:87-114. -/
noncomputable def anchorLoop (p : TctParams) (xdl xdr : ℝ) : (n i : ℕ) → Anchor → List Anchor
  | 0, _, _ => []
  | n + 1, i, a => a :: anchorLoop p xdl xdr n (i + 1) (stepAnchor p xdl xdr i a)

/-- The unrotated anchors of the transition with `mp = max_peaks + wf_id` peaks.
Models simcats/ideal_csd/geometric/_calculate_all_bezier_anchors.py:62-114. -/
noncomputable def anchorsRaw (p : TctParams) (mp : ℕ) : List Anchor :=
  let f := firstAnchor p
  anchorLoop p (f.center.1 - f.left.1) (f.right.1 - f.center.1) (mp * 2 - 1) 0 f

/-- Rotation of a row. Models simcats/ideal_csd/geometric/_calculate_all_bezier_anchors.py:117-119. -/
noncomputable def Anchor.rotate (angle : ℝ) (a : Anchor) : Anchor :=
  ⟨rotatePoint angle a.left, rotatePoint angle a.center, rotatePoint angle a.right⟩

/-- The dictionary returned by `calculate_all_bezier_anchors(tct_params, max_peaks, rotation)` as a lookup function:
key `wf_id + max_peaks` for the `wf_id`-th parameter set.
Models simcats/ideal_csd/geometric/_calculate_all_bezier_anchors.py:58-124. -/
noncomputable def allAnchors (params : List TctParams) (maxPeaks : ℕ) (rotation : ℝ) (key : ℕ) :
    Option (List Anchor) :=
  if maxPeaks ≤ key then
    (params[key - maxPeaks]?).map fun p => (anchorsRaw p key).map (Anchor.rotate rotation)
  else none

end SimCATS
