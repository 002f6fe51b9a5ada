import Verif.Model.Occupation

/-!
Models of simcats/ideal_csd/geometric/_generate_lead_transition_mask.py.
-/

namespace SimCATS

/-- Storing a non-negative float in a `uint8` array: truncation, wrap-around at 256.
Library function, used in simcats/ideal_csd/geometric/_generate_lead_transition_mask.py:31, 82. -/
noncomputable def toUint8 (x : ℝ) : ℕ := ⌊x⌋₊ % 256

/-- One iteration of the 1D loop, for an index where the total occupation changes.
Models simcats/ideal_csd/geometric/_generate_lead_transition_mask.py:36-40. -/
noncomputable def leadStep1d (total : ℕ → ℝ) (res : ℕ → ℕ) (id : ℕ) : ℕ → ℕ :=
  if total id < total (id + 1) then Function.update res (id + 1) (toUint8 (total (id + 1)))
  else Function.update res id (toUint8 (total id))

open Classical in
/-- `generate_lead_transition_mask_1d` on the summed occupations of `n` pixels (arrays are functions of the pixel
index; entries at indices `≥ n` are meaningless).
Models simcats/ideal_csd/geometric/_generate_lead_transition_mask.py:29-42. -/
noncomputable def leadMask1d (n : ℕ) (total : ℕ → ℝ) : ℕ → ℕ :=
  ((List.range (n - 1)).filter fun id => total id ≠ total (id + 1)).foldl (leadStep1d total) fun _ => 0

/-- `x_step` / `y_step`. Models simcats/ideal_csd/geometric/_generate_lead_transition_mask.py:91-92. -/
noncomputable def pixStep (lim : ℝ × ℝ) (res : ℕ) : ℝ := (lim.2 - lim.1) / ((res : ℝ) - 1)

/-- x coordinates of the four corners of the image, rotated into the space of the transitions.
Models simcats/ideal_csd/geometric/_generate_lead_transition_mask.py:98-101. -/
noncomputable def cornersX (rotation : ℝ) (xl yl : ℝ × ℝ) : List ℝ :=
  [(xl.1, yl.1), (xl.1, yl.2), (xl.2, yl.1), (xl.2, yl.2)].map fun c => (rotatePoint (-rotation) c).1

/-- `np.min` of a non-empty list of floats.
Library function, used in simcats/ideal_csd/geometric/_generate_lead_transition_mask.py:105. -/
noncomputable def listMin : List ℝ → ℝ
  | [] => 0
  | a :: l => l.foldl min a

/-- `np.max` of a non-empty list of floats.
Library function, used in simcats/ideal_csd/geometric/_generate_lead_transition_mask.py:105. -/
noncomputable def listMax : List ℝ → ℝ
  | [] => 0
  | a :: l => l.foldl max a

/-- x values at which every transition is sampled.
Models simcats/ideal_csd/geometric/_generate_lead_transition_mask.py:104-105. -/
noncomputable def sampleXs (rotation : ℝ) (xl yl : ℝ × ℝ) (xRes yRes : ℕ) : Fin ((xRes + yRes) * 4) → ℝ :=
  linspace (listMin (cornersX rotation xl yl) - pixStep xl xRes) (listMax (cornersX rotation xl yl) + pixStep xl xRes)
    ((xRes + yRes) * 4)

/-- The selection of points inside the image.
Models simcats/ideal_csd/geometric/_generate_lead_transition_mask.py:117-122. -/
def inImage (xl yl : ℝ × ℝ) (xs ys : ℝ) (p : ℝ × ℝ) : Prop :=
  p.1 > xl.1 - 0.5 * xs ∧ p.1 < xl.2 + 0.5 * xs ∧ p.2 > yl.1 - 0.5 * ys ∧ p.2 < yl.2 + 0.5 * ys

/-- Pixel index of a coordinate (`np.floor_divide`, then `astype(int)`).
Models simcats/ideal_csd/geometric/_generate_lead_transition_mask.py:132-133. -/
noncomputable def pixId (lo step c : ℝ) : ℤ := ⌊(c + 0.5 * step - lo) / step⌋

/-- The pixels written for one transition, given its sampled points in voltage space, in order (row, column).
Models simcats/ideal_csd/geometric/_generate_lead_transition_mask.py:116-133. -/
noncomputable def tctPixels (xl yl : ℝ × ℝ) (xRes yRes : ℕ) (pts : List (ℝ × ℝ)) : List (ℤ × ℤ) :=
  let xs := pixStep xl xRes
  let ys := pixStep yl yRes
  open Classical in
  (pts.filter fun p => inImage xl yl xs ys p).map fun p => (pixId yl.1 ys p.2, pixId xl.1 xs p.1)

/-- `csd_result[y_id, x_id] = tct_value` for an image of `yRes` rows and `xRes` columns: numpy wraps negative indices
once and raises `IndexError` for indices outside.
Models simcats/ideal_csd/geometric/_generate_lead_transition_mask.py:134. -/
def writePixel (xRes yRes : ℕ) (img : ℤ × ℤ → ℕ) (id : ℤ × ℤ) (v : ℕ) : Py (ℤ × ℤ → ℕ) :=
  let wrap (n : ℕ) (i : ℤ) : ℤ := if i < 0 then i + n else i
  let r := wrap yRes id.1
  let c := wrap xRes id.2
  if r < 0 ∨ (yRes : ℤ) ≤ r ∨ c < 0 ∨ (xRes : ℤ) ≤ c then .error .indexError
  else .ok (Function.update img (r, c) v)

/-- All writes of one transition.
Models simcats/ideal_csd/geometric/_generate_lead_transition_mask.py:134. -/
def writePixels (xRes yRes : ℕ) (v : ℕ) : List (ℤ × ℤ) → (ℤ × ℤ → ℕ) → Py (ℤ × ℤ → ℕ)
  | [], img => .ok img
  | id :: rest, img =>
    match writePixel xRes yRes img id v with
    | .error e => .error e
    | .ok img' => writePixels xRes yRes v rest img'

/-- The sampled points of one transition, rotated into voltage space.
Models simcats/ideal_csd/geometric/_generate_lead_transition_mask.py:111-114. -/
noncomputable def tctSamples (rotation : ℝ) (lut : Option ℕ) (xl yl : ℝ × ℝ) (xRes yRes : ℕ) (kp : ℕ × TctParams) :
    Py (List (ℝ × ℝ)) :=
  let xs := sampleXs rotation xl yl xRes yRes
  match tctBezier kp.2 lut (some kp.1) xs with
  | .error e => .error e
  | .ok y => .ok (List.ofFn fun i => rotatePoint rotation (xs i, y i))

/-- The loop over the transitions.
Models simcats/ideal_csd/geometric/_generate_lead_transition_mask.py:109-134 (values are stored as `uint8`, the model
assumes fewer than 256 transitions). -/
noncomputable def leadLoop2d (rotation : ℝ) (lut : Option ℕ) (xl yl : ℝ × ℝ) (xRes yRes : ℕ) :
    List (ℕ × TctParams) → (ℤ × ℤ → ℕ) → Py (ℤ × ℤ → ℕ)
  | [], img => .ok img
  | kp :: rest, img =>
    match tctSamples rotation lut xl yl xRes yRes kp with
    | .error e => .error e
    | .ok pts =>
      match writePixels xRes yRes kp.1 (tctPixels xl yl xRes yRes pts) img with
      | .error e => .error e
      | .ok img' => leadLoop2d rotation lut xl yl xRes yRes rest img'

/-- `generate_lead_transition_mask_2d` on an all-zero image, indexed by (row, column).
Models simcats/ideal_csd/geometric/_generate_lead_transition_mask.py:81-136. -/
noncomputable def leadMask2d (cfg : IdealCfg) (xl yl : ℝ × ℝ) (xRes yRes : ℕ) : Py (ℤ × ℤ → ℕ) :=
  leadLoop2d cfg.rotation cfg.lut xl yl xRes yRes (tctDict cfg.params 1) fun _ => 0

end SimCATS
