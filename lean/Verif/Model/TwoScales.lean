import Verif.Model.Telegraph

/-!
Model of the telegraph noise with separate scales for regions with and without bursts
(simcats/distortions/_random_telegraph_noise.py:317-364).
-/

namespace SimCATS

/-- `1 / scale` for a Python number.
Library function, used in simcats/distortions/_random_telegraph_noise.py:352 and 357. -/
noncomputable def invScale (scale : ℝ) : Py ℝ := open Classical in if scale = 0 then .error .zeroDivisionError else .ok (1 / scale)

/-- The loop that appends one region after the other until all pixels have a value; `burst` is the state `bi`.
Models simcats/distortions/_random_telegraph_noise.py:347-361. -/
noncomputable def twoScaleLoop {τ : Type} (rng : Rng τ) (scaleBurst scaleNoBurst std height : ℝ) (size : ℕ) :
    ℕ → Bool → List ℝ → M τ (List ℝ)
  | 0, _, noise => pure noise
  | todo + 1, false, noise => do
    let p ← ofPy (invScale scaleNoBurst)
    let w ← rng.geometric p 1
    let noise' := noise ++ List.replicate (w 0) 0
    if size ≤ noise'.length then pure noise' else twoScaleLoop rng scaleBurst scaleNoBurst std height size todo true noise'
  | todo + 1, true, noise => do
    let p ← ofPy (invScale scaleBurst)
    let w ← rng.geometric p 1
    let a ← rng.normal height std
    let noise' := noise ++ List.replicate (w 0) (1 * a)
    if size ≤ noise'.length then pure noise' else twoScaleLoop rng scaleBurst scaleNoBurst std height size todo false noise'

/-- `_random_telegraph_noise_two_scales(original, scale_burst, scale_no_burst, std, height, rng)`.
Models simcats/distortions/_random_telegraph_noise.py:342-364. -/
noncomputable def telegraphTwoScales {τ : Type} (rng : Rng τ) (x : Scan ℝ) (scaleBurst scaleNoBurst std height : ℝ) : M τ (Scan ℝ) :=
  open Classical in
  if scaleBurst = 0 then pure x
  else do
    let noise ← twoScaleLoop rng scaleBurst scaleNoBurst std height x.size x.size false []
    ofPy (addNoise x (noise.take x.size))

end SimCATS
