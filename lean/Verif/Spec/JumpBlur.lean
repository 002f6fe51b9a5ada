import Verif.Model.DotJumps
import Verif.Model.Blur
import Verif.Spec.DotJumps

/-! Specification of dot jumps in blurred scans. -/

namespace SimCATS.Spec

/-- The generator that a distortion after `blur` gets: scans of `gen` with the frozen blurring. -/
noncomputable def behindBlur {τ : Type} (blur : Blur τ) (gen : Gen (Option ℝ × τ)) : Gen (DotState × (Option ℝ × τ)) :=
  fun v1 v2 res => onRest (withNoise gen blur.noiseFunction v1 v2 res)

/-- The ranges of a 1D scan shifted by `d` steps along the axis of the jumps. -/
noncomputable def shiftedLims (axis : Axis) (g1 g2 : ℝ × ℝ) (step : ℝ) (d : ℕ) : (ℝ × ℝ) × (ℝ × ℝ) :=
  match axis with
  | .g1 => ((g1.1 - d * step, g1.2 - d * step), g2)
  | .g2 => (g1, (g2.1 - d * step, g2.2 - d * step))

/-- `x` is the value at the voltages `v1`, `v2` in a sweep of gate 1 over the field `F` (of any length and step) that is blurred with
the kernel `K`. -/
def BlurredAt (K : Kernel) (F : ℝ → ℝ → ℝ × ℝ) (v1 v2 : ℝ) (x : ℝ × ℝ) : Prop :=
  ∃ (n : ℕ) (step : ℝ) (p : Fin n),
    x = (convolve K (fun q : Fin n => (F (v1 + ((q : ℝ) - p) * step) v2).1) p, convolve K (fun q : Fin n => (F (v1 + ((q : ℝ) - p) * step) v2).2) p)

/-- The value of a pixel of a row that is blurred with the kernel `K`. -/
noncomputable def blurredRow (K : Kernel) {n : ℕ} (f : Fin n → ℝ × ℝ) (p : Fin n) : ℝ × ℝ :=
  (convolve K (fun q => (f q).1) p, convolve K (fun q => (f q).2) p)

/-- The image of the field `F` with rows blurred with the kernel `K`. -/
noncomputable def blurredImage (K : Kernel) (F : ℝ → ℝ → ℝ × ℝ) (g1 g2 : ℝ × ℝ) (r c : ℕ) (i : Fin r) (j : Fin c) : ℝ × ℝ :=
  blurredRow K (fun q : Fin c => F (sweepVolt g1 c q) (sweepVolt g2 r i)) j

end SimCATS.Spec
