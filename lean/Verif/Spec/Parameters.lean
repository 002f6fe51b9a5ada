import Verif.Model.Parameters

/-!
What the documentation says about the parameters of the components.
-/

namespace SimCATS.Spec

/-- The documented parameters (arguments of the constructor, which are also attributes). -/
def params : Component → List String
  | .peakGaussian => ["mu0", "sigma", "height", "offset"]
  | .peakLorentzian => ["mu0", "gamma", "height", "offset"]
  | .riseGlf => ["mu0", "asymptote_left", "asymptote_right", "growth_rate", "asymmetry", "shape_factor",
      "denominator_offset", "fully_conductive_percentage"]
  | .barrierGlf => ["pinch_off_percentage", "fully_conductive_percentage", "asymptote_left", "asymptote_right",
      "growth_rate", "asymmetry", "shape_factor", "denominator_offset", "offset"]
  | .barrierMultiGlf => ["pinch_off", "fully_conductive", "params"]
  | .circle => ["radius"]
  | .linear => ["angle"]
  | .whiteNoise => ["sigma", "rng"]
  | .pinkNoise => ["sigma", "fmin", "rng"]
  | .fermiBlur => ["sigma"]
  | .gaussBlur => ["sigma"]
  | .dotJumps => ["scale", "lam", "axis", "ratio", "rng"]
  | .telegraph => ["scale", "std", "height", "ratio", "rng"]
  | .idealGeometric => ["tct_params", "rotation", "lut_entries", "cdf_type", "cdf_gamma_factor"]

/-- The parameters that have to be positive. -/
def mustBePositive : Component → List String
  | .peakGaussian => ["sigma"]
  | .peakLorentzian => ["gamma"]
  | .riseGlf => ["asymmetry"]
  | .barrierGlf => ["asymmetry"]
  | _ => []

/-- The parameters that have to consist of groups of seven numbers. -/
def mustBeGroups : Component → List String
  | .barrierMultiGlf => ["params"]
  | _ => []

/-- The value `v` meets the documented requirements on the parameter `n`. -/
def Allowed (k : Component) (n : String) (v : PVal) : Prop :=
  (n ∈ mustBePositive k → ∃ x : ℝ, v = .num x ∧ 0 < x) ∧
  (n ∈ mustBeGroups k → ∃ l : List ℝ, v = .seq l ∧ 7 ∣ l.length)

/-- What a component reports about its last use; it has no value before the first use. -/
def reports : Component → List String
  | .whiteNoise => ["latest_sigma"]
  | .pinkNoise => ["latest_sigma"]
  | .fermiBlur => ["latest_sigma"]
  | .gaussBlur => ["latest_sigma"]
  | .dotJumps => ["activated"]
  | .telegraph => ["activated"]
  | _ => []

/-- What a component computes from its parameters. -/
def computed : Component → List String
  | .riseGlf => ["fully_conductive"]
  | .barrierGlf => ["pinch_off", "fully_conductive"]
  | _ => []

open Classical in
/-- The last allowed value that a program assigns to `n`; `start` if there is none. -/
noncomputable def lastAllowed (k : Component) (n : String) (start : PVal) (prog : List (String × PVal)) : PVal :=
  (((prog.filter fun a => a.1 = n).map Prod.snd).filter fun v => Allowed k n v).getLastD start

end SimCATS.Spec
