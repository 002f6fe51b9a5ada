import Mathlib.Data.Real.Basic

/-!
The printed forms (`__repr__`) of the objects of the package, as character lists.  Objects are trees: an instance of a
class has a value for every attribute name.
Simplification: elements of tuples are Python numbers; the values of attributes are those that the getters return.
-/

namespace SimCATS

/-- Printing of numbers by Python and of arrays by numpy (library functions); `floats`: the numbers that are floats.
Library function, used in, for instance, simcats/sensor/_sensor_peak_gaussian.py:86 and simcats/sensor/_sensor_generic.py:158. -/
structure Fmt where
  floats : Set ℝ
  num : ℝ → List Char
  int : ℕ → List Char
  arr : List ℝ → List Char

/-- The classes with their own `__repr__`.
Models the class statements of the files named at `PCls.name`, for instance simcats/sensor/_sensor_peak_gaussian.py:13. -/
inductive PCls
  | gaussian
  | lorentzian
  | rise
  | barrier
  | multi
  | circle
  | linear
  | white
  | pink
  | fermi
  | gaussBlur
  | dotJumps
  | potentialRtn
  | responseRtn
  | geometric
  | normalSampler
  | uniformSampler
  | logNormalSampler
  | exponentialSampler
  | sensorGeneric
  | scanSensor
  | simulation
  deriving DecidableEq

/-- `self.__class__.__name__`.
Models simcats/sensor/_sensor_peak_gaussian.py:13, simcats/sensor/_sensor_peak_lorentzian.py:13,
simcats/sensor/_sensor_rise_glf.py:14, simcats/sensor/barrier_function/_barrier_function_glf.py:16,
simcats/sensor/barrier_function/_barrier_function_multi_glf.py:16,
simcats/sensor/deformation/_sensor_peak_deformation_circle.py:14,
simcats/sensor/deformation/_sensor_peak_deformation_linear.py:15, simcats/distortions/_white_noise.py:16,
simcats/distortions/_pink_noise.py:17, simcats/distortions/_transition_blurring.py:17 and 133,
simcats/distortions/_dot_jumps.py:17, simcats/distortions/_random_telegraph_noise.py:175 and 227,
simcats/ideal_csd/geometric/_ideal_csd_geometric_class.py:17, simcats/support_functions/_parameter_sampling.py:42, 114,
168 and 241, simcats/sensor/_sensor_generic.py:17, simcats/sensor/_sensor_scan_sensor_generic.py:25 and
simcats/_simulation.py:23. -/
def PCls.name : PCls → String
  | .gaussian => "SensorPeakGaussian"
  | .lorentzian => "SensorPeakLorentzian"
  | .rise => "SensorRiseGLF"
  | .barrier => "BarrierFunctionGLF"
  | .multi => "BarrierFunctionMultiGLF"
  | .circle => "SensorPeakDeformationCircle"
  | .linear => "SensorPeakDeformationLinear"
  | .white => "SensorResponseWhiteNoise"
  | .pink => "SensorPotentialPinkNoise"
  | .fermi => "OccupationTransitionBlurringFermiDirac"
  | .gaussBlur => "OccupationTransitionBlurringGaussian"
  | .dotJumps => "OccupationDotJumps"
  | .potentialRtn => "SensorPotentialRTN"
  | .responseRtn => "SensorResponseRTN"
  | .geometric => "IdealCSDGeometric"
  | .normalSampler => "NormalSamplingRange"
  | .uniformSampler => "UniformSamplingRange"
  | .logNormalSampler => "LogNormalSamplingRange"
  | .exponentialSampler => "ExponentialSamplingRange"
  | .sensorGeneric => "SensorGeneric"
  | .scanSensor => "SensorScanSensorGeneric"
  | .simulation => "Simulation"

/-- A part of a format string: text, the value of an attribute, the latest value
(`[latest=...]` if it is true, else `[latest=0]`), or `[activated]` or `[deactivated]`.
Auxiliary definition, used for the format strings of, for instance, simcats/distortions/_pink_noise.py:103-104. -/
inductive Piece
  | lit (s : String)
  | attr (n : String)
  | latest (n : String)
  | flag (n : String)
  deriving DecidableEq

/-- The format string of a class, after the class name and the opening parenthesis.
Models simcats/sensor/_sensor_peak_gaussian.py:86, simcats/sensor/_sensor_peak_lorentzian.py:85,
simcats/sensor/_sensor_rise_glf.py:224-227, simcats/sensor/barrier_function/_barrier_function_glf.py:275-279,
simcats/sensor/barrier_function/_barrier_function_multi_glf.py:156,
simcats/sensor/deformation/_sensor_peak_deformation_circle.py:108,
simcats/sensor/deformation/_sensor_peak_deformation_linear.py:76, simcats/distortions/_white_noise.py:89,
simcats/distortions/_pink_noise.py:103-104, simcats/distortions/_transition_blurring.py:129 and 245,
simcats/distortions/_dot_jumps.py:562-563, simcats/distortions/_random_telegraph_noise.py:170-171,
simcats/ideal_csd/geometric/_ideal_csd_geometric_class.py:157, simcats/support_functions/_parameter_sampling.py:110, 165,
236-237 and 321, simcats/sensor/_sensor_generic.py:158, simcats/sensor/_sensor_scan_sensor_generic.py:386-389 and
simcats/_simulation.py:841. -/
def PCls.pieces : PCls → List Piece
  | .gaussian => [.lit "mu0=", .attr "mu0", .lit ", sigma=", .attr "sigma", .lit ", height=", .attr "height",
      .lit ", offset=", .attr "offset", .lit ")"]
  | .lorentzian => [.lit "mu0=", .attr "mu0", .lit ", gamma=", .attr "gamma", .lit ", height=", .attr "height",
      .lit ", offset=", .attr "offset", .lit ")"]
  | .rise => [.lit "mu0=", .attr "mu0", .lit ", asymptote_left=", .attr "asymptote_left", .lit ", asymptote_right=",
      .attr "asymptote_right", .lit ", growth_rate=", .attr "growth_rate", .lit ", asymmetry=", .attr "asymmetry",
      .lit ", shape_factor=", .attr "shape_factor", .lit ", denominator_offset=", .attr "denominator_offset",
      .lit ", fully_conductive_percentage=", .attr "fully_conductive_percentage", .lit ")"]
  | .barrier => [.lit "pinch_off_percentage=", .attr "pinch_off_percentage", .lit ", fully_conductive_percentage=",
      .attr "fully_conductive_percentage", .lit ", asymptote_left=", .attr "asymptote_left", .lit ", asymptote_right=",
      .attr "asymptote_right", .lit ", growth_rate=", .attr "growth_rate", .lit ", asymmetry=", .attr "asymmetry",
      .lit ", shape_factor=", .attr "shape_factor", .lit ", denominator_offset=", .attr "denominator_offset",
      .lit ", offset=", .attr "offset", .lit ")"]
  | .multi => [.lit "pinch_off=", .attr "pinch_off", .lit ", fully_conductive=", .attr "fully_conductive",
      .lit ", *params=", .attr "params"]
  | .circle => [.lit "radius=", .attr "radius", .lit ")"]
  | .linear => [.lit "angle=", .attr "angle", .lit ")"]
  | .white => [.lit "sigma=", .attr "sigma", .lit ", rng=", .attr "rng", .lit ")"]
  | .pink => [.lit "sigma=", .attr "sigma", .latest "latest_sigma", .lit ", fmin=", .attr "fmin", .lit ", rng=",
      .attr "rng", .lit ")"]
  | .fermi => [.lit "sigma=", .attr "sigma", .latest "latest_sigma", .lit ")"]
  | .gaussBlur => [.lit "sigma=", .attr "sigma", .latest "latest_sigma", .lit ")"]
  | .dotJumps => [.lit "scale=", .attr "scale", .lit ", lam=", .attr "lam", .lit ", axis=", .attr "axis",
      .lit ", ratio=", .attr "ratio", .lit ", rng=", .attr "rng", .lit ")", .flag "activated"]
  | .potentialRtn => [.lit "scale=", .attr "scale", .lit ", std=", .attr "std", .lit ", height=", .attr "height",
      .lit ", ratio=", .attr "ratio", .lit ", rng=", .attr "rng", .lit ")", .flag "activated"]
  | .responseRtn => [.lit "scale=", .attr "scale", .lit ", std=", .attr "std", .lit ", height=", .attr "height",
      .lit ", ratio=", .attr "ratio", .lit ", rng=", .attr "rng", .lit ")", .flag "activated"]
  | .geometric => [.lit "tct_params=", .attr "tct_params", .lit ", rotation=", .attr "rotation", .lit ", lut_entries=",
      .attr "lut_entries", .lit ", cdf_type='", .attr "cdf_type", .lit "', cdf_gamma_factor=", .attr "cdf_gamma_factor",
      .lit ")"]
  | .normalSampler => [.lit "last_sample=", .attr "last_sample", .lit ", range=", .attr "range", .lit ", mean=",
      .attr "mean", .lit ", std=", .attr "std", .lit ", rng=", .attr "rng", .lit ")"]
  | .uniformSampler => [.lit "last_sample=", .attr "last_sample", .lit ", range=", .attr "range", .lit ", rng=",
      .attr "rng", .lit ")"]
  | .logNormalSampler => [.lit "last_sample=", .attr "last_sample", .lit ", range=", .attr "range", .lit ", mean=",
      .attr "mean", .lit ", sigma=", .attr "sigma", .lit ", rng=", .attr "rng", .lit ")"]
  | .exponentialSampler => [.lit "last_sample=", .attr "last_sample", .lit ", range=", .attr "range", .lit ", scale=",
      .attr "scale", .lit ", rng=", .attr "rng", .lit ")"]
  | .sensorGeneric => [.lit "sensor_peak_function=", .attr "sensor_peak_function", .lit ", alpha_dot=",
      .attr "alpha_dot", .lit ", alpha_gate=", .attr "alpha_gate", .lit ", offset_mu_sens=", .attr "offset_mu_sens",
      .lit ")"]
  | .scanSensor => [.lit "barrier_functions=", .attr "barrier_functions", .lit ",sensor_peak_function=",
      .attr "sensor_peak_function", .lit ", alpha_sensor_gate=", .attr "alpha_sensor_gate", .lit ", alpha_gate=",
      .attr "alpha_gate", .lit ", alpha_dot=", .attr "alpha_dot", .lit ", offset_mu_sens=", .attr "offset_mu_sens",
      .lit ", final_rise=", .attr "final_rise", .lit ", sensor_peak_deformations=", .attr "sensor_peak_deformations",
      .lit ")"]
  | .simulation => [.lit "volt_limits_g1=", .attr "volt_limits_g1", .lit ", volt_limits_g2=", .attr "volt_limits_g2",
      .lit ", volt_limits_sensor_g1=", .attr "volt_limits_sensor_g1", .lit ", volt_limits_sensor_g2=",
      .attr "volt_limits_sensor_g2", .lit ",ideal_csd_config=", .attr "ideal_csd_config", .lit ", sensor=",
      .attr "sensor", .lit ", occupation_distortions=", .attr "occupation_distortions",
      .lit ", sensor_potential_distortions=", .attr "sensor_potential_distortions",
      .lit ", sensor_response_distortions=", .attr "sensor_response_distortions", .lit ")"]

/-- Values: Python constants, numbers, the name of a function (`cdf_type`), random number generators (known by their
state), arrays, lists, tuples, dictionaries with integer keys, and instances of the classes.
Auxiliary definition, used for the attributes of, for instance, simcats/sensor/_sensor_scan_sensor_generic.py:383-390. -/
inductive PObj
  | none
  | bool (b : Bool)
  | num (x : ℝ)
  | word (s : String)
  | gen (state : ℕ)
  | array (v : List ℝ)
  | list (n : ℕ) (item : ℕ → PObj)
  | tuple (n : ℕ) (item : ℕ → PObj)
  | dict (n : ℕ) (key : ℕ → ℕ) (item : ℕ → PObj)
  | inst (c : PCls) (attrs : String → PObj)

/-- Truth value of an object.
Library function, used in simcats/distortions/_pink_noise.py:103, simcats/distortions/_transition_blurring.py:129 and 245,
simcats/distortions/_dot_jumps.py:563 and simcats/distortions/_random_telegraph_noise.py:171. -/
def PObj.truthy : PObj → Prop
  | .none => False
  | .bool b => b = true
  | .num x => x ≠ 0
  | .list n _ => n ≠ 0
  | .tuple n _ => n ≠ 0
  | .dict n _ _ => n ≠ 0
  | _ => True

/-- Items separated by a comma and a space.
Library function, used for lists and dictionaries in simcats/sensor/_sensor_scan_sensor_generic.py:386-389 and simcats/_simulation.py:841. -/
def joinItems : ℕ → (ℕ → List Char) → List Char
  | 0, _ => []
  | 1, g => g 0
  | n + 2, g => g 0 ++ ',' :: ' ' :: joinItems (n + 1) fun i => g (i + 1)

open Classical in
/-- A format string with the values of the attributes.
Models the format strings of simcats/sensor/_sensor_peak_gaussian.py:86 and the other lines named at `PCls.pieces`. -/
noncomputable def render (g : String → List Char) (t : String → Prop) : List Piece → List Char
  | [] => []
  | .lit s :: r => s.toList ++ render g t r
  | .attr n :: r => g n ++ render g t r
  | .latest n :: r => "[latest=".toList ++ ((if t n then g n else "0".toList) ++ ("]".toList ++ render g t r))
  | .flag n :: r => (if t n then "[activated]".toList else "[deactivated]".toList) ++ render g t r

/-- The printed form of an object.  All generators of the package print as `Generator(PCG64)`.
Models simcats/sensor/_sensor_peak_gaussian.py:83-87 and the other lines named at `PCls.pieces`. -/
noncomputable def PObj.print (fmt : Fmt) : PObj → List Char
  | .none => "None".toList
  | .bool b => if b then "True".toList else "False".toList
  | .num x => fmt.num x
  | .word s => s.toList
  | .gen _ => "Generator(PCG64)".toList
  | .array v => fmt.arr v
  | .list n f => '[' :: (joinItems n (fun i => (f i).print fmt) ++ [']'])
  | .tuple n f => '(' :: (joinItems n (fun i => (f i).print fmt) ++ if n = 1 then [',', ')'] else [')'])
  | .dict n k f => '{' :: (joinItems n (fun i => fmt.int (k i) ++ ':' :: ' ' :: (f i).print fmt) ++ ['}'])
  | .inst c f => c.name.toList ++ '(' :: render (fun n => (f n).print fmt) (fun n => (f n).truthy) c.pieces

end SimCATS
