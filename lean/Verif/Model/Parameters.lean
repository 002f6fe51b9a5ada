import Verif.Model.Peaks
import Verif.Model.Glf
import Verif.Model.Deformation

/-!
The components with parameters (peaks, barrier and rise functions, deformations, distortions, ideal data) as Python
objects: a dictionary of instance attributes, read and written through the properties of the class.
The properties and constructors of all classes are given as tables, one entry per property and one per statement.
Simplification: parameters are numbers, tuples of numbers, `None` or other objects (samplers, generators, strings,
arrays, known by a number); a comparison of another object with a number is taken to raise a `TypeError`.
-/

namespace SimCATS

/-- Keys of the dictionary of an object: public names, and names `__x` used inside a class, which Python stores as
`_Class__x`.
Auxiliary definition, used for the attributes of, for instance, simcats/sensor/_sensor_peak_gaussian.py:31-67. -/
inductive Key
  | pub (name : String)
  | priv (cls name : String)
  deriving DecidableEq

/-- Values of parameters.
Auxiliary definition, used for the parameters of, for instance, simcats/sensor/barrier_function/_barrier_function_multi_glf.py:63-65. -/
inductive PVal
  | none
  | num (x : ℝ)
  | seq (l : List ℝ)
  | obj (id : ℕ)

/-- The instance dictionary of an object.
Auxiliary definition, used for the attributes of, for instance, simcats/sensor/_sensor_peak_gaussian.py:31-67. -/
abbrev Attrs := Key → Option PVal

/-- The checks in the setters.
Models simcats/sensor/_sensor_peak_gaussian.py:47-48, simcats/sensor/_sensor_peak_lorentzian.py:46-47,
simcats/sensor/_sensor_rise_glf.py:144-145, simcats/sensor/barrier_function/_barrier_function_glf.py:214-215
and simcats/sensor/barrier_function/_barrier_function_multi_glf.py:149-150. -/
inductive SetCheck
  | nothing
  | positive
  | sevenFold

/-- What a check does with a value.
Models simcats/sensor/_sensor_peak_gaussian.py:47-48, simcats/sensor/_sensor_peak_lorentzian.py:46-47,
simcats/sensor/_sensor_rise_glf.py:144-145, simcats/sensor/barrier_function/_barrier_function_glf.py:214-215
and simcats/sensor/barrier_function/_barrier_function_multi_glf.py:149-150. -/
noncomputable def SetCheck.run : SetCheck → PVal → Py Unit
  | .nothing, _ => .ok ()
  | .positive, .num x => if x ≤ 0 then .error .valueError else .ok ()
  | .positive, _ => .error .typeError
  | .sevenFold, .seq l => if l.length % 7 ≠ 0 then .error .valueError else .ok ()
  | .sevenFold, _ => .error .typeError

/-- A property of a class: the attribute that the getter returns (`none` for a computed property), and the check and
the attribute of the setter (`none` if there is no setter).
Auxiliary definition, used for the properties of, for instance, simcats/sensor/_sensor_peak_gaussian.py:31-67. -/
structure PyProp where
  name : String
  get : Option Key
  set : Option (SetCheck × Key)

/-- A statement of a constructor: `self.name = arg`, `self.__x = arg`, or `self.__x = None`.
Auxiliary definition, used for the constructors of, for instance, simcats/distortions/_pink_noise.py:37-40. -/
inductive InitStmt
  | viaName (name arg : String)
  | direct (key : Key) (arg : String)
  | directNone (key : Key)

/-- A class: its properties and the statements of its constructor.
Auxiliary definition, used for, for instance, simcats/sensor/_sensor_peak_gaussian.py:13-67. -/
structure PyClass where
  props : List PyProp
  init : List InitStmt

/-- The property of a given name.
Auxiliary definition, used for every read and write of an attribute, for instance simcats/sensor/_sensor_peak_gaussian.py:26-29. -/
def PyClass.find (c : PyClass) (n : String) : Option PyProp := c.props.find? fun p => p.name == n

/-- `o.n = v` from outside of the class: properties use their setter (`AttributeError` without a setter), every other
name becomes an attribute of the object.
Library function, used in, for instance, simcats/sensor/_sensor_peak_gaussian.py:26-29. -/
noncomputable def PyClass.setAttr (c : PyClass) (n : String) (v : PVal) (o : Attrs) : Py Unit × Attrs :=
  match c.find n with
  | none => (.ok (), Function.update o (.pub n) (some v))
  | some p =>
    match p.set with
    | none => (.error .attributeError, o)
    | some (chk, key) =>
      match chk.run v with
      | .error e => (.error e, o)
      | .ok () => (.ok (), Function.update o key (some v))

/-- The value of an attribute in the dictionary.
Library function, used in, for instance, simcats/sensor/_sensor_peak_gaussian.py:34. -/
def readKey (o : Attrs) (k : Key) : Py PVal :=
  match o k with
  | some v => .ok v
  | none => .error .attributeError

/-- `o.n` for a name that is not a computed property.  The computed properties are modelled below (`barrierOf`,
`riseOf`); here they give no value.
Library function, used in, for instance, simcats/sensor/_sensor_peak_gaussian.py:80-82. -/
def PyClass.getAttr (c : PyClass) (n : String) (o : Attrs) : Option (Py PVal) :=
  match c.find n with
  | none => some (readKey o (.pub n))
  | some p => p.get.map (readKey o)

/-- One statement of a constructor.
Library function, used in, for instance, simcats/distortions/_pink_noise.py:37-40. -/
noncomputable def PyClass.initStep (c : PyClass) (args : String → PVal) (o : Attrs) : InitStmt → Py Unit × Attrs
  | .viaName n a => c.setAttr n (args a) o
  | .direct k a => (.ok (), Function.update o k (some (args a)))
  | .directNone k => (.ok (), Function.update o k (some .none))

/-- The statements of a constructor up to the first exception.
Library function, used in, for instance, simcats/distortions/_pink_noise.py:37-40. -/
noncomputable def PyClass.runInit (c : PyClass) (args : String → PVal) : List InitStmt → Attrs → Py Attrs
  | [], o => .ok o
  | s :: rest, o =>
    match c.initStep args o s with
    | (.error e, _) => .error e
    | (.ok (), o') => c.runInit args rest o'

/-- A call of the constructor; `args` are the arguments including the defaults.
Library function, used for the constructors of, for instance, simcats/distortions/_pink_noise.py:37-40. -/
noncomputable def PyClass.new (c : PyClass) (args : String → PVal) : Py Attrs := c.runInit args c.init fun _ => none

/-- A property whose getter returns `self.__n` and whose setter assigns it.
Auxiliary definition, used for, for instance, simcats/sensor/_sensor_peak_gaussian.py:31-38. -/
def plain (cls n : String) : PyProp := ⟨n, some (.priv cls n), some (.nothing, .priv cls n)⟩

/-- A property without setter that returns `self.__n`.
Auxiliary definition, used for, for instance, simcats/distortions/_pink_noise.py:69-75. -/
def readonly (cls n : String) : PyProp := ⟨n, some (.priv cls n), none⟩

/-- The classes with parameters.
Models the class statements of simcats/sensor/_sensor_peak_gaussian.py:13, simcats/sensor/_sensor_peak_lorentzian.py:13,
simcats/sensor/_sensor_rise_glf.py:14, simcats/sensor/barrier_function/_barrier_function_glf.py:16,
simcats/sensor/barrier_function/_barrier_function_multi_glf.py:16,
simcats/sensor/deformation/_sensor_peak_deformation_circle.py:14,
simcats/sensor/deformation/_sensor_peak_deformation_linear.py:15, simcats/distortions/_white_noise.py:16,
simcats/distortions/_pink_noise.py:17, simcats/distortions/_transition_blurring.py:17 and 133,
simcats/distortions/_dot_jumps.py:17, simcats/distortions/_random_telegraph_noise.py:20, 175 and 227 (the two derived
classes have the properties and the constructor of the first one) and
simcats/ideal_csd/geometric/_ideal_csd_geometric_class.py:17. -/
inductive Component
  | peakGaussian
  | peakLorentzian
  | riseGlf
  | barrierGlf
  | barrierMultiGlf
  | circle
  | linear
  | whiteNoise
  | pinkNoise
  | fermiBlur
  | gaussBlur
  | dotJumps
  | telegraph
  | idealGeometric
  deriving DecidableEq

/-- `SensorPeakGaussian`. Models simcats/sensor/_sensor_peak_gaussian.py:26-67. -/
def clsGaussian : PyClass where
  props := [plain "SensorPeakGaussian" "mu0",
    ⟨"sigma", some (.priv "SensorPeakGaussian" "sigma"), some (.positive, .priv "SensorPeakGaussian" "sigma")⟩,
    plain "SensorPeakGaussian" "height", plain "SensorPeakGaussian" "offset"]
  init := [.viaName "mu0" "mu0", .viaName "sigma" "sigma", .viaName "height" "height", .viaName "offset" "offset"]

/-- `SensorPeakLorentzian`. Models simcats/sensor/_sensor_peak_lorentzian.py:25-66. -/
def clsLorentzian : PyClass where
  props := [plain "SensorPeakLorentzian" "mu0",
    ⟨"gamma", some (.priv "SensorPeakLorentzian" "gamma"), some (.positive, .priv "SensorPeakLorentzian" "gamma")⟩,
    plain "SensorPeakLorentzian" "height", plain "SensorPeakLorentzian" "offset"]
  init := [.viaName "mu0" "mu0", .viaName "gamma" "gamma", .viaName "height" "height", .viaName "offset" "offset"]

/-- `SensorRiseGLF`; `fully_conductive_percentage` is no property. Models simcats/sensor/_sensor_rise_glf.py:48-199. -/
def clsRise : PyClass where
  props := [plain "SensorRiseGLF" "mu0", plain "SensorRiseGLF" "asymptote_left", plain "SensorRiseGLF" "asymptote_right",
    plain "SensorRiseGLF" "growth_rate",
    ⟨"asymmetry", some (.priv "SensorRiseGLF" "asymmetry"), some (.positive, .priv "SensorRiseGLF" "asymmetry")⟩,
    plain "SensorRiseGLF" "shape_factor", plain "SensorRiseGLF" "denominator_offset",
    ⟨"fully_conductive", none, none⟩]
  init := [.viaName "mu0" "mu0", .viaName "asymptote_left" "asymptote_left",
    .viaName "asymptote_right" "asymptote_right", .viaName "growth_rate" "growth_rate",
    .viaName "asymmetry" "asymmetry", .viaName "shape_factor" "shape_factor",
    .viaName "denominator_offset" "denominator_offset",
    .viaName "fully_conductive_percentage" "fully_conductive_percentage"]

/-- `BarrierFunctionGLF`. Models simcats/sensor/barrier_function/_barrier_function_glf.py:60-68 and 84-270. -/
def clsBarrier : PyClass where
  props := [⟨"pinch_off", none, none⟩, plain "BarrierFunctionGLF" "pinch_off_percentage",
    ⟨"fully_conductive", none, none⟩, plain "BarrierFunctionGLF" "fully_conductive_percentage",
    plain "BarrierFunctionGLF" "asymptote_left", plain "BarrierFunctionGLF" "asymptote_right",
    plain "BarrierFunctionGLF" "growth_rate",
    ⟨"asymmetry", some (.priv "BarrierFunctionGLF" "asymmetry"), some (.positive, .priv "BarrierFunctionGLF" "asymmetry")⟩,
    plain "BarrierFunctionGLF" "shape_factor", plain "BarrierFunctionGLF" "denominator_offset",
    plain "BarrierFunctionGLF" "offset"]
  init := [.viaName "pinch_off_percentage" "pinch_off_percentage",
    .viaName "fully_conductive_percentage" "fully_conductive_percentage", .viaName "asymptote_left" "asymptote_left",
    .viaName "asymptote_right" "asymptote_right", .viaName "growth_rate" "growth_rate",
    .viaName "asymmetry" "asymmetry", .viaName "shape_factor" "shape_factor",
    .viaName "denominator_offset" "denominator_offset", .viaName "offset" "offset"]

/-- `BarrierFunctionMultiGLF`; the argument `params` is the tuple of all further arguments.
Models simcats/sensor/barrier_function/_barrier_function_multi_glf.py:63-65 and 79-151. -/
def clsMulti : PyClass where
  props := [plain "BarrierFunctionMultiGLF" "pinch_off", plain "BarrierFunctionMultiGLF" "fully_conductive",
    ⟨"params", some (.priv "BarrierFunctionMultiGLF" "params"), some (.sevenFold, .priv "BarrierFunctionMultiGLF" "params")⟩]
  init := [.viaName "pinch_off" "pinch_off", .viaName "fully_conductive" "fully_conductive", .viaName "params" "params"]

/-- `SensorPeakDeformationCircle` (its property `sensor` is the subject of another model and left out here).
Models simcats/sensor/deformation/_sensor_peak_deformation_circle.py:26-52. -/
def clsCircle : PyClass where
  props := [plain "SensorPeakDeformationCircle" "radius"]
  init := [.direct (.priv "SensorPeakDeformationCircle" "radius") "radius"]

/-- `SensorPeakDeformationLinear` (its property `sensor` is the subject of another model and left out here).
Models simcats/sensor/deformation/_sensor_peak_deformation_linear.py:27-42. -/
def clsLinear : PyClass where
  props := [plain "SensorPeakDeformationLinear" "angle"]
  init := [.viaName "angle" "angle"]

/-- `SensorResponseWhiteNoise`. Models simcats/distortions/_white_noise.py:31-59. -/
def clsWhite : PyClass where
  props := [plain "SensorResponseWhiteNoise" "sigma", plain "SensorResponseWhiteNoise" "rng",
    readonly "SensorResponseWhiteNoise" "latest_sigma"]
  init := [.viaName "rng" "rng", .viaName "sigma" "sigma", .directNone (.priv "SensorResponseWhiteNoise" "latest_sigma")]

/-- `SensorPotentialPinkNoise`. Models simcats/distortions/_pink_noise.py:37-75. -/
def clsPink : PyClass where
  props := [plain "SensorPotentialPinkNoise" "sigma", plain "SensorPotentialPinkNoise" "fmin",
    plain "SensorPotentialPinkNoise" "rng", readonly "SensorPotentialPinkNoise" "latest_sigma"]
  init := [.viaName "sigma" "sigma", .viaName "fmin" "fmin", .viaName "rng" "rng",
    .directNone (.priv "SensorPotentialPinkNoise" "latest_sigma")]

/-- `OccupationTransitionBlurringFermiDirac`. Models simcats/distortions/_transition_blurring.py:28-47. -/
def clsFermi : PyClass where
  props := [plain "OccupationTransitionBlurringFermiDirac" "sigma",
    readonly "OccupationTransitionBlurringFermiDirac" "latest_sigma"]
  init := [.direct (.priv "OccupationTransitionBlurringFermiDirac" "sigma") "sigma",
    .directNone (.priv "OccupationTransitionBlurringFermiDirac" "latest_sigma")]

/-- `OccupationTransitionBlurringGaussian`. Models simcats/distortions/_transition_blurring.py:144-163. -/
def clsGaussBlur : PyClass where
  props := [plain "OccupationTransitionBlurringGaussian" "sigma",
    readonly "OccupationTransitionBlurringGaussian" "latest_sigma"]
  init := [.direct (.priv "OccupationTransitionBlurringGaussian" "sigma") "sigma",
    .directNone (.priv "OccupationTransitionBlurringGaussian" "latest_sigma")]

/-- `OccupationDotJumps`. Models simcats/distortions/_dot_jumps.py:49-111. -/
def clsDotJumps : PyClass where
  props := [plain "OccupationDotJumps" "scale", plain "OccupationDotJumps" "lam", plain "OccupationDotJumps" "axis",
    plain "OccupationDotJumps" "ratio", plain "OccupationDotJumps" "rng", readonly "OccupationDotJumps" "activated"]
  init := [.viaName "scale" "scale", .viaName "lam" "lam", .viaName "axis" "axis", .viaName "ratio" "ratio",
    .viaName "rng" "rng", .directNone (.priv "OccupationDotJumps" "activated")]

/-- `RandomTelegraphNoise`, `SensorPotentialRTN` and `SensorResponseRTN`.
Models simcats/distortions/_random_telegraph_noise.py:50-107, 201 and 253. -/
def clsTelegraph : PyClass where
  props := [plain "RandomTelegraphNoise" "scale", plain "RandomTelegraphNoise" "std",
    plain "RandomTelegraphNoise" "height", plain "RandomTelegraphNoise" "ratio", plain "RandomTelegraphNoise" "rng",
    readonly "RandomTelegraphNoise" "activated"]
  init := [.viaName "scale" "scale", .viaName "std" "std", .viaName "height" "height", .viaName "ratio" "ratio",
    .viaName "rng" "rng", .directNone (.priv "RandomTelegraphNoise" "activated")]

/-- `IdealCSDGeometric`. Models simcats/ideal_csd/geometric/_ideal_csd_geometric_class.py:56-113. -/
def clsGeometric : PyClass where
  props := [plain "IdealCSDGeometric" "tct_params", plain "IdealCSDGeometric" "rotation",
    plain "IdealCSDGeometric" "lut_entries", plain "IdealCSDGeometric" "cdf_type",
    plain "IdealCSDGeometric" "cdf_gamma_factor"]
  init := [.viaName "tct_params" "tct_params", .viaName "rotation" "rotation", .viaName "lut_entries" "lut_entries",
    .viaName "cdf_type" "cdf_type", .viaName "cdf_gamma_factor" "cdf_gamma_factor"]

/-- The table of a component.
Models the classes of simcats/sensor/_sensor_peak_gaussian.py:13-67 and the other files named at `Component`. -/
def Component.cls : Component → PyClass
  | .peakGaussian => clsGaussian
  | .peakLorentzian => clsLorentzian
  | .riseGlf => clsRise
  | .barrierGlf => clsBarrier
  | .barrierMultiGlf => clsMulti
  | .circle => clsCircle
  | .linear => clsLinear
  | .whiteNoise => clsWhite
  | .pinkNoise => clsPink
  | .fermiBlur => clsFermi
  | .gaussBlur => clsGaussBlur
  | .dotJumps => clsDotJumps
  | .telegraph => clsTelegraph
  | .idealGeometric => clsGeometric

/-- A program that assigns attributes one after the other and goes on after exceptions.
Part of the programs that use the API of simcats/sensor/_sensor_peak_gaussian.py:31-67 and the other classes. -/
noncomputable def assignAll (c : PyClass) : List (String × PVal) → Attrs → Attrs
  | [], o => o
  | (n, v) :: rest, o => assignAll c rest (c.setAttr n v o).2

/-- A parameter read inside a method and used as a number.
Auxiliary definition, used for, for instance, simcats/sensor/_sensor_peak_gaussian.py:80-82. -/
def PyClass.getNum (c : PyClass) (n : String) (o : Attrs) : Py ℝ :=
  match c.getAttr n o with
  | some (.ok (.num x)) => .ok x
  | some (.error e) => .error e
  | _ => .error .typeError

/-- The values that `sensor_function` of a Gaussian peak reads. Models simcats/sensor/_sensor_peak_gaussian.py:79-82. -/
def gaussianOf (o : Attrs) : Py Peak := do
  let m ← clsGaussian.getNum "mu0" o
  let s ← clsGaussian.getNum "sigma" o
  let h ← clsGaussian.getNum "height" o
  let f ← clsGaussian.getNum "offset" o
  return ⟨.gaussian, m, s, h, f⟩

/-- The values that `sensor_function` of a Lorentzian peak reads. Models simcats/sensor/_sensor_peak_lorentzian.py:78-80. -/
def lorentzianOf (o : Attrs) : Py Peak := do
  let m ← clsLorentzian.getNum "mu0" o
  let s ← clsLorentzian.getNum "gamma" o
  let h ← clsLorentzian.getNum "height" o
  let f ← clsLorentzian.getNum "offset" o
  return ⟨.lorentzian, m, s, h, f⟩

/-- The values that `sensor_function` and `fully_conductive` of a rise read.
Models simcats/sensor/_sensor_rise_glf.py:190-219. -/
def riseOf (o : Attrs) : Py RiseGlf := do
  let A ← clsRise.getNum "asymptote_left" o
  let K ← clsRise.getNum "asymptote_right" o
  let B ← clsRise.getNum "growth_rate" o
  let nu ← clsRise.getNum "asymmetry" o
  let Q ← clsRise.getNum "shape_factor" o
  let C ← clsRise.getNum "denominator_offset" o
  let p ← clsRise.getNum "fully_conductive_percentage" o
  let m ← clsRise.getNum "mu0" o
  return ⟨m, ⟨A, K, B, nu, Q, C⟩, p⟩

/-- The values that `get_value`, `pinch_off` and `fully_conductive` of a barrier function read.
Simplification: `get_value` does not read the two percentages.
Models simcats/sensor/barrier_function/_barrier_function_glf.py:80-97 and 117-127. -/
def barrierOf (o : Attrs) : Py BarrierGlf := do
  let A ← clsBarrier.getNum "asymptote_left" o
  let K ← clsBarrier.getNum "asymptote_right" o
  let B ← clsBarrier.getNum "growth_rate" o
  let nu ← clsBarrier.getNum "asymmetry" o
  let Q ← clsBarrier.getNum "shape_factor" o
  let C ← clsBarrier.getNum "denominator_offset" o
  let p ← clsBarrier.getNum "pinch_off_percentage" o
  let f ← clsBarrier.getNum "fully_conductive_percentage" o
  let off ← clsBarrier.getNum "offset" o
  return ⟨p, f, ⟨A, K, B, nu, Q, C⟩, off⟩

/-- `get_value` of a multi GLF barrier function reads `self.__params`.
Models simcats/sensor/barrier_function/_barrier_function_multi_glf.py:77. -/
noncomputable def multiValue (o : Attrs) (potential : ℝ) : Py ℝ :=
  match o (.priv "BarrierFunctionMultiGLF" "params") with
  | some (.seq l) => multiGlf potential l
  | some _ => .error .typeError
  | none => .error .attributeError

/-- `calc_mu` of a circular deformation reads `self.__radius`.
Models simcats/sensor/deformation/_sensor_peak_deformation_circle.py:81-98. -/
noncomputable def circleValue (o : Attrs) (alphaNorm dist mu0 : ℝ) : Py ℝ :=
  match o (.priv "SensorPeakDeformationCircle" "radius") with
  | some (.num r) => .ok (circleCalcMu r alphaNorm dist mu0)
  | some _ => .error .typeError
  | none => .error .attributeError

/-- `calc_mu` of a linear deformation.
Models simcats/sensor/deformation/_sensor_peak_deformation_linear.py:68-72. -/
noncomputable def linearValue (o : Attrs) (alphaNorm dist mu0 : ℝ) : Py ℝ := do
  let a ← clsLinear.getNum "angle" o
  return linearCalcMu a alphaNorm dist mu0

end SimCATS
