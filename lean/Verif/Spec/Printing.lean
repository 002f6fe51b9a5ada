import Verif.Model.Printing
import Mathlib.Data.Set.Function

/-!
What a printed form should tell.
-/

namespace SimCATS.Spec

/-- Opening brackets. -/
def opens (c : Char) : Bool := c == '(' || c == '[' || c == '{'

/-- Closing brackets. -/
def closes (c : Char) : Bool := c == ')' || c == ']' || c == '}'

/-- As many closing as opening brackets, and never more of them up to any position. -/
def Balanced (s : List Char) : Prop :=
  s.countP closes = s.countP opens ∧ ∀ p q, s = p ++ q → p.countP closes ≤ p.countP opens

/-- Commas are only inside of brackets. -/
def CommasInside (s : List Char) : Prop := ∀ p q, s = p ++ ',' :: q → p.countP closes < p.countP opens

/-- How Python and numpy print: different floats differ and start with a digit or a sign, only 0 may be printed as `0`,
integers consist of digits, arrays are printed as `[...]` or `array(...)` (but different arrays may be printed in the same way, as numpy
rounds). -/
structure Faithful (fmt : Fmt) : Prop where
  num_inj : Set.InjOn fmt.num fmt.floats
  num_head : ∀ x ∈ fmt.floats, ∃ c r, fmt.num x = c :: r ∧ (c.isDigit = true ∨ c = '-')
  num_plain : ∀ x ∈ fmt.floats, ∀ c ∈ fmt.num x, opens c = false ∧ closes c = false ∧ c ≠ ','
  num_zero : ∀ x ∈ fmt.floats, fmt.num x = ['0'] → x = 0
  int_inj : Function.Injective fmt.int
  int_digits : ∀ k, ∀ c ∈ fmt.int k, c.isDigit = true
  arr_balanced : ∀ v, Balanced (fmt.arr v)
  arr_commas : ∀ v, CommasInside (fmt.arr v)
  arr_head : ∀ v, (fmt.arr v).head? = some '[' ∨ (fmt.arr v).head? = some 'a'

/-- The parameters of a class. -/
def shown : PCls → List String
  | .gaussian => ["mu0", "sigma", "height", "offset"]
  | .lorentzian => ["mu0", "gamma", "height", "offset"]
  | .rise => ["mu0", "asymptote_left", "asymptote_right", "growth_rate", "asymmetry", "shape_factor",
      "denominator_offset", "fully_conductive_percentage"]
  | .barrier => ["pinch_off_percentage", "fully_conductive_percentage", "asymptote_left", "asymptote_right",
      "growth_rate", "asymmetry", "shape_factor", "denominator_offset", "offset"]
  | .multi => ["pinch_off", "fully_conductive", "params"]
  | .circle => ["radius"]
  | .linear => ["angle"]
  | .white => ["sigma", "rng"]
  | .pink => ["sigma", "fmin", "rng"]
  | .fermi => ["sigma"]
  | .gaussBlur => ["sigma"]
  | .dotJumps => ["scale", "lam", "axis", "ratio", "rng"]
  | .potentialRtn => ["scale", "std", "height", "ratio", "rng"]
  | .responseRtn => ["scale", "std", "height", "ratio", "rng"]
  | .geometric => ["tct_params", "rotation", "lut_entries", "cdf_type", "cdf_gamma_factor"]
  | .normalSampler => ["last_sample", "range", "mean", "std", "rng"]
  | .uniformSampler => ["last_sample", "range", "rng"]
  | .logNormalSampler => ["last_sample", "range", "mean", "sigma", "rng"]
  | .exponentialSampler => ["last_sample", "range", "scale", "rng"]
  | .sensorGeneric => ["sensor_peak_function", "alpha_dot", "alpha_gate", "offset_mu_sens"]
  | .scanSensor => ["barrier_functions", "sensor_peak_function", "alpha_sensor_gate", "alpha_gate", "alpha_dot",
      "offset_mu_sens", "final_rise", "sensor_peak_deformations"]
  | .simulation => ["volt_limits_g1", "volt_limits_g2", "volt_limits_sensor_g1", "volt_limits_sensor_g2",
      "ideal_csd_config", "sensor", "occupation_distortions", "sensor_potential_distortions",
      "sensor_response_distortions"]

/-- The latest value that a distortion reports. -/
def latestOf : PCls → List String
  | .pink => ["latest_sigma"]
  | .fermi => ["latest_sigma"]
  | .gaussBlur => ["latest_sigma"]
  | _ => []

/-- Whether a distortion was active. -/
def flagOf : PCls → List String
  | .dotJumps => ["activated"]
  | .potentialRtn => ["activated"]
  | .responseRtn => ["activated"]
  | _ => []

/-- The samplers for values of distortions. -/
def IsSampler (c : PCls) : Prop :=
  c = .normalSampler ∨ c = .uniformSampler ∨ c = .logNormalSampler ∨ c = .exponentialSampler

/-- A number or a sampler. -/
def NumberOrSampler : PObj → Prop
  | .num _ => True
  | .inst c _ => IsSampler c
  | _ => False

/-- Objects with values of the documented types in all attributes and without barrier functions of type multi GLF. -/
def Ordinary (fmt : Fmt) : PObj → Prop
  | .num x => x ∈ fmt.floats
  | .word s => s = "sigmoid" ∨ s = "cauchy"
  | .list n f => ∀ i < n, Ordinary fmt (f i)
  | .tuple n f => ∀ i < n, Ordinary fmt (f i)
  | .dict n _ f => ∀ i < n, Ordinary fmt (f i)
  | .inst c f => c ≠ .multi ∧ (∀ n ∈ shown c, Ordinary fmt (f n)) ∧ (∀ n ∈ latestOf c, Ordinary fmt (f n)) ∧
      (latestOf c ≠ [] → NumberOrSampler (f "sigma")) ∧
      (c = .geometric → f "cdf_type" = .word "sigmoid" ∨ f "cdf_type" = .word "cauchy")
  | _ => True

/-- The same object as far as it can be printed: the same constants, numbers, items, class and parameters.  Generators
have no printed state; arrays are known only by their printed form, which may also be the one of a list. -/
def SamePrinted (fmt : Fmt) : PObj → PObj → Prop
  | .none, b => b = .none
  | .bool x, b => b = .bool x
  | .num x, b => b = .num x
  | .word s, b => b = .word s
  | .gen _, b => ∃ s', b = .gen s'
  | .array v, b => b.print fmt = fmt.arr v ∧ ((∃ w, b = .array w) ∨ ∃ n g, b = .list n g)
  | .list n f, b => (∃ g, b = .list n g ∧ ∀ i < n, SamePrinted fmt (f i) (g i)) ∨
      ∃ v, b = .array v ∧ fmt.arr v = (PObj.list n f).print fmt
  | .tuple n f, b => ∃ g, b = .tuple n g ∧ ∀ i < n, SamePrinted fmt (f i) (g i)
  | .dict n k f, b => ∃ l g, b = .dict n l g ∧ ∀ i < n, k i = l i ∧ SamePrinted fmt (f i) (g i)
  | .inst c f, b => ∃ g, b = .inst c g ∧ (∀ n ∈ shown c, SamePrinted fmt (f n) (g n)) ∧
      (∀ n ∈ latestOf c, ((f n).truthy ↔ (g n).truthy) ∧ ((f n).truthy → SamePrinted fmt (f n) (g n))) ∧
      ∀ n ∈ flagOf c, (f n).truthy ↔ (g n).truthy

end SimCATS.Spec
