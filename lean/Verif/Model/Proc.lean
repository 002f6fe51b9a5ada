import Verif.Model.Samplers

/-!
Python procedures with loops that need not end (`while` loops that redraw random numbers).

A procedure is the relation between the state before the call and the result together with the state after it; a call that does
not end is not related to anything.
-/

namespace SimCATS

/-- A Python procedure on the state `τ`.
Auxiliary definition, used for the samplers of simcats/config_samplers/_GaAs_v1_random_variations_v3_config_sampler.py:38-1059. -/
def Proc (τ α : Type) := τ → Py α × τ → Prop

/-- `return a`.
Auxiliary definition, used for the samplers of simcats/config_samplers/_GaAs_v1_random_variations_v3_config_sampler.py:38-1059. -/
def Proc.ret {τ α : Type} (a : α) : Proc τ α := fun s r => r = (.ok a, s)

/-- Sequential composition; an exception skips the rest.
Auxiliary definition, used for the samplers of simcats/config_samplers/_GaAs_v1_random_variations_v3_config_sampler.py:38-1059. -/
def Proc.andThen {τ α β : Type} (x : Proc τ α) (f : α → Proc τ β) : Proc τ β := fun s r =>
  (∃ a s', x s (.ok a, s') ∧ f a s' r) ∨ (∃ e s', x s (.error e, s') ∧ r = (.error e, s'))

/-- Auxiliary definition, used for the samplers of simcats/config_samplers/_GaAs_v1_random_variations_v3_config_sampler.py:38-1059. -/
instance {τ : Type} : Monad (Proc τ) where
  pure := Proc.ret
  bind := Proc.andThen

/-- A call that always ends.
Auxiliary definition, used for the samplers of simcats/config_samplers/_GaAs_v1_random_variations_v3_config_sampler.py:38-1059. -/
def Proc.call {τ α : Type} (m : M τ α) : Proc τ α := fun s r => m s = r

/-- A computation without effect that may raise.
Auxiliary definition, used for the samplers of simcats/config_samplers/_GaAs_v1_random_variations_v3_config_sampler.py:38-1059. -/
def Proc.ofPy {τ α : Type} (x : Py α) : Proc τ α := fun s r => r = (x, s)

/-- `while not good(a): a = body(a)`, from the value `a` on.
Models simcats/config_samplers/_GaAs_v1_random_variations_v3_config_sampler.py:146-149, 216-229, 349-354. -/
inductive Proc.While {τ α : Type} (good : α → Prop) (body : α → Proc τ α) : α → τ → Py α × τ → Prop
  | stop {a s} : good a → While good body a s (.ok a, s)
  | again {a s b s' r} : ¬ good a → body a s (.ok b, s') → While good body b s' r → While good body a s r
  | fail {a s e s'} : ¬ good a → body a s (.error e, s') → While good body a s (.error e, s')

/-- `a = body(); while not good(a): a = body()`.
Auxiliary definition, used for simcats/config_samplers/_GaAs_v1_random_variations_v3_config_sampler.py:146-149. -/
def Proc.until {τ α : Type} (good : α → Prop) (body : Proc τ α) : Proc τ α := do
  let a ← body
  fun s r => Proc.While good (fun _ => body) a s r

/-- `SomeSamplingRange(...).sample_parameter()`: a new sampler object, used once.
Auxiliary definition, used for simcats/support_functions/_parameter_sampling.py:96-102, 156-159, 222-228, 307-313. -/
def Proc.sample {τ : Type} (mk : M τ (Sampler τ)) : Proc τ ℝ := do
  let d ← Proc.call mk
  fun s r => ∃ o, d.Call (none, s) (r.1, (o, r.2))

/-- The generator used by the configuration samplers; `choice a b` is `rng.choice(np.arange(a, b + 1))`.
Library objects: the generators of simcats/config_samplers/_GaAs_v1_random_variations_v3_config_sampler.py:130, 284, 752 and of simcats/support_functions/_parameter_sampling.py:70-73. -/
structure CfgRng (τ : Type) extends DrawRng τ where
  choice : ℕ → ℕ → M τ ℕ

/-- Documented behaviour of numpy generators: `uniform(low, high)` raises `ValueError` for `high < low` and otherwise returns a
number between the limits, the other calls do not raise for non-negative scales, `choice` returns an element.
Library objects: the generators of simcats/config_samplers/_GaAs_v1_random_variations_v3_config_sampler.py:130, 284, 752 and of simcats/support_functions/_parameter_sampling.py:70-73. -/
structure CfgRng.Valid {τ : Type} (rng : CfgRng τ) : Prop where
  draws : rng.toDrawRng.Valid
  uniform_ok : ∀ a b s, a ≤ b → ∃ v s', rng.uniform a b s = (.ok v, s')
  uniform_error : ∀ a b s, b < a → ∃ s', rng.uniform a b s = (.error .valueError, s')
  normal_ok : ∀ m d s, 0 ≤ d → ∃ v s', rng.normal m d s = (.ok v, s')
  exponential_ok : ∀ c s, 0 ≤ c → ∃ v s', rng.exponential c s = (.ok v, s')
  choice_ok : ∀ a b s, a ≤ b → ∃ v s', rng.choice a b s = (.ok v, s') ∧ a ≤ v ∧ v ≤ b

end SimCATS
