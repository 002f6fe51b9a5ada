import Verif.Model.Simulation

/-!
Models of simcats/support_functions/_parameter_sampling.py.

A sampler object is its range, the draw from the generator and the test that ends the loop of redraws; the only mutable field is
`last_sample`.  The loop may run forever, so a call is a relation between start states and results.
-/

namespace SimCATS

/-- The part of `np.random.Generator` used by the samplers; `τ` is the state of the generator.
Library object: the generator of simcats/support_functions/_parameter_sampling.py:70-73. -/
structure DrawRng (τ : Type) where
  uniform : ℝ → ℝ → M τ ℝ
  normal : ℝ → ℝ → M τ ℝ
  lognormal : ℝ → ℝ → M τ ℝ
  exponential : ℝ → M τ ℝ

/-- Documented behaviour of the generator: `uniform(low, high)` lies between `low` and `high` for `low <= high`, exponential
values are nonnegative, log-normal values are positive.
Library object: the generator of simcats/support_functions/_parameter_sampling.py:70-73. -/
structure DrawRng.Valid {τ : Type} (rng : DrawRng τ) : Prop where
  uniform : ∀ a b s v s', a ≤ b → rng.uniform a b s = (.ok v, s') → a ≤ v ∧ v ≤ b
  lognormal : ∀ m d s v s', rng.lognormal m d s = (.ok v, s') → 0 < v
  exponential : ∀ c s v s', rng.exponential c s = (.ok v, s') → 0 ≤ v

/-- A sampler after its initialization.
Models simcats/support_functions/_parameter_sampling.py:15-40 (an object after its constructor). -/
structure Sampler (τ : Type) where
  range : ℝ × ℝ
  draw : M τ ℝ
  accept : ℝ → Prop

/-- The narrowed range of the normal, uniform and log-normal sampler.
Models simcats/support_functions/_parameter_sampling.py:74-88, 139-153, 201-219.
Simplification: the warning is not modelled. -/
noncomputable def narrow {τ : Type} (rng : DrawRng τ) (total : ℝ × ℝ) : Option ℝ → M τ (ℝ × ℝ)
  | none => pure total
  | some w =>
    open Classical in
    if total.2 - total.1 ≤ w then pure total
    else do
      let c ← rng.uniform (total.1 + 0.5 * w) (total.2 - 0.5 * w)
      pure (c - 0.5 * w, c + 0.5 * w)

/-- The narrowed range of the exponential sampler.
Models simcats/support_functions/_parameter_sampling.py:286-303.
Simplification: the warning is not modelled. -/
noncomputable def narrowExp {τ : Type} (rng : DrawRng τ) (total : ℝ × ℝ) : Option ℝ → M τ (ℝ × ℝ)
  | none => pure total
  | some w =>
    open Classical in
    if max total.1 total.2 - min total.1 total.2 ≤ w then pure total
    else do
      let c ← rng.uniform (min total.1 total.2 + 0.5 * w) (max total.1 total.2 - 0.5 * w)
      if total.1 < total.2 then pure (c - 0.5 * w, c + 0.5 * w) else pure (c + 0.5 * w, c - 0.5 * w)

/-- `NormalSamplingRange(total_range, std, mean, sampling_range, rng)`.
Models simcats/support_functions/_parameter_sampling.py:44-102. -/
noncomputable def normalSampler {τ : Type} (rng : DrawRng τ) (total : ℝ × ℝ) (std : ℝ) (mean width : Option ℝ) : M τ (Sampler τ) := do
  let r ← narrow rng total width
  let m := mean.getD ((r.1 + r.2) / 2)
  pure ⟨r, rng.normal m std, fun v => ¬ (v < r.1 ∨ r.2 < v)⟩

/-- `UniformSamplingRange(total_range, sampling_range, rng)`; no redraws.
Models simcats/support_functions/_parameter_sampling.py:116-159. -/
noncomputable def uniformSampler {τ : Type} (rng : DrawRng τ) (total : ℝ × ℝ) (width : Option ℝ) : M τ (Sampler τ) := do
  let r ← narrow rng total width
  pure ⟨r, rng.uniform r.1 r.2, fun _ => True⟩

/-- `LogNormalSamplingRange(total_range, sampling_range, rng, mean, sigma)`.
Models simcats/support_functions/_parameter_sampling.py:170-228. -/
noncomputable def lognormalSampler {τ : Type} (rng : DrawRng τ) (total : ℝ × ℝ) (width : Option ℝ) (mean sigma : ℝ) : M τ (Sampler τ) := do
  let r ← narrow rng total width
  pure ⟨r, rng.lognormal mean sigma, fun v => ¬ (v < r.1 ∨ r.2 < v)⟩

/-- `ExponentialSamplingRange(total_range, scale, sampling_range, rng)`.
Models simcats/support_functions/_parameter_sampling.py:244-313. -/
noncomputable def exponentialSampler {τ : Type} (rng : DrawRng τ) (total : ℝ × ℝ) (scale : ℝ) (width : Option ℝ) : M τ (Sampler τ) := do
  let r ← narrowExp rng total width
  pure ⟨r, do
    let e ← rng.exponential scale
    pure (r.1 + e * (r.2 - r.1)), fun v => ¬ (v < min r.1 r.2 ∨ max r.1 r.2 < v)⟩

/-- The loop of draws: `Redraw draw accept s r` means that the loop started in state `s` ends with `r`.
Models simcats/support_functions/_parameter_sampling.py:97-100, 223-226, 308-311. -/
inductive Redraw {τ : Type} (draw : M τ ℝ) (accept : ℝ → Prop) : τ → Py ℝ × τ → Prop
  | stop {s s' v} : draw s = (.ok v, s') → accept v → Redraw draw accept s (.ok v, s')
  | again {s s' v r} : draw s = (.ok v, s') → ¬ accept v → Redraw draw accept s' r → Redraw draw accept s r
  | fail {s s' e} : draw s = (.error e, s') → Redraw draw accept s (.error e, s')

/-- `sample_parameter()`; the own state is `last_sample`.
Models simcats/support_functions/_parameter_sampling.py:96-102, 156-159, 222-228, 307-313. -/
inductive Sampler.Call {τ : Type} (d : Sampler τ) : Option ℝ × τ → Py ℝ × (Option ℝ × τ) → Prop
  | ok {o s v s'} : Redraw d.draw d.accept s (.ok v, s') → d.Call (o, s) (.ok v, (some v, s'))
  | error {o s e s'} : Redraw d.draw d.accept s (.error e, s') → d.Call (o, s) (.error e, (o, s'))

/-- Observable events of a sampler.
Part of the programs that use the API of simcats/support_functions/_parameter_sampling.py:15-40. -/
inductive SamplerEvent
  /-- `sample_parameter()` returned the value -/
  | sampled (v : ℝ)
  /-- `sample_parameter()` raised -/
  | raised (e : PyErr)
  /-- `last_sample()` returned the value -/
  | last (o : Option ℝ)

/-- Executions: any sequence of calls of `sample_parameter` and `last_sample`, and of other users of the same generator.
Part of the programs that use the API of simcats/support_functions/_parameter_sampling.py:15-40. -/
inductive Sampler.Run {τ : Type} (d : Sampler τ) : Option ℝ × τ → List SamplerEvent → Option ℝ × τ → Prop
  | nil {s} : d.Run s [] s
  | sampled {s v s' es t} : d.Call s (.ok v, s') → d.Run s' es t → d.Run s (.sampled v :: es) t
  | raised {s e s' es t} : d.Call s (.error e, s') → d.Run s' es t → d.Run s (.raised e :: es) t
  | last {s es t} : d.Run s es t → d.Run s (.last s.1 :: es) t
  | other {o s s' es t} : d.Run (o, s') es t → d.Run (o, s) es t

end SimCATS
