import Verif.Model.DefaultNoise

/-! Specifications for measurements with the distortions of the default configuration. -/

namespace SimCATS.Spec

/-- The documented behaviour of a numpy generator: besides `Rng.Valid`, the calls succeed for all parameters in their documented
ranges (probabilities between 0 and 1, `poisson` up to 2^62, nonnegative standard deviations). -/
structure RngTotal {τ : Type} (rng : Rng τ) : Prop where
  valid : rng.Valid
  binomial_ok : ∀ p s, 0 ≤ p → p ≤ 1 → ∃ b s', rng.binomial p s = (.ok b, s')
  poisson_ok : ∀ lam s, 0 ≤ lam → lam ≤ 2 ^ 62 → ∃ a s', rng.poisson lam s = (.ok a, s')
  normal_ok : ∀ m d s, 0 ≤ d → ∃ a s', rng.normal m d s = (.ok a, s')

/-- The documented behaviour of the random numbers of the distortions: samplers and generators succeed, and noise has the requested
number of values. -/
structure EnvTotal {τ : Type} (env : NoiseEnv τ) : Prop where
  jumps0 : RngTotal env.jumps0
  jumps1 : RngTotal env.jumps1
  pot : RngTotal env.pot
  resp : RngTotal env.resp
  pinkSigma : ∀ s, ∃ v s', env.pinkSigma s = (.ok v, s')
  whiteSigma : ∀ s, ∃ v s', env.whiteSigma s = (.ok v, s')
  pinkNoise : ∀ v n s, ∃ l s', env.pinkNoise v n s = (.ok l, s') ∧ l.length = n
  whiteNoise : ∀ v n s, ∃ l s', env.whiteNoise v n s = (.ok l, s') ∧ l.length = n

end SimCATS.Spec
