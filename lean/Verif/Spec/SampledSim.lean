import Verif.Model.SampledSim
import Verif.Spec.DefaultNoise

/-! Specifications for measurements with sampled configurations. -/

namespace SimCATS.Spec

/-- The documented arguments of a sampler of strengths: a range that is not empty and a positive width of the distribution. -/
def ProperStrength : StrengthSampler → Prop
  | .normal total std => total.1 < total.2 ∧ 0 < std
  | .exponential total scale => total.1 < total.2 ∧ 0 < scale

/-- The documented behaviour of the random numbers of the distortions: generators and samplers succeed, and noise has the requested number
of values. -/
structure SampledTotal {τ : Type} (env : SampledEnv τ) : Prop where
  jumps0 : RngTotal env.jumps0
  jumps1 : RngTotal env.jumps1
  pot : RngTotal env.pot
  resp : RngTotal env.resp
  draw : ∀ d s, ProperStrength d → ∃ v s', env.draw d s = (.ok v, s')
  pinkNoise : ∀ v n s, ∃ l s', env.pinkNoise v n s = (.ok l, s') ∧ l.length = n
  whiteNoise : ∀ v n s, ∃ l s', env.whiteNoise v n s = (.ok l, s') ∧ l.length = n

/-- Plunger voltages for a sensor scan with a sampled configuration: none, or two floats in the limits. -/
def SampledFixed (g1 g2 : VoltArg) : Prop :=
  (g1 = .none ∧ g2 = .none) ∨ ∃ v1 v2, g1 = .num true v1 ∧ g2 = .num true v2 ∧ (-0.2 ≤ v1 ∧ v1 ≤ -0.06) ∧ -0.2 ≤ v2 ∧ v2 ≤ -0.06

end SimCATS.Spec
