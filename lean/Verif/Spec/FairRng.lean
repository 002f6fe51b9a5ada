import Verif.Model.Proc
import Mathlib.Order.Interval.Set.Basic
import Mathlib.Data.Set.Prod

/-! Generators for which loops that redraw random numbers end. -/

namespace SimCATS.Spec

/-- Repeated draws, starting in the given state, yield a value in `A` at some time. -/
inductive Reaches {τ α : Type} (draw : M τ α) (A : Set α) : τ → Prop
  | now {s v s'} : draw s = (.ok v, s') → v ∈ A → Reaches draw A s
  | later {s v s'} : draw s = (.ok v, s') → Reaches draw A s' → Reaches draw A s

/-- From every state, repeated draws reach every interval that has a positive probability, and repeated pairs of uniform draws reach every
rectangle.
Real generators have this property with probability 1. -/
structure FairRng {τ : Type} (rng : CfgRng τ) : Prop where
  uniform : ∀ a b c d s, a ≤ c → c < d → d ≤ b → Reaches (rng.uniform a b) (Set.Ioo c d) s
  pair : ∀ a b a' b' c d c' d' s, a ≤ c → c < d → d ≤ b → a' ≤ c' → c' < d' → d' ≤ b' →
    Reaches (do let x ← rng.uniform a b; let y ← rng.uniform a' b'; pure (x, y)) (Set.Ioo c d ×ˢ Set.Ioo c' d') s
  normal : ∀ m std c d s, 0 < std → c < d → Reaches (rng.normal m std) (Set.Ioo c d) s
  exponential : ∀ scale c d s, 0 < scale → 0 ≤ c → c < d → Reaches (rng.exponential scale) (Set.Ioo c d) s

end SimCATS.Spec
