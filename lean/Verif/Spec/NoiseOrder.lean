import Verif.Spec.Reports

/-!
Specification of noises with their own random number generators.
-/

namespace SimCATS.Spec

variable {τ α β : Type}

/-- Two calls that do not interact: each returns the same before and after the other one, and both orders leave the same state. -/
def NoInteraction (x : M τ α) (y : M τ β) : Prop :=
  ∀ g, (x (y g).2).1 = (x g).1 ∧ (y (x g).2).1 = (y g).1 ∧ (y (x g).2).2 = (x (y g).2).2

/-- Every call that the generator offers has the property. -/
structure EveryDraw (C : ∀ α : Type, M τ α → Prop) (rng : Rng τ) : Prop where
  binomial : ∀ p, C _ (rng.binomial p)
  geometric : ∀ p n, C _ (rng.geometric p n)
  poisson : ∀ lam, C _ (rng.poisson lam)
  normal : ∀ m s, C _ (rng.normal m s)

/-- Every call of a sampler or generator that the noise object can make has the property. -/
def EveryCall (C : ∀ α : Type, M τ α → Prop) : SigObject τ → Prop
  | .additive _ sigma noise => C _ sigma ∧ ∀ v n, C _ (noise v n)
  | .rtn _ scale std height _ rng => C _ scale ∧ C _ std ∧ C _ height ∧ EveryDraw C rng

/-- Two noise objects that share no sampler or generator: no call of one interacts with a call of the other. -/
def OwnGenerators (a b : SigObject τ) : Prop := EveryCall (fun _ x => EveryCall (fun _ y => NoInteraction x y) b) a

/-- The same distortions in another order; if no list was given, there is none. -/
def Reordered : Option (List (SigObject τ)) → Option (List (SigObject τ)) → Prop
  | none, none => True
  | some os, some os' => os.Perm os'
  | _, _ => False

end SimCATS.Spec
