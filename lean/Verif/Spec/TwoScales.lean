import Verif.Model.Telegraph

/-!
Specification of telegraph noise with separate scales: regions without and with a burst in turn, each with a length and
a height of its own.
-/

namespace SimCATS.Spec

/-- The regions number `i`, `i + 1`, ... as (length, height), drawn one after the other from the generator: regions
with an even number have no burst, so that their height is 0 and their length is drawn with the scale `no`; the others
are bursts with the scale `burst` and a drawn height.  The generator goes from the state `t` to the state `t'`. -/
inductive Regions {τ : Type} (rng : Rng τ) (burst no std height : ℝ) : ℕ → List (ℕ × ℝ) → τ → τ → Prop
  | done {i t} : Regions rng burst no std height i [] t t
  | quiet {i l t t1 t' w} : Even i → no ≠ 0 → rng.geometric (1 / no) 1 t = (.ok w, t1) →
      Regions rng burst no std height (i + 1) l t1 t' → Regions rng burst no std height i ((w 0, 0) :: l) t t'
  | loud {i l t t1 t2 t' w a} : ¬ Even i → burst ≠ 0 → rng.geometric (1 / burst) 1 t = (.ok w, t1) →
      rng.normal height std t1 = (.ok a, t2) → Regions rng burst no std height (i + 1) l t2 t' →
      Regions rng burst no std height i ((w 0, a) :: l) t t'

/-- The values of all pixels of the regions. -/
def pixels (l : List (ℕ × ℝ)) : List ℝ := l.flatMap fun b => List.replicate b.1 b.2

/-- The regions cover `n` pixels, and all of them are needed for that. -/
def JustEnough (n : ℕ) (l : List (ℕ × ℝ)) : Prop :=
  n ≤ (pixels l).length ∧ ∀ k < l.length, (pixels (l.take k)).length < n

end SimCATS.Spec
