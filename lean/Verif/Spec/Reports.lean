import Verif.Spec.History

/-!
What the values reported by distortion objects (`latest_sigma`, `activated`) should say about a measurement: the strength with which each
distortion was applied, and whether it was applied at all.
-/

namespace SimCATS.Spec

variable {τ O α : Type}

/-- Occupations `x` blurred with strength `σ` (in volts) and kernels of the given kind give `y`. -/
def BlurredWith (K : ℝ → Kernel) (g1 g2 : ℝ × ℝ) (σ : ℝ) (x y : CsdData) : Prop :=
  if σ ≤ 0 then y = x else ∃ k, blurFactor g1 g2 x.1 = some k ∧ y = (blurScan (K (σ * k)) x.1, x.2)

/-- The call does not use the part `own` of the state of the generators and samplers. -/
def Untouched {ω : Type} (own : τ → ω) (x : M τ α) : Prop := ∀ g, own (x g).2 = own g

/-- No call of the generator uses that part. -/
structure RngUntouched {ω : Type} (own : τ → ω) (rng : Rng τ) : Prop where
  binomial : ∀ p, Untouched own (rng.binomial p)
  geometric : ∀ p n, Untouched own (rng.geometric p n)
  poisson : ∀ lam, Untouched own (rng.poisson lam)
  normal : ∀ m s, Untouched own (rng.normal m s)

/-- None of the parameters and generators given to the object uses that part. -/
def OccUntouched {ω : Type} (own : τ → ω) : OccObject τ → Prop
  | .fermi _ sigma => Untouched own sigma
  | .gauss _ sigma => Untouched own sigma
  | .jumps _ scale lam _ _ rng _ _ => Untouched own scale ∧ Untouched own lam ∧ RngUntouched own rng

/-- The same for a distortion of the potential or the response. -/
def SigUntouched {ω : Type} (own : τ → ω) : SigObject τ → Prop
  | .additive _ sigma noise => Untouched own sigma ∧ ∀ v n, Untouched own (noise v n)
  | .rtn _ scale std height _ rng => Untouched own scale ∧ Untouched own std ∧ Untouched own height ∧ RngUntouched own rng

/-- An occupation distortion that reports `rep` has turned `x` into `y`, while the generators went from `g` to `g'`: a blurring has used the
reported strength, which was drawn for this measurement; dot jumps have been switched on or off as reported, according to a draw for this
measurement, and have changed nothing if they are off.  In any case they have only used their own parameters and generator. -/
def OccDid (g1 g2 : ℝ × ℝ) (rep : Option ℝ × Option Bool) (d : OccObject τ) (x : CsdData) (g : τ) (y : CsdData) (g' : τ) : Prop :=
  match d with
  | .fermi _ sigma => ∃ σ, sigma g = (.ok σ, g') ∧ rep = (some σ, none) ∧ BlurredWith fermiKernel g1 g2 σ x y
  | .gauss _ sigma => ∃ σ, sigma g = (.ok σ, g') ∧ rep = (some σ, none) ∧ BlurredWith gaussKernel g1 g2 σ x y
  | .jumps i scale lam axis ratio rng np2 nan =>
    ∃ b h, rng.binomial ratio g = (.ok b, h) ∧ rep = (none, some b) ∧ (b = false → y = x ∧ g' = h) ∧
      ∀ (ω : Type) (own : τ → ω), OccUntouched own (.jumps i scale lam axis ratio rng np2 nan) → own g' = own g

/-- The same for a distortion of the potential or the response: noise of the reported strength was drawn and added. -/
def SigDid (rep : Option ℝ × Option Bool) (d : SigObject τ) (x : Scan ℝ) (g : τ) (y : Scan ℝ) (g' : τ) : Prop :=
  match d with
  | .additive _ sigma noise => ∃ σ h l, sigma g = (.ok σ, h) ∧ noise σ x.size h = (.ok l, g') ∧ rep = (some σ, none) ∧ addNoise x l = .ok y
  | .rtn i scale std height ratio rng =>
    ∃ b h, rng.binomial ratio g = (.ok b, h) ∧ rep = (none, some b) ∧ (b = false → y = x ∧ g' = h) ∧
      ∀ (ω : Type) (own : τ → ω), SigUntouched own (.rtn i scale std height ratio rng) → own g' = own g

/-- The steps of a list of objects one after the other. -/
inductive Steps (step : O → α → τ → α → τ → Prop) : List O → α → τ → α → τ → Prop
  | nil (x : α) (g : τ) : Steps step [] x g x g
  | cons {o : O} {os : List O} {x y z : α} {g h g' : τ} (first : step o x g y h) (rest : Steps step os y h z g') :
    Steps step (o :: os) x g z g'

/-- One object is applied to several signals; what it reports describes each of them. -/
inductive EachTold (rep : Option ℝ × Option Bool) (d : SigObject τ) : List (Scan ℝ) → τ → List (Scan ℝ) → τ → Prop
  | nil (g : τ) : EachTold rep d [] g [] g
  | cons {x y : Scan ℝ} {xs ys : List (Scan ℝ)} {g h g' : τ} (first : SigDid rep d x g y h) (rest : EachTold rep d xs h ys g') :
    EachTold rep d (x :: xs) g (y :: ys) g'

/-- One object is applied to several signals; what it reports describes the last one. -/
inductive LastTold (rep : Option ℝ × Option Bool) (d : SigObject τ) : List (Scan ℝ) → τ → List (Scan ℝ) → τ → Prop
  | last {x y : Scan ℝ} {g g' : τ} (only : SigDid rep d x g y g') : LastTold rep d [x] g [y] g'
  | cons {r : Option ℝ × Option Bool} {x y : Scan ℝ} {xs ys : List (Scan ℝ)} {g h g' : τ} (first : SigDid r d x g y h)
    (rest : LastTold rep d xs h ys g') : LastTold rep d (x :: xs) g (y :: ys) g'

/-- No object is used twice. -/
def Distinct (sim : AnySim τ) : Prop :=
  ((sim.occ.getD []).map occName ++ (sim.pot.getD []).map sigName ++ (sim.resp.getD []).map sigName).Nodup
where
  /-- The object that keeps the values of a distortion. -/
  occName : OccObject τ → Fin 3 × ℕ
    | .fermi i _ => (0, i)
    | .gauss i _ => (0, i)
    | .jumps i .. => (1, i)
  /-- The object that keeps the values of a distortion. -/
  sigName : SigObject τ → Fin 3 × ℕ
    | .additive i _ _ => (0, i)
    | .rtn i .. => (2, i)

end SimCATS.Spec
