import Verif.Model.Simulation

/-! Specifications for the signal path of a measurement. -/

namespace SimCATS.Spec

/-- A list of distortions turns signal `x` into signal `y` while the state changes from `s` to `t`: the last distortion of the list gets the
result (and the state) left by the ones before it. -/
inductive Applied {σ : Type} (g1 g2 : ℝ × ℝ) : List (SigDist σ) → Scan ℝ → σ → Scan ℝ → σ → Prop
  | none (x : Scan ℝ) (s : σ) : Applied g1 g2 [] x s x s
  | last {ds : List (SigDist σ)} {d : SigDist σ} {x y z : Scan ℝ} {s t u : σ} (before : Applied g1 g2 ds x s y t)
      (call : d y g1 g2 t = (.ok z, u)) : Applied g1 g2 (ds ++ [d]) x s z u

/-- One distortion is applied to each signal of a list, from the first one to the last one. -/
inductive EachSignal {σ : Type} (g1 g2 : ℝ × ℝ) (d : SigDist σ) : List (Scan ℝ) → σ → List (Scan ℝ) → σ → Prop
  | none (s : σ) : EachSignal g1 g2 d [] s [] s
  | last {ps qs : List (Scan ℝ)} {p q : Scan ℝ} {s t u : σ} (before : EachSignal g1 g2 d ps s qs t)
      (call : d p g1 g2 t = (.ok q, u)) : EachSignal g1 g2 d (ps ++ [p]) s (qs ++ [q]) u

/-- A list of distortions is applied to several signals: each distortion to all signals before the next one is applied. -/
inductive AppliedEach {σ : Type} (g1 g2 : ℝ × ℝ) : List (SigDist σ) → List (Scan ℝ) → σ → List (Scan ℝ) → σ → Prop
  | none (ps : List (Scan ℝ)) (s : σ) : AppliedEach g1 g2 [] ps s ps s
  | last {ds : List (SigDist σ)} {d : SigDist σ} {ps qs rs : List (Scan ℝ)} {s t u : σ} (before : AppliedEach g1 g2 ds ps s qs t)
      (call : EachSignal g1 g2 d qs t rs u) : AppliedEach g1 g2 (ds ++ [d]) ps s rs u

/-- What the potential distortions do: they change potentials that have as many axes as the scan, and leave other ones alone. -/
def PotentialDistorted {σ : Type} (g1 g2 : ℝ × ℝ) (occ : Scan (ℝ × ℝ)) (ds : List (SigDist σ)) (pot : Pot) (s : σ) (pot' : Pot) (t : σ) : Prop :=
  match pot, pot' with
  | .single p, .single q =>
    (p.shape.length = occ.shape.length ∧ Applied g1 g2 ds p s q t) ∨ (p.shape.length ≠ occ.shape.length ∧ q = p ∧ t = s)
  | .multi ps, .multi qs =>
    ((∀ p ∈ ps, p.shape.length = occ.shape.length) ∧ AppliedEach g1 g2 ds ps s qs t) ∨
      ((∃ p ∈ ps, p.shape.length ≠ occ.shape.length) ∧ qs = ps ∧ t = s)
  | _, _ => False

/-- Signal of a conductive peak at potential `mu`. -/
noncomputable def peakSignal (p : Peak) (mu : ℝ) : ℝ :=
  match p.kind with
  | .lorentzian => p.offset + p.height * p.width ^ 2 / (p.width ^ 2 + (mu - p.mu0) ^ 2)
  | .gaussian => p.offset + p.height * Real.exp (-(mu - p.mu0) ^ 2 / p.width ^ 2)

/-- Signal of a sensor at a pixel with occupation `o` and gate voltages `v`: the sum of its peaks at the potential of the sensor dot, or
the potential itself for a sensor without peak functions. -/
noncomputable def sensorSignal (peaks : Option (List Peak)) (alphaDot alphaGate : ℝ × ℝ) (offset : ℝ) (o v : ℝ × ℝ) : ℝ :=
  let mu := offset + (alphaDot.1 * o.1 + alphaDot.2 * o.2) + (alphaGate.1 * v.1 + alphaGate.2 * v.2)
  match peaks with
  | none => mu
  | some ps => (ps.map fun p => peakSignal p mu).sum

end SimCATS.Spec
