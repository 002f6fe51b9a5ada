import Verif.Model.Proc
import Verif.Lemmas.Samplers

/-! Reasoning about procedures with loops. -/

namespace SimCATS

variable {τ α β : Type}

/-- Every call that ends returns normally, with a value that satisfies `Q`. -/
def Proc.Ensures (x : Proc τ α) (Q : α → Prop) : Prop := ∀ s r, x s r → ∃ a s', r = (.ok a, s') ∧ Q a

theorem Proc.Ensures.mono {x : Proc τ α} {Q R : α → Prop} (h : x.Ensures Q) (hq : ∀ a, Q a → R a) : x.Ensures R := by
  intro s r hx
  obtain ⟨a, s', e, ha⟩ := h s r hx
  exact ⟨a, s', e, hq a ha⟩

theorem Proc.ensures_pure {a : α} {Q : α → Prop} (h : Q a) : (pure a : Proc τ α).Ensures Q := by
  intro s r hx
  exact ⟨a, s, hx, h⟩

theorem Proc.Ensures.bind {x : Proc τ α} {f : α → Proc τ β} {Q : α → Prop} {R : β → Prop} (hx : x.Ensures Q)
    (hf : ∀ a, Q a → (f a).Ensures R) : (x >>= f).Ensures R := by
  intro s r h
  rcases h with ⟨a, s', h1, h2⟩ | ⟨e, s', h1, -⟩
  · obtain ⟨b, t, eb, hb⟩ := hx s _ h1
    cases eb
    exact hf _ hb _ _ h2
  · obtain ⟨b, t, eb, hb⟩ := hx s _ h1
    cases eb

theorem Proc.ensures_while {good : α → Prop} {body : α → Proc τ α} {Q : α → Prop}
    (hb : ∀ a, Q a → ¬ good a → (body a).Ensures Q) {a : α} (ha : Q a) :
    Proc.Ensures (fun s r => Proc.While good body a s r) fun b => Q b ∧ good b := by
  intro s r h
  induction h with
  | stop hg => exact ⟨_, _, rfl, ha, hg⟩
  | again hg h1 _ ih =>
    obtain ⟨b, t, eb, hq⟩ := hb _ ha hg _ _ h1
    cases eb
    exact ih hq
  | fail hg h1 =>
    obtain ⟨b, t, eb, hq⟩ := hb _ ha hg _ _ h1
    cases eb

theorem Proc.ensures_until {good : α → Prop} {body : Proc τ α} {Q : α → Prop} (hb : body.Ensures Q) :
    (Proc.until good body).Ensures fun b => Q b ∧ good b :=
  hb.bind fun _ ha => Proc.ensures_while (fun _ _ _ => hb) ha

theorem ensures_uniform {rng : CfgRng τ} (hv : rng.Valid) {a b : ℝ} (h : a ≤ b) :
    (Proc.call (rng.uniform a b)).Ensures fun v => a ≤ v ∧ v ≤ b := by
  intro s r hx
  obtain ⟨v, s', e⟩ := hv.uniform_ok a b s h
  refine ⟨v, s', ?_, hv.draws.uniform a b s v s' h e⟩
  rw [← e]; exact hx.symm

theorem ensures_choice {rng : CfgRng τ} (hv : rng.Valid) {a b : ℕ} (h : a ≤ b) :
    (Proc.call (rng.choice a b)).Ensures fun v => a ≤ v ∧ v ≤ b := by
  intro s r hx
  obtain ⟨v, s', e, hv⟩ := hv.choice_ok a b s h
  refine ⟨v, s', ?_, hv⟩
  rw [← e]; exact hx.symm

end SimCATS
