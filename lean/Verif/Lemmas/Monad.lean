import Verif.Model.Simulation

/-!
Lemmas about the monad of stateful calls.
-/

namespace SimCATS

@[simp] theorem M.pure_run {σ α : Type} (a : α) (s : σ) : (pure a : M σ α) s = (.ok a, s) := rfl

@[simp] theorem M.raise_run {σ α : Type} (e : PyErr) (s : σ) : (M.raise e : M σ α) s = (.error e, s) := rfl

theorem M.bind_run {σ α β : Type} (x : M σ α) (f : α → M σ β) (s : σ) : (x >>= f) s =
    match x s with
    | (.ok a, s') => f a s'
    | (.error e, s') => (.error e, s') := rfl

theorem M.bind_ok {σ α β : Type} {x : M σ α} {f : α → M σ β} {s s' : σ} {b : β} :
    (x >>= f) s = (.ok b, s') ↔ ∃ a t, x s = (.ok a, t) ∧ f a t = (.ok b, s') := by
  rw [M.bind_run]
  constructor
  · intro h
    split at h
    · rename_i a t e
      exact ⟨a, t, e, h⟩
    · cases h
  · rintro ⟨a, t, e, h⟩
    rw [e]
    exact h

instance {σ : Type} : LawfulMonad (M σ) := LawfulMonad.mk'
  (id_map := by
    intro α x
    funext s
    change M.andThen x (fun a => M.ret (id a)) s = x s
    unfold M.andThen M.ret
    split <;> simp_all)
  (pure_bind := by intros; rfl)
  (bind_assoc := by
    intro α β γ x f g
    funext s
    change M.andThen (M.andThen x f) g s = M.andThen x (fun a => M.andThen (f a) g) s
    unfold M.andThen
    rcases x s with ⟨⟨e⟩ | ⟨a⟩, t⟩ <;> rfl)

theorem ofPy_run {σ α : Type} (x : Py α) (s : σ) : (ofPy x : M σ α) s = (x, s) := rfl

end SimCATS
