import Verif.Lemmas.DotJumps
import Verif.Lemmas.Telegraph

/-!
Lemmas about calls of `OccupationDotJumps.noise_function`.
-/

namespace SimCATS

open Spec

theorem blockwise_scale {α : Type} (axis : Axis) (rows cols : ℕ) (scale : Option ℝ) (hs : scale ≠ some 0) (orig : ℕ → ℕ → Option α)
    (noise : List ℕ) (empty : ℕ → ℕ → Option α) :
    dotJumpsBlockwise axis rows cols scale orig noise empty = dotJumpsBlockwise axis rows cols none orig noise empty := by
  unfold dotJumpsBlockwise
  have h0 : ¬ ((none : Option ℝ) = some 0) := by simp
  simp only [if_neg hs, if_neg h0]

theorem shiftImg_scale {α : Type} (axis : Axis) (rows cols m : ℕ) (scale : Option ℝ) (hs : scale ≠ some 0)
    (img : ℕ → ℕ → Option α) (noise : List ℕ) : shiftImg axis rows cols m scale img noise = shiftImg axis rows cols m none img noise := by
  unfold shiftImg
  cases axis <;> simp only [blockwise_scale _ _ _ scale hs]

theorem shiftDiag_scale {α : Type} (axis : Axis) (n m : ℕ) (scale : Option ℝ) (hs : scale ≠ some 0)
    (img : ℕ → ℕ → Option α) (noise : List ℕ) : shiftDiag axis n m scale img noise = shiftDiag axis n m none img noise := by
  unfold shiftDiag
  cases axis <;> simp only [blockwise_scale _ _ _ scale hs]

theorem apply2d_scale {σ : Type} (axis : Axis) (nan : ℝ) (rows cols : ℕ) (occ : Fin rows → Fin cols → ℝ × ℝ)
    (lead : Fin rows → Fin cols → ℕ) (g1 g2 : ℝ × ℝ) (gen : Gen σ) (scale : Option ℝ) (hs : scale ≠ some 0) (noise : List ℕ) :
    apply2d axis nan rows cols occ lead g1 g2 gen scale noise = apply2d axis nan rows cols occ lead g1 g2 gen none noise := by
  unfold apply2d
  simp only [shiftImg_scale _ _ _ _ scale hs]

theorem apply1d_scale {σ : Type} (axis : Axis) (np2 : Bool) (nan : ℝ) (n : ℕ) (occ : Fin n → ℝ × ℝ)
    (lead : Fin n → ℕ) (g1 g2 : ℝ × ℝ) (gen : Gen σ) (scale : Option ℝ) (hs : scale ≠ some 0) (noise : List ℕ) :
    apply1d axis np2 nan n occ lead g1 g2 gen scale noise = apply1d axis np2 nan n occ lead g1 g2 gen none noise := by
  unfold apply1d
  simp only [shiftDiag_scale _ _ _ scale hs]

/-! ### Calls without effect -/

theorem Spec.StateFree.pure {σ α : Type} (a : α) : StateFree (pure a : M σ α) := ⟨_, fun _ => rfl⟩

theorem Spec.StateFree.raise {σ α : Type} (e : PyErr) : StateFree (M.raise e : M σ α) := ⟨_, fun _ => rfl⟩

theorem Spec.StateFree.ofPy {σ α : Type} (x : Py α) : StateFree (SimCATS.ofPy x : M σ α) := ⟨_, fun _ => rfl⟩

theorem Spec.StateFree.bind {σ α β : Type} {x : M σ α} {f : α → M σ β} (hx : StateFree x) (hf : ∀ a, StateFree (f a)) :
    StateFree (x >>= f) := by
  obtain ⟨r, hr⟩ := hx
  cases r with
  | error e =>
    refine ⟨.error e, fun s => ?_⟩
    rw [M.bind_run, hr]
  | ok a =>
    obtain ⟨q, hq⟩ := hf a
    refine ⟨q, fun s => ?_⟩
    rw [M.bind_run, hr]
    exact hq s

theorem border2d_free {σ : Type} (axis : Axis) {gen : Gen σ} (hg : ∀ v1 v2 res, StateFree (gen v1 v2 res)) (g1 g2 : ℝ × ℝ)
    (rows cols m : ℕ) : StateFree (border2d axis gen g1 g2 rows cols m) := by
  unfold border2d
  split_ifs
  · exact .pure _
  · refine .bind ?_ fun data => ?_
    · cases axis <;> exact hg _ _ _
    · cases axis <;> exact .bind (.ofPy _) fun _ => .bind (.ofPy _) fun _ => .pure _

theorem apply2d_free {σ : Type} (axis : Axis) (nan : ℝ) (rows cols : ℕ) (occ : Fin rows → Fin cols → ℝ × ℝ)
    (lead : Fin rows → Fin cols → ℕ) (g1 g2 : ℝ × ℝ) {gen : Gen σ} (hg : ∀ v1 v2 res, StateFree (gen v1 v2 res))
    (scale : Option ℝ) (noise : List ℕ) : StateFree (apply2d axis nan rows cols occ lead g1 g2 gen scale noise) := by
  unfold apply2d
  exact .bind (.ofPy _) fun _ => .bind (border2d_free _ hg _ _ _ _ _) fun _ => .bind (.ofPy _) fun _ =>
    .bind (.ofPy _) fun _ => .bind (.ofPy _) fun _ => .pure _

theorem border1d_free {σ : Type} (axis : Axis) {gen : Gen σ} (hg : ∀ v1 v2 res, StateFree (gen v1 v2 res)) (g1 g2 : ℝ × ℝ)
    (n : ℕ) : ∀ (todo i : ℕ) (o : ℕ → ℕ → Option (ℝ × ℝ)) (l : ℕ → ℕ → Option ℕ), StateFree (border1d axis gen g1 g2 n todo i o l) := by
  intro todo
  induction todo with
  | zero => intro i o l; exact .pure _
  | succ todo ih =>
    intro i o l
    unfold border1d
    cases axis <;> exact .bind (hg _ _ _) fun _ => .bind (.ofPy _) fun _ => .bind (.ofPy _) fun _ => ih _ _ _

theorem apply1d_free {σ : Type} (axis : Axis) (np2 : Bool) (nan : ℝ) (n : ℕ) (occ : Fin n → ℝ × ℝ)
    (lead : Fin n → ℕ) (g1 g2 : ℝ × ℝ) {gen : Gen σ} (hg : ∀ v1 v2 res, StateFree (gen v1 v2 res)) (scale : Option ℝ)
    (noise : List ℕ) : StateFree (apply1d axis np2 nan n occ lead g1 g2 gen scale noise) := by
  unfold apply1d
  exact .bind (.ofPy _) fun _ => .bind (border1d_free _ hg _ _ _ _ _ _ _) fun _ => .bind (.ofPy _) fun _ =>
    .bind (.ofPy _) fun _ => .bind (.ofPy _) fun _ => .bind (.ofPy _) fun _ => .bind (.ofPy _) fun _ =>
    .bind (.ofPy _) fun _ => .pure _

theorem run1d_free {τ : Type} (d : DotJumps τ) (n : ℕ) (occ : Fin n → ℝ × ℝ) (lead : Fin n → ℕ) (g1 g2 : ℝ × ℝ)
    {gen : Gen (DotState × τ)} (hg : ∀ v1 v2 res, StateFree (gen v1 v2 res)) (p : List ℕ × Option ℝ) :
    StateFree (d.run1d n occ lead g1 g2 gen p) := by
  unfold DotJumps.run1d
  split_ifs
  · exact .bind (apply1d_free _ _ _ _ _ _ _ _ hg _ _) fun _ => .pure _
  · exact .bind (apply1d_free _ _ _ _ _ _ _ _ hg _ _) fun _ => .pure _

theorem run2d_free {τ : Type} (d : DotJumps τ) (r c : ℕ) (occ : Fin r → Fin c → ℝ × ℝ) (lead : Fin r → Fin c → ℕ) (g1 g2 : ℝ × ℝ)
    {gen : Gen (DotState × τ)} (hg : ∀ v1 v2 res, StateFree (gen v1 v2 res)) (p : List ℕ × Option ℝ) :
    StateFree (d.run2d r c occ lead g1 g2 gen p) := by
  unfold DotJumps.run2d
  exact .bind (apply2d_free _ _ _ _ _ _ _ _ hg _ _) fun _ => .pure _

theorem run1d_scale {τ : Type} (d : DotJumps τ) (n : ℕ) (occ : Fin n → ℝ × ℝ) (lead : Fin n → ℕ) (g1 g2 : ℝ × ℝ)
    (gen : Gen (DotState × τ)) (noise : List ℕ) (scale : Option ℝ) (hs : scale ≠ some 0) :
    d.run1d n occ lead g1 g2 gen (noise, scale) = d.run1d n occ lead g1 g2 gen (noise, none) := by
  unfold DotJumps.run1d
  simp only [apply1d_scale _ _ _ _ _ _ _ _ _ scale hs]

theorem run2d_scale {τ : Type} (d : DotJumps τ) (r c : ℕ) (occ : Fin r → Fin c → ℝ × ℝ) (lead : Fin r → Fin c → ℕ) (g1 g2 : ℝ × ℝ)
    (gen : Gen (DotState × τ)) (noise : List ℕ) (scale : Option ℝ) (hs : scale ≠ some 0) :
    d.run2d r c occ lead g1 g2 gen (noise, scale) = d.run2d r c occ lead g1 g2 gen (noise, none) := by
  unfold DotJumps.run2d
  simp only [apply2d_scale _ _ _ _ _ _ _ _ _ scale hs]

/-! ### Frozen calls -/

theorem reshape2_self {α : Type} (r c : ℕ) (f : Fin r → Fin c → α) : reshape2 r c (.d2 r c f) = .ok f := by
  simp [reshape2]

theorem as1d_self {α : Type} (n : ℕ) (f : Fin n → α) : as1d n (.d1 n f) = .ok f := by
  simp [as1d]

theorem frozen_2d {τ : Type} (d : DotJumps τ) (r c : ℕ) (occ : Fin r → Fin c → ℝ × ℝ) (lead : Fin r → Fin c → ℕ) (g1 g2 : ℝ × ℝ)
    (gen : Gen (DotState × τ)) (noise : List ℕ) (t : τ) :
    d.noiseFunction (.d2 r c occ, .d2 r c lead) g1 g2 gen true (⟨some true, some noise⟩, t) =
      d.run2d r c occ lead g1 g2 gen (noise, none) (⟨some true, some noise⟩, t) := by
  unfold DotJumps.noiseFunction
  rw [M.bind_run, getOwn_run]
  simp only [if_true]
  unfold DotJumps.active DotJumps.noise
  simp only [if_true]
  rw [M.bind_run, ofPy_run, reshape2_self]
  simp only
  rw [M.bind_run, M.bind_run, getOwn_run]
  simp only [M.pure_run]

theorem frozen_1d {τ : Type} (d : DotJumps τ) (n : ℕ) (occ : Fin n → ℝ × ℝ) (lead : Fin n → ℕ) (g1 g2 : ℝ × ℝ)
    (gen : Gen (DotState × τ)) (noise : List ℕ) (t : τ) :
    d.noiseFunction (.d1 n occ, .d1 n lead) g1 g2 gen true (⟨some true, some noise⟩, t) =
      d.run1d n occ lead g1 g2 gen (noise, none) (⟨some true, some noise⟩, t) := by
  unfold DotJumps.noiseFunction
  rw [M.bind_run, getOwn_run]
  simp only [if_true]
  unfold DotJumps.active DotJumps.noise
  simp only [if_true]
  rw [M.bind_run, ofPy_run, as1d_self]
  simp only
  rw [M.bind_run, M.bind_run, getOwn_run]
  simp only [M.pure_run]

theorem pixelParams_pos {k : Option ℝ} {scale lam sc la : ℝ} (h : pixelParams k scale lam = some (sc, la)) : 1 ≤ sc := by
  unfold pixelParams at h
  cases k with
  | none => cases h
  | some k =>
    simp only [Option.map_some, Option.some.injEq, Prod.mk.injEq] at h
    obtain ⟨h, -⟩ := h
    split_ifs at h with h1
    · rw [← h]
    · rw [← h]
      linarith

/-- A successful unfrozen draw of noise. -/
theorem noise_unfrozen {τ : Type} {d : DotJumps τ} {g1 g2 : ℝ × ℝ} {occ : Scan (ℝ × ℝ)} {size : ℕ} {s s' : DotState × τ}
    {p : List ℕ × Option ℝ} (h : d.noise g1 g2 occ size false s = (.ok p, s')) :
    p.2 ≠ some 0 ∧ s'.1 = ⟨some true, some p.1⟩ := by
  unfold DotJumps.noise at h
  simp only [Bool.false_eq_true, if_false] at h
  obtain ⟨sc, t1, -, h⟩ := M.bind_ok.mp h
  obtain ⟨la, t2, -, h⟩ := M.bind_ok.mp h
  cases hp : pixelParams (jumpFactor d.axis g1 g2 occ) sc la with
  | none =>
    rw [hp] at h
    cases h
  | some q =>
    obtain ⟨sc', la'⟩ := q
    rw [hp] at h
    simp only at h
    obtain ⟨noise, t3, -, h⟩ := M.bind_ok.mp h
    obtain ⟨u, t4, h4, h⟩ := M.bind_ok.mp h
    have := pixelParams_pos hp
    cases h4
    cases h
    refine ⟨?_, rfl⟩
    simp only [ne_eq, Option.some.injEq]
    linarith

end SimCATS
