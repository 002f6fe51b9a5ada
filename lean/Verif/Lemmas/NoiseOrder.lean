import Verif.Spec.NoiseOrder
import Verif.Lemmas.BurstSim

/-!
Lemmas on the order of noises.
-/

namespace SimCATS

open Spec

variable {τ σ α β γ : Type}

section apart

theorem NoInteraction.symm {x : M σ α} {y : M σ β} (h : NoInteraction x y) : NoInteraction y x := fun g => ⟨(h g).2.1, (h g).1, (h g).2.2.symm⟩

theorem NoInteraction.pure (a : α) (y : M σ β) : NoInteraction (pure a : M σ α) y := fun _ => ⟨rfl, rfl, rfl⟩

theorem NoInteraction.raise (e : PyErr) (y : M σ β) : NoInteraction (M.raise e : M σ α) y := fun _ => ⟨rfl, rfl, rfl⟩

theorem NoInteraction.bind {x : M σ α} {f : α → M σ γ} {y : M σ β} (hx : NoInteraction x y) (hf : ∀ a, NoInteraction (f a) y) : NoInteraction (x >>= f) y := by
  intro g
  obtain ⟨h1, h2, h3⟩ := hx g
  rw [M.bind_run, M.bind_run]
  rcases hxg : x g with ⟨r, g1⟩
  rcases hxy : x (y g).2 with ⟨r', g2⟩
  rw [hxg, hxy] at h1 h3
  rw [hxg] at h2
  dsimp only at h1 h2 h3
  subst h1
  cases r' with
  | error e => exact ⟨rfl, h2, h3⟩
  | ok a =>
    dsimp only
    obtain ⟨k1, k2, k3⟩ := hf a g1
    rw [← h3]
    exact ⟨k1, k2.trans h2, k3⟩

/-- The order of two calls that succeed. -/
theorem NoInteraction.swap {x : M σ α} {y : M σ β} (h : NoInteraction x y) {s s1 s2 : σ} {a : α} {b : β} (h1 : x s = (.ok a, s1)) (h2 : y s1 = (.ok b, s2)) :
    ∃ t, y s = (.ok b, t) ∧ x t = (.ok a, s2) := by
  obtain ⟨k1, k2, k3⟩ := h s
  rw [h1] at k1 k2 k3
  dsimp only at k1 k2 k3
  rw [h2] at k2 k3
  exact ⟨(y s).2, Prod.ext k2.symm rfl, Prod.ext k1 k3.symm⟩

end apart

section draws

/-- The numbers that telegraph noise adds. -/
noncomputable def teleDraw (rng : Rng τ) (size : ℕ) (scale : Option ℝ) (std height : ℝ) : M τ (List ℝ) :=
  open Classical in
  match scale with
  | none => M.raise .valueError
  | some scale =>
    if scale = 0 then pure (List.replicate size 0)
    else rng.geometric (1 / scale) size >>= fun w => burstLoop (rng.normal height std) size w size 0 0 [] >>= fun noise => pure (noise.take size)

/-- The report of a noise object and the numbers that it adds. -/
noncomputable def noiseOf (x : Scan ℝ) (g1 g2 : ℝ × ℝ) : SigObject τ → M τ ((Option ℝ × Option Bool) × List ℝ)
  | .additive _ sigma noise => sigma >>= fun v => noise v x.size >>= fun l => pure ((some v, none), l)
  | .rtn _ scale std height ratio rng => rng.binomial ratio >>= fun b =>
    if b = false then pure ((none, some b), List.replicate x.size 0)
    else scale >>= fun sc => std >>= fun sd => height >>= fun he =>
      teleDraw rng x.size ((rtnFactor g1 g2 x).map fun k => sc * k) sd he >>= fun l => pure ((none, some b), l)

/-- The state after a report. -/
def record (rep : Option ℝ × Option Bool) (s : ObjState τ) : SigObject τ → ObjState τ
  | .additive i _ _ => { s with sigma := Function.update s.sigma i rep.1 }
  | .rtn i .. => { s with active := Function.update s.active i rep.2 }

theorem addNoise_zero (x : Scan ℝ) : addNoise x (List.replicate x.size 0) = .ok x := by
  unfold addNoise
  rw [if_neg (by simp)]
  cases x with
  | d0 v => simp [Scan.size]
  | d1 n f => simp [Scan.size, List.getD_eq_getElem?_getD, List.getElem?_replicate]
  | d2 r c f =>
    dsimp only
    congr 2
    funext i j
    rw [List.getD_eq_getElem?_getD, List.getElem?_replicate]
    split_ifs <;> simp

theorem telegraph_draw (rng : Rng τ) (x : Scan ℝ) (scale : Option ℝ) (std height : ℝ) :
    telegraphNoise rng x scale std height = teleDraw rng x.size scale std height >>= fun l => ofPy (addNoise x l) := by
  unfold telegraphNoise teleDraw
  cases scale with
  | none => rfl
  | some sc =>
    dsimp only
    by_cases h : sc = 0
    · rw [if_pos h, if_pos h, pure_bind, addNoise_zero]
      rfl
    · rw [if_neg h, if_neg h]
      simp only [bind_assoc, pure_bind]

theorem drawing_bind (x : M τ α) (f : α → M τ β) : drawing (x >>= f) = drawing x >>= fun a => drawing (f a) := by
  funext s
  rw [M.bind_run]
  unfold drawing
  rw [M.bind_run]
  rcases x s.gens with ⟨r, t⟩
  cases r <;> rfl

theorem drawing_pure (a : α) : drawing (pure a : M τ α) = pure a := rfl

theorem drawing_loop [Semiring α] (amp : M τ α) (size : ℕ) (width : ℕ → ℕ) : ∀ (n i bi : ℕ) (l : List α),
    burstLoop (drawing amp) size width n i bi l = drawing (burstLoop amp size width n i bi l)
  | 0, _, _, _ => rfl
  | n + 1, i, bi, l => by
    unfold burstLoop
    by_cases h : 0 < width i
    · rw [if_pos h, if_pos h, drawing_bind]
      congr 1
      funext a
      dsimp only
      by_cases h' : size ≤ (l ++ List.replicate (width i) ((bi : α) * a)).length
      · rw [if_pos h', if_pos h']
        rfl
      · rw [if_neg h', if_neg h']
        exact drawing_loop amp size width n _ _ _
    · rw [if_neg h, if_neg h]
      by_cases h' : size ≤ l.length
      · rw [if_pos h', if_pos h']
        rfl
      · rw [if_neg h', if_neg h']
        exact drawing_loop amp size width n _ _ _

theorem drawing_tele (rng : Rng τ) (size : ℕ) (scale : Option ℝ) (std height : ℝ) :
    teleDraw rng.drawing size scale std height = drawing (teleDraw rng size scale std height) := by
  unfold teleDraw
  cases scale with
  | none => rfl
  | some sc =>
    dsimp only
    by_cases h : sc = 0
    · rw [if_pos h, if_pos h]
      rfl
    · rw [if_neg h, if_neg h, drawing_bind]
      congr 1
      funext w
      rw [drawing_bind, ← drawing_loop]
      rfl

theorem drawing_iff {x : M τ α} {s s' : ObjState τ} {a : α} : drawing x s = (.ok a, s') ↔ ∃ g, x s.gens = (.ok a, g) ∧ s' = { s with gens := g } := by
  unfold drawing
  rcases x s.gens with ⟨r, t⟩
  constructor
  · intro h
    simp only [Prod.mk.injEq] at h
    exact ⟨t, by rw [h.1], h.2.symm⟩
  · rintro ⟨g, h, rfl⟩
    simp only [Prod.mk.injEq] at h
    rw [h.1, h.2]

theorem onRest_iff {D : Type} {x : M σ α} {d : D} {s : σ} {a : α} {p : D × σ} :
    onRest x (d, s) = (.ok a, p) ↔ ∃ s', x s = (.ok a, s') ∧ p = (d, s') := by
  unfold onRest
  rcases x s with ⟨r, t⟩
  constructor
  · intro h
    simp only [Prod.mk.injEq] at h
    exact ⟨t, by rw [h.1], h.2.symm⟩
  · rintro ⟨g, h, rfl⟩
    simp only [Prod.mk.injEq] at h
    dsimp only
    rw [h.1, h.2]

theorem slot_ok {D : Type} (L : Slot σ D) {x : M (D × σ) α} {s s' : σ} {a : α} :
    L.run x s = (.ok a, s') ↔ ∃ p, x (L.get s, s) = (.ok a, p) ∧ s' = L.put p.1 p.2 := by
  unfold Slot.run
  rcases x (L.get s, s) with ⟨r, p⟩
  constructor
  · intro h
    simp only [Prod.mk.injEq] at h
    exact ⟨p, by rw [h.1], h.2.symm⟩
  · rintro ⟨q, h, rfl⟩
    simp only [Prod.mk.injEq] at h
    dsimp only
    rw [h.1, h.2]

theorem ofPy_ok {x : Py α} {s s' : σ} {a : α} : (ofPy x : M σ α) s = (.ok a, s') ↔ x = .ok a ∧ s' = s := by
  rw [ofPy_run, Prod.mk.injEq, eq_comm (a := s)]

theorem pure_ok {a b : α} {s s' : σ} : (pure a : M σ α) s = (.ok b, s') ↔ b = a ∧ s' = s := by
  rw [M.pure_run, Prod.mk.injEq, Except.ok.injEq, eq_comm (a := a), eq_comm (a := s)]

/-- A noise object that succeeds: it draws its report and the numbers to add. -/
theorem dist_ok (o : SigObject τ) (x : Scan ℝ) (g1 g2 : ℝ × ℝ) (s s' : ObjState τ) (y : Scan ℝ) : o.dist x g1 g2 s = (.ok y, s') ↔
    ∃ rep l g, noiseOf x g1 g2 o s.gens = (.ok (rep, l), g) ∧ addNoise x l = .ok y ∧ s' = record rep { s with gens := g } o := by
  cases o with
  | additive i sigma noise =>
    unfold SigObject.dist SigDist.on
    dsimp only
    rw [slot_ok]
    unfold WhiteNoise.noiseFunction noiseOf
    simp only [M.bind_ok]
    constructor
    · rintro ⟨p, ⟨v, t, hv, _, t2, hset, l, t3, hl, ha⟩, rfl⟩
      obtain ⟨_, hvr, rfl⟩ := onRest_iff.mp hv
      obtain ⟨g, hvd, rfl⟩ := drawing_iff.mp hvr
      cases hset
      obtain ⟨_, hlr, rfl⟩ := onRest_iff.mp hl
      obtain ⟨g', hld, rfl⟩ := drawing_iff.mp hlr
      obtain ⟨ha', rfl⟩ := ofPy_ok.mp ha
      exact ⟨_, _, _, ⟨v, g, hvd, l, g', hld, rfl⟩, ha', rfl⟩
    · rintro ⟨rep, l, g, ⟨v, g0, hv, l', g', hl, hp⟩, ha, rfl⟩
      obtain ⟨h, rfl⟩ := pure_ok.mp hp
      cases h
      refine ⟨(some v, { s with gens := g }), ⟨v, _, onRest_eq (drawing_eq hv) _, (), (some v, { s with gens := g0 }), rfl, l,
        (some v, { s with gens := g }), onRest_eq (drawing_eq (s := { s with gens := g0 }) hl) _, ?_⟩, rfl⟩
      rw [ofPy_run, ha]
  | rtn i scale std height ratio rng =>
    unfold SigObject.dist SigDist.on
    dsimp only
    rw [slot_ok]
    unfold Rtn.noiseFunction noiseOf
    simp only [M.bind_ok]
    constructor
    · rintro ⟨p, ⟨b, t, hb, _, t2, hset, hrest⟩, rfl⟩
      obtain ⟨_, hbr, rfl⟩ := onRest_iff.mp hb
      obtain ⟨g, hbd, rfl⟩ := drawing_iff.mp hbr
      cases hset
      cases b with
      | false =>
        rw [if_pos rfl] at hrest
        obtain ⟨rfl, rfl⟩ := pure_ok.mp hrest
        exact ⟨(none, some false), List.replicate y.size 0, g, ⟨false, g, hbd, rfl⟩, addNoise_zero y, rfl⟩
      | true =>
        rw [if_neg (by simp)] at hrest
        simp only [M.bind_ok] at hrest
        obtain ⟨sc, t1, h1, sd, t2, h2, he, t3, h3, h4⟩ := hrest
        obtain ⟨_, h1r, rfl⟩ := onRest_iff.mp h1
        obtain ⟨u1, h1d, rfl⟩ := drawing_iff.mp h1r
        obtain ⟨_, h2r, rfl⟩ := onRest_iff.mp h2
        obtain ⟨u2, h2d, rfl⟩ := drawing_iff.mp h2r
        obtain ⟨_, h3r, rfl⟩ := onRest_iff.mp h3
        obtain ⟨u3, h3d, rfl⟩ := drawing_iff.mp h3r
        obtain ⟨_, h4r, rfl⟩ := onRest_iff.mp h4
        rw [telegraph_draw, drawing_tele] at h4r
        obtain ⟨l, _, h6, h5⟩ := M.bind_ok.mp h4r
        obtain ⟨u4, h7, rfl⟩ := drawing_iff.mp h6
        obtain ⟨ha, rfl⟩ := ofPy_ok.mp h5
        refine ⟨(none, some true), l, u4, ⟨true, g, hbd, ?_⟩, ha, rfl⟩
        rw [if_neg (by simp)]
        exact M.bind_ok.mpr ⟨sc, u1, h1d, M.bind_ok.mpr ⟨sd, u2, h2d, M.bind_ok.mpr ⟨he, u3, h3d, M.bind_ok.mpr ⟨l, u4, h7, rfl⟩⟩⟩⟩
    · rintro ⟨rep, l, g, ⟨b, g0, hb, hrest⟩, ha, rfl⟩
      cases b with
      | false =>
        rw [if_pos rfl] at hrest
        obtain ⟨h, rfl⟩ := pure_ok.mp hrest
        cases h
        rw [addNoise_zero, Except.ok.injEq] at ha
        subst ha
        exact ⟨(some false, { s with gens := g }), ⟨false, _, onRest_eq (drawing_eq hb) _, (), (some false, { s with gens := g }), rfl, rfl⟩, rfl⟩
      | true =>
        rw [if_neg (by simp)] at hrest
        obtain ⟨sc, u1, h1, h⟩ := M.bind_ok.mp hrest
        obtain ⟨sd, u2, h2, h⟩ := M.bind_ok.mp h
        obtain ⟨he, u3, h3, h⟩ := M.bind_ok.mp h
        obtain ⟨l', u4, h4, h⟩ := M.bind_ok.mp h
        obtain ⟨h, rfl⟩ := pure_ok.mp h
        cases h
        refine ⟨(some true, { s with gens := g }), ⟨true, _, onRest_eq (drawing_eq hb) _, (), (some true, { s with gens := g0 }), rfl, ?_⟩, rfl⟩
        rw [if_neg (by simp)]
        refine M.bind_ok.mpr ⟨sc, (some true, { s with gens := u1 }), onRest_eq (drawing_eq (s := { s with gens := g0 }) h1) _, ?_⟩
        refine M.bind_ok.mpr ⟨sd, (some true, { s with gens := u2 }), onRest_eq (drawing_eq (s := { s with gens := u1 }) h2) _, ?_⟩
        refine M.bind_ok.mpr ⟨he, (some true, { s with gens := u3 }), onRest_eq (drawing_eq (s := { s with gens := u2 }) h3) _, ?_⟩
        refine onRest_eq ?_ _
        rw [telegraph_draw, drawing_tele]
        refine M.bind_ok.mpr ⟨l, { s with gens := g }, drawing_eq (s := { s with gens := u3 }) h4, ?_⟩
        rw [ofPy_run, ha]

theorem apart_loop [Semiring α] {amp : M τ α} {y : M τ β} (h : NoInteraction amp y) (size : ℕ) (width : ℕ → ℕ) : ∀ (n i bi : ℕ) (l : List α),
    NoInteraction (burstLoop amp size width n i bi l) y
  | 0, _, _, _ => NoInteraction.pure _ _
  | n + 1, i, bi, l => by
    unfold burstLoop
    by_cases h0 : 0 < width i
    · rw [if_pos h0]
      refine NoInteraction.bind h fun a => ?_
      dsimp only
      by_cases h1 : size ≤ (l ++ List.replicate (width i) ((bi : α) * a)).length
      · rw [if_pos h1]
        exact NoInteraction.pure _ _
      · rw [if_neg h1]
        exact apart_loop h size width n _ _ _
    · rw [if_neg h0]
      split_ifs
      · exact NoInteraction.pure _ _
      · exact apart_loop h size width n _ _ _

/-- A call that is apart from every call of an object is apart from its draws. -/
theorem apart_noise {y : M τ β} {o : SigObject τ} (h : EveryCall (fun _ x => NoInteraction x y) o) (x : Scan ℝ) (g1 g2 : ℝ × ℝ) :
    NoInteraction (noiseOf x g1 g2 o) y := by
  cases o with
  | additive i sigma noise => exact NoInteraction.bind h.1 fun v => NoInteraction.bind (h.2 v _) fun l => NoInteraction.pure _ _
  | rtn i scale std height ratio rng =>
    obtain ⟨h1, h2, h3, h4⟩ := h
    refine NoInteraction.bind (h4.binomial _) fun b => ?_
    split_ifs
    · exact NoInteraction.pure _ _
    · refine NoInteraction.bind h1 fun sc => NoInteraction.bind h2 fun sd => NoInteraction.bind h3 fun he => NoInteraction.bind ?_ fun l => NoInteraction.pure _ _
      unfold teleDraw
      cases (rtnFactor g1 g2 x).map fun k => sc * k with
      | none => exact NoInteraction.raise _ _
      | some v =>
        dsimp only
        split_ifs
        · exact NoInteraction.pure _ _
        · exact NoInteraction.bind (h4.geometric _ _) fun w => NoInteraction.bind (apart_loop (h4.normal _ _) _ _ _ _ _ _) fun l => NoInteraction.pure _ _

theorem everyCall_mono {C C' : ∀ α : Type, M τ α → Prop} (hC : ∀ (α : Type) (x : M τ α), C α x → C' α x) {o : SigObject τ}
    (h : EveryCall C o) : EveryCall C' o := by
  cases o with
  | additive i sigma noise => exact ⟨hC _ _ h.1, fun v n => hC _ _ (h.2 v n)⟩
  | rtn i scale std height ratio rng =>
    exact ⟨hC _ _ h.1, hC _ _ h.2.1, hC _ _ h.2.2.1, ⟨fun p => hC _ _ (h.2.2.2.binomial p), fun p n => hC _ _ (h.2.2.2.geometric p n),
      fun l => hC _ _ (h.2.2.2.poisson l), fun m s => hC _ _ (h.2.2.2.normal m s)⟩⟩

/-- The draws of two objects with own generators are apart. -/
theorem own_apart {a b : SigObject τ} (h : OwnGenerators a b) (x u : Scan ℝ) (g1 g2 : ℝ × ℝ) : NoInteraction (noiseOf x g1 g2 a) (noiseOf u g1 g2 b) :=
  apart_noise (everyCall_mono (fun _ _ hx => NoInteraction.symm (apart_noise (everyCall_mono (fun _ _ hy => NoInteraction.symm hy) hx) u g1 g2)) h) x g1 g2

end draws

section swap

/-- The number of axes and their lengths. -/
def dims : Scan α → List ℕ
  | .d0 _ => []
  | .d1 n _ => [n]
  | .d2 r c _ => [r, c]

theorem addNoise_dims {x y : Scan ℝ} {l : List ℝ} (h : addNoise x l = .ok y) : dims y = dims x := by
  unfold addNoise at h
  split_ifs at h
  cases x <;> (cases h; rfl)

theorem dims_size {x y : Scan ℝ} (h : dims x = dims y) : x.size = y.size := by
  cases x <;> cases y <;> simp_all [dims, Scan.size]

theorem addNoise_fits {x y x' : Scan ℝ} {l : List ℝ} (h : addNoise x l = .ok y) (hd : dims x' = dims x) : ∃ y', addNoise x' l = .ok y' := by
  unfold addNoise at h ⊢
  split_ifs at h with hl
  rw [if_neg (by rw [dims_size hd]; exact hl)]
  cases x' <;> exact ⟨_, rfl⟩

/-- Numbers can be added in any order. -/
theorem addNoise_comm {x y z u : Scan ℝ} {l m : List ℝ} (h1 : addNoise x l = .ok y) (h2 : addNoise y m = .ok z) (h3 : addNoise x m = .ok u) :
    addNoise u l = .ok z := by
  unfold addNoise at h1 h2 h3 ⊢
  split_ifs at h1 with hl
  split_ifs at h3 with hm
  cases x with
  | d0 v =>
    cases h1
    cases h3
    rw [if_neg (by simpa [Scan.size] using hm)] at h2
    rw [if_neg (by simpa [Scan.size] using hl)]
    cases h2
    simp only [add_right_comm]
  | d1 n f =>
    cases h1
    cases h3
    rw [if_neg (by simpa [Scan.size] using hm)] at h2
    rw [if_neg (by simpa [Scan.size] using hl)]
    cases h2
    simp only [add_right_comm]
  | d2 r c f =>
    cases h1
    cases h3
    rw [if_neg (by simpa [Scan.size] using hm)] at h2
    rw [if_neg (by simpa [Scan.size] using hl)]
    cases h2
    simp only [add_right_comm]

/-- A distortion that adds numbers that do not depend on the signal. -/
def Adds (g1 g2 : ℝ × ℝ) (d : SigDist σ) : Prop := ∀ x s y s', d x g1 g2 s = (.ok y, s') →
  ∃ l, addNoise x l = .ok y ∧ ∀ x' y', dims x' = dims x → addNoise x' l = .ok y' → d x' g1 g2 s = (.ok y', s')

/-- Two distortions whose calls can change places. -/
def Exchange (g1 g2 : ℝ × ℝ) (d e : SigDist σ) : Prop := ∀ x u s y s1 v s2, d x g1 g2 s = (.ok y, s1) → e u g1 g2 s1 = (.ok v, s2) →
  ∃ t, e u g1 g2 s = (.ok v, t) ∧ d x g1 g2 t = (.ok y, s2)

variable {g1 g2 : ℝ × ℝ} {d e : SigDist σ}

theorem swap_one (hd : Adds g1 g2 d) (he : Adds g1 g2 e) (h : Exchange g1 g2 d e) {x y z : Scan ℝ} {s s1 s2 : σ}
    (h1 : d x g1 g2 s = (.ok y, s1)) (h2 : e y g1 g2 s1 = (.ok z, s2)) :
    ∃ u t, e x g1 g2 s = (.ok u, t) ∧ d u g1 g2 t = (.ok z, s2) ∧ dims u = dims x := by
  obtain ⟨l, hl, _⟩ := hd _ _ _ _ h1
  obtain ⟨m, hm, he'⟩ := he _ _ _ _ h2
  obtain ⟨u, hu⟩ := addNoise_fits hm (addNoise_dims hl).symm
  obtain ⟨t, k1, k2⟩ := h _ _ _ _ _ _ _ h1 (he' _ _ (addNoise_dims hl).symm hu)
  obtain ⟨l', hl', hd'⟩ := hd _ _ _ _ k2
  exact ⟨u, t, k1, hd' _ _ (addNoise_dims hu) (addNoise_comm hl' hm hu), addNoise_dims hu⟩

theorem rows_one (h : Exchange g1 g2 d e) {u v : Scan ℝ} : ∀ {ps qs : List (Scan ℝ)} {s s1 s2 : σ}, distortRows g1 g2 d ps s = (.ok qs, s1) →
    e u g1 g2 s1 = (.ok v, s2) → ∃ t, e u g1 g2 s = (.ok v, t) ∧ distortRows g1 g2 d ps t = (.ok qs, s2)
  | [], qs, s, s1, s2, h1, h2 => by
    obtain ⟨rfl, rfl⟩ := pure_ok.mp h1
    exact ⟨s2, h2, rfl⟩
  | p :: ps, qs, s, s1, s2, h1, h2 => by
    unfold distortRows at h1
    obtain ⟨q, t, h3, h1⟩ := M.bind_ok.mp h1
    obtain ⟨qs', t', h4, h1⟩ := M.bind_ok.mp h1
    obtain ⟨rfl, rfl⟩ := pure_ok.mp h1
    obtain ⟨w, k1, k2⟩ := rows_one h h4 h2
    obtain ⟨w', k3, k4⟩ := h _ _ _ _ _ _ _ h3 k1
    refine ⟨w', k3, ?_⟩
    unfold distortRows
    exact M.bind_ok.mpr ⟨q, w, k4, M.bind_ok.mpr ⟨qs', s2, k2, rfl⟩⟩

theorem one_rows (h : Exchange g1 g2 e d) {u v : Scan ℝ} : ∀ {ps qs : List (Scan ℝ)} {s s1 s2 : σ}, e u g1 g2 s = (.ok v, s1) →
    distortRows g1 g2 d ps s1 = (.ok qs, s2) → ∃ t, distortRows g1 g2 d ps s = (.ok qs, t) ∧ e u g1 g2 t = (.ok v, s2)
  | [], qs, s, s1, s2, h1, h2 => by
    obtain ⟨rfl, rfl⟩ := pure_ok.mp h2
    exact ⟨s, rfl, h1⟩
  | p :: ps, qs, s, s1, s2, h1, h2 => by
    unfold distortRows at h2
    obtain ⟨q, t, h3, h2⟩ := M.bind_ok.mp h2
    obtain ⟨qs', t', h4, h2⟩ := M.bind_ok.mp h2
    obtain ⟨rfl, rfl⟩ := pure_ok.mp h2
    obtain ⟨w, k1, k2⟩ := h _ _ _ _ _ _ _ h1 h3
    obtain ⟨w', k3, k4⟩ := one_rows h k2 h4
    refine ⟨w', ?_, k4⟩
    unfold distortRows
    exact M.bind_ok.mpr ⟨q, w, k1, M.bind_ok.mpr ⟨qs', w', k3, rfl⟩⟩

theorem swap_rows (hd : Adds g1 g2 d) (he : Adds g1 g2 e) (h : Exchange g1 g2 d e) : ∀ {ps qs rs : List (Scan ℝ)} {s s1 s2 : σ},
    distortRows g1 g2 d ps s = (.ok qs, s1) → distortRows g1 g2 e qs s1 = (.ok rs, s2) →
    ∃ us t, distortRows g1 g2 e ps s = (.ok us, t) ∧ distortRows g1 g2 d us t = (.ok rs, s2)
  | [], qs, rs, s, s1, s2, h1, h2 => by
    obtain ⟨rfl, rfl⟩ := pure_ok.mp h1
    exact ⟨rs, s2, h2, by obtain ⟨rfl, rfl⟩ := pure_ok.mp h2; rfl⟩
  | p :: ps, qs, rs, s, s1, s2, h1, h2 => by
    unfold distortRows at h1
    obtain ⟨q, a1, h3, h1⟩ := M.bind_ok.mp h1
    obtain ⟨qs', a2, h4, h1⟩ := M.bind_ok.mp h1
    obtain ⟨rfl, rfl⟩ := pure_ok.mp h1
    unfold distortRows at h2
    obtain ⟨r, b1, h5, h2⟩ := M.bind_ok.mp h2
    obtain ⟨rs', b2, h6, h2⟩ := M.bind_ok.mp h2
    obtain ⟨rfl, rfl⟩ := pure_ok.mp h2
    obtain ⟨c1, k1, k2⟩ := rows_one h h4 h5
    obtain ⟨u, c0, k3, k4, _⟩ := swap_one hd he h h3 k1
    obtain ⟨us, c2, k5, k6⟩ := swap_rows hd he h k2 h6
    obtain ⟨c3, k7, k8⟩ := one_rows h k4 k5
    refine ⟨u :: us, c3, ?_, ?_⟩
    · unfold distortRows
      exact M.bind_ok.mpr ⟨u, c0, k3, M.bind_ok.mpr ⟨us, c3, k7, rfl⟩⟩
    · unfold distortRows
      exact M.bind_ok.mpr ⟨r, c2, k8, M.bind_ok.mpr ⟨rs', s2, k6, rfl⟩⟩

/-- Distortions that add numbers and can change places. -/
def Exchangeable (g1 g2 : ℝ × ℝ) (ds : List (SigDist σ)) : Prop :=
  (∀ d ∈ ds, Adds g1 g2 d) ∧ ds.Pairwise fun d e => Exchange g1 g2 d e ∧ Exchange g1 g2 e d

theorem exchange_perm {ds es : List (SigDist σ)} (hp : ds.Perm es) (h : Exchangeable g1 g2 ds) : Exchangeable g1 g2 es :=
  ⟨fun d hd => h.1 d (hp.mem_iff.mpr hd), hp.pairwise h.2 fun k => ⟨k.2, k.1⟩⟩

theorem sig_perm {ds es : List (SigDist σ)} (hp : ds.Perm es) : Exchangeable g1 g2 ds → ∀ {x y : Scan ℝ} {s s' : σ},
    applySig g1 g2 ds x s = (.ok y, s') → applySig g1 g2 es x s = (.ok y, s') := by
  induction hp with
  | nil => exact fun _ _ _ _ _ h => h
  | cons d _ ih =>
    intro hx x y s s' h
    unfold applySig at h ⊢
    obtain ⟨u, t, h1, h2⟩ := M.bind_ok.mp h
    exact M.bind_ok.mpr ⟨u, t, h1, ih ⟨fun d hd => hx.1 d (List.mem_cons_of_mem _ hd), (List.pairwise_cons.mp hx.2).2⟩ h2⟩
  | swap d e l =>
    intro hx x y s s' h
    unfold applySig at h
    obtain ⟨u, t, h1, h2⟩ := M.bind_ok.mp h
    unfold applySig at h2
    obtain ⟨v, t', h2, h3⟩ := M.bind_ok.mp h2
    obtain ⟨w, t'', k1, k2, _⟩ := swap_one (hx.1 e (by simp)) (hx.1 d (by simp)) ((List.pairwise_cons.mp hx.2).1 d (by simp)).1 h1 h2
    unfold applySig
    refine M.bind_ok.mpr ⟨w, t'', k1, ?_⟩
    unfold applySig
    exact M.bind_ok.mpr ⟨v, t', k2, h3⟩
  | trans h1 _ ih1 ih2 => exact fun hx _ _ _ _ h => ih2 (exchange_perm h1 hx) (ih1 hx h)

theorem rows_perm {ds es : List (SigDist σ)} (hp : ds.Perm es) : Exchangeable g1 g2 ds → ∀ {x y : List (Scan ℝ)} {s s' : σ},
    applyRows g1 g2 ds x s = (.ok y, s') → applyRows g1 g2 es x s = (.ok y, s') := by
  induction hp with
  | nil => exact fun _ _ _ _ _ h => h
  | cons d _ ih =>
    intro hx x y s s' h
    unfold applyRows at h ⊢
    obtain ⟨u, t, h1, h2⟩ := M.bind_ok.mp h
    exact M.bind_ok.mpr ⟨u, t, h1, ih ⟨fun d hd => hx.1 d (List.mem_cons_of_mem _ hd), (List.pairwise_cons.mp hx.2).2⟩ h2⟩
  | swap d e l =>
    intro hx x y s s' h
    unfold applyRows at h
    obtain ⟨u, t, h1, h2⟩ := M.bind_ok.mp h
    unfold applyRows at h2
    obtain ⟨v, t', h2, h3⟩ := M.bind_ok.mp h2
    obtain ⟨w, t'', k1, k2⟩ := swap_rows (hx.1 e (by simp)) (hx.1 d (by simp)) ((List.pairwise_cons.mp hx.2).1 d (by simp)).1 h1 h2
    unfold applyRows
    refine M.bind_ok.mpr ⟨w, t'', k1, ?_⟩
    unfold applyRows
    exact M.bind_ok.mpr ⟨v, t', k2, h3⟩
  | trans h1 _ ih1 ih2 => exact fun hx _ _ _ _ h => ih2 (exchange_perm h1 hx) (ih1 hx h)

end swap

section objects

theorem noiseOf_dims {x x' : Scan ℝ} (h : dims x' = dims x) (g1 g2 : ℝ × ℝ) (o : SigObject τ) : noiseOf x' g1 g2 o = noiseOf x g1 g2 o := by
  have hf : rtnFactor g1 g2 x' = rtnFactor g1 g2 x := by
    cases x <;> cases x' <;> simp_all [dims, rtnFactor]
  cases o with
  | additive i sigma noise =>
    unfold noiseOf
    simp only [dims_size h]
  | rtn i scale std height ratio rng =>
    unfold noiseOf
    simp only [dims_size h, hf]

theorem object_adds (g1 g2 : ℝ × ℝ) (o : SigObject τ) : Adds g1 g2 o.dist := by
  intro x s y s' h
  obtain ⟨rep, l, g, h1, h2, h3⟩ := (dist_ok o x g1 g2 s s' y).mp h
  refine ⟨l, h2, fun x' y' hd hy => (dist_ok o x' g1 g2 s s' y').mpr ⟨rep, l, g, ?_, hy, h3⟩⟩
  rw [noiseOf_dims hd]
  exact h1

theorem object_exchange {a b : SigObject τ} {g1 g2 : ℝ × ℝ} (h : ∀ x u, NoInteraction (noiseOf x g1 g2 a) (noiseOf u g1 g2 b))
    (hn : Distinct.sigName a ≠ Distinct.sigName b) :
    Exchange g1 g2 a.dist b.dist := by
  intro x u s y s1 v s2 h1 h2
  obtain ⟨rep, l, g, k1, k2, rfl⟩ := (dist_ok a x g1 g2 s s1 y).mp h1
  obtain ⟨rep', l', g', k3, k4, rfl⟩ := (dist_ok b u g1 g2 _ s2 v).mp h2
  have hg : (record rep { s with gens := g } a).gens = g := by cases a <;> rfl
  rw [hg] at k3
  obtain ⟨t, e1, e2⟩ := NoInteraction.swap (h x u) k1 k3
  refine ⟨record rep' { s with gens := t } b, (dist_ok b u g1 g2 s _ v).mpr ⟨rep', l', t, e1, k4, rfl⟩,
    (dist_ok a x g1 g2 _ _ y).mpr ⟨rep, l, g', ?_, k2, ?_⟩⟩
  · rw [show (record rep' { s with gens := t } b).gens = t by cases b <;> rfl]
    exact e2
  · cases a <;> cases b <;> simp only [record, ObjState.mk.injEq, and_true, true_and]
    · exact Function.update_comm (fun h => hn (by rw [h]; rfl)) _ _ _
    · exact Function.update_comm (fun h => hn (by rw [h]; rfl)) _ _ _

theorem adds_beside {D : Type} {g1 g2 : ℝ × ℝ} {d : SigDist σ} (h : Adds g1 g2 d) : Adds g1 g2 (SigDist.beside d : SigDist (D × σ)) := by
  rintro x ⟨q, s⟩ y s' h1
  obtain ⟨t, h2, rfl⟩ := onRest_iff.mp h1
  obtain ⟨l, h3, h4⟩ := h _ _ _ _ h2
  exact ⟨l, h3, fun x' y' hd hy => onRest_eq (h4 x' y' hd hy) q⟩

theorem exchange_beside {D : Type} {g1 g2 : ℝ × ℝ} {d e : SigDist σ} (h : Exchange g1 g2 d e) :
    Exchange g1 g2 (SigDist.beside d : SigDist (D × σ)) (SigDist.beside e) := by
  rintro x u ⟨q, s⟩ y s1 v s2 h1 h2
  obtain ⟨t, h3, rfl⟩ := onRest_iff.mp h1
  obtain ⟨t', h4, rfl⟩ := onRest_iff.mp h2
  obtain ⟨w, h5, h6⟩ := h _ _ _ _ _ _ _ h3 h4
  exact ⟨(q, w), onRest_eq h5 q, onRest_eq h6 q⟩

/-- Objects with own generators and own state. -/
theorem objects_exchangeable {os : List (SigObject τ)} (h : os.Pairwise OwnGenerators) (hn : (os.map Distinct.sigName).Nodup) (g1 g2 : ℝ × ℝ) :
    Exchangeable g1 g2 (os.map SigObject.dist) := by
  refine ⟨fun d hd => ?_, ?_⟩
  · obtain ⟨o, _, rfl⟩ := List.mem_map.mp hd
    exact object_adds g1 g2 o
  · rw [List.pairwise_map]
    have hn' : os.Pairwise fun a b => Distinct.sigName a ≠ Distinct.sigName b := List.pairwise_map.mp hn
    exact (h.and hn').imp fun h => ⟨object_exchange (fun x u => own_apart h.1 x u g1 g2) h.2,
      object_exchange (fun x u => NoInteraction.symm (own_apart h.1 u x g1 g2)) h.2.symm⟩

theorem exchangeable_beside {D : Type} {g1 g2 : ℝ × ℝ} {ds : List (SigDist σ)} (h : Exchangeable g1 g2 ds) :
    Exchangeable g1 g2 (ds.map (SigDist.beside : SigDist σ → SigDist (D × σ))) := by
  refine ⟨fun d hd => ?_, ?_⟩
  · obtain ⟨o, ho, rfl⟩ := List.mem_map.mp hd
    exact adds_beside (h.1 o ho)
  · rw [List.pairwise_map]
    exact h.2.imp fun h => ⟨exchange_beside h.1, exchange_beside h.2⟩

end objects

section simulation

/-- What one list of distortions returns for a signal is also returned by the other one. -/
def Includes (ds es : List (SigDist σ)) : Prop :=
  ∀ g1 g2 x y s s', applySig g1 g2 ds x s = (.ok y, s') → applySig g1 g2 es x s = (.ok y, s')

/-- The same for several potentials. -/
def IncludesRows (ds es : List (SigDist σ)) : Prop :=
  ∀ g1 g2 x y s s', applyRows g1 g2 ds x s = (.ok y, s') → applyRows g1 g2 es x s = (.ok y, s')

theorem potential_perm {g1 g2 : ℝ × ℝ} {ds es : List (SigDist σ)} (hp : Includes ds es) (h : IncludesRows ds es) {occ : Scan (ℝ × ℝ)} {x y : Pot}
    {s s' : σ} (hx : distortPotential g1 g2 occ (some ds) x s = (.ok y, s')) : distortPotential g1 g2 occ (some es) x s = (.ok y, s') := by
  unfold distortPotential at hx ⊢
  cases x with
  | single p =>
    dsimp only at hx ⊢
    split_ifs at hx ⊢ with hr
    · obtain ⟨q, t, h1, h2⟩ := M.bind_ok.mp hx
      exact M.bind_ok.mpr ⟨q, t, hp _ _ _ _ _ _ h1, h2⟩
    · exact hx
  | multi ps =>
    dsimp only at hx ⊢
    split_ifs at hx ⊢ with hr
    · obtain ⟨q, t, h1, h2⟩ := M.bind_ok.mp hx
      exact M.bind_ok.mpr ⟨q, t, h _ _ _ _ _ _ h1, h2⟩
    · exact hx

theorem include_response {es es' : List (SigDist σ)} (h : Includes es es') (g1 g2 : ℝ × ℝ) (x y : Scan ℝ) (s s' : σ)
    (hx : distortResponse g1 g2 (some es) x s = (.ok y, s')) : distortResponse g1 g2 (some es') x s = (.ok y, s') := h _ _ _ _ _ _ hx

theorem measureSim_gen (sim : Simulation σ) {ds ds' es es' : Option (List (SigDist σ))}
    (hp : ∀ g1 g2 occ x y s s', distortPotential g1 g2 occ ds x s = (.ok y, s') → distortPotential g1 g2 occ ds' x s = (.ok y, s'))
    (hr : ∀ g1 g2 x y s s', distortResponse g1 g2 es x s = (.ok y, s') → distortResponse g1 g2 es' x s = (.ok y, s'))
    (rq : Request) {s s' : σ} {out : Scan ℝ × Scan (ℝ × ℝ) × Scan ℕ}
    (h : SimCATS.measure { sim with potD := ds, respD := es } rq s = (.ok out, s')) :
    SimCATS.measure { sim with potD := ds', respD := es' } rq s = (.ok out, s') := by
  unfold SimCATS.measure at h ⊢
  dsimp only at h ⊢
  cases hc : measureCheck sim.lim sim.gen.isSome rq with
  | error e => rw [hc] at h; exact nomatch h
  | ok gs =>
    rw [hc] at h
    cases hg : sim.gen with
    | none => rw [hg] at h; exact nomatch h
    | some gen =>
      rw [hg] at h
      dsimp only at h ⊢
      unfold measureRun at h ⊢
      dsimp only at h ⊢
      obtain ⟨a1, t1, h1, h⟩ := M.bind_ok.mp h
      obtain ⟨a2, t2, h2, h⟩ := M.bind_ok.mp h
      obtain ⟨a3, t3, h3, h⟩ := M.bind_ok.mp h
      obtain ⟨a4, t4, h4, h⟩ := M.bind_ok.mp h
      obtain ⟨a5, t5, h5, h⟩ := M.bind_ok.mp h
      obtain ⟨a6, t6, h6, h⟩ := M.bind_ok.mp h
      exact M.bind_ok.mpr ⟨a1, t1, h1, M.bind_ok.mpr ⟨a2, t2, h2, M.bind_ok.mpr ⟨a3, t3, h3, M.bind_ok.mpr ⟨a4, t4, hp _ _ _ _ _ _ _ h4,
        M.bind_ok.mpr ⟨a5, t5, h5, M.bind_ok.mpr ⟨a6, t6, hr _ _ _ _ _ _ h6, h⟩⟩⟩⟩⟩⟩

theorem scanSim_gen (sim : ScanSim τ) {ds ds' es es' : Option (List (SigDist (Option ScanState × τ)))}
    (hp : ∀ g1 g2 x y s s', distortScanPot g1 g2 ds x s = (.ok y, s') → distortScanPot g1 g2 ds' x s = (.ok y, s'))
    (hr : ∀ g1 g2 x y s s', distortResponse g1 g2 es x s = (.ok y, s') → distortResponse g1 g2 es' x s = (.ok y, s'))
    (rq : ScanRequest) {s s' : Option ScanState × τ} {out : Scan ℝ × Scan ℕ × Scan ℕ}
    (h : measureSensorScan { sim with potD := ds, respD := es } rq s = (.ok out, s')) :
    measureSensorScan { sim with potD := ds', respD := es' } rq s = (.ok out, s') := by
  unfold measureSensorScan at h ⊢
  dsimp only at h ⊢
  cases hc : scanCheck sim.lim true rq with
  | error e => rw [hc] at h; exact nomatch h
  | ok gs =>
    rw [hc] at h
    dsimp only at h ⊢
    unfold scanRun at h ⊢
    dsimp only at h ⊢
    obtain ⟨a1, t1, h1, h⟩ := M.bind_ok.mp h
    obtain ⟨a2, t2, h2, h⟩ := M.bind_ok.mp h
    obtain ⟨a3, t3, h3, h⟩ := M.bind_ok.mp h
    obtain ⟨a4, t4, h4, h⟩ := M.bind_ok.mp h
    obtain ⟨a5, t5, h5, h⟩ := M.bind_ok.mp h
    obtain ⟨a6, t6, h6, h⟩ := M.bind_ok.mp h
    obtain ⟨a7, t7, h7, h⟩ := M.bind_ok.mp h
    refine M.bind_ok.mpr ⟨a1, t1, h1, M.bind_ok.mpr ⟨a2, t2, h2, M.bind_ok.mpr ⟨a3, t3, h3, M.bind_ok.mpr ⟨a4, t4, h4,
      M.bind_ok.mpr ⟨a5, t5, hp _ _ _ _ _ _ h5, M.bind_ok.mpr ⟨a6, t6, h6, M.bind_ok.mpr ⟨a7, t7, hr _ _ _ _ _ _ h7, h⟩⟩⟩⟩⟩⟩⟩

theorem scanPot_perm {g1 g2 : ℝ × ℝ} {ds es : List (SigDist (Option ScanState × τ))} (hd : IncludesRows ds es) {x y : Scan (Fin 3 → ℝ)}
    {s s' : Option ScanState × τ} (h : distortScanPot g1 g2 (some ds) x s = (.ok y, s')) : distortScanPot g1 g2 (some es) x s = (.ok y, s') := by
  unfold distortScanPot at h ⊢
  obtain ⟨rows, t, k1, k2⟩ := M.bind_ok.mp h
  exact M.bind_ok.mpr ⟨rows, t, hd _ _ _ _ _ _ k1, k2⟩

variable {sim : AnySim τ} {pot pot' resp resp' : Option (List (SigObject τ))}

/-- The same for objects, alone or beside a sensor. -/
def IncludesObjects (os os' : List (SigObject τ)) : Prop :=
  (Includes (os.map SigObject.dist) (os'.map SigObject.dist) ∧ IncludesRows (os.map SigObject.dist) (os'.map SigObject.dist)) ∧
    Includes ((os.map SigObject.dist).map (SigDist.beside : _ → SigDist (SimState τ))) ((os'.map SigObject.dist).map SigDist.beside) ∧
    IncludesRows ((os.map SigObject.dist).map (SigDist.beside : _ → SigDist (SimState τ))) ((os'.map SigObject.dist).map SigDist.beside)

/-- The same for lists that may be missing. -/
def IncludesOption : Option (List (SigObject τ)) → Option (List (SigObject τ)) → Prop
  | none, none => True
  | some os, some os' => IncludesObjects os os'
  | _, _ => False

theorem potential_option (h : IncludesOption pot pot') {g1 g2 : ℝ × ℝ} {occ : Scan (ℝ × ℝ)} {x y : Pot} {s s' : ObjState τ}
    (hx : distortPotential g1 g2 occ (pot.map fun ds => ds.map SigObject.dist) x s = (.ok y, s')) :
    distortPotential g1 g2 occ (pot'.map fun ds => ds.map SigObject.dist) x s = (.ok y, s') := by
  cases pot <;> cases pot' <;> first | exact h.elim | exact hx | exact potential_perm h.1.1 h.1.2 hx

theorem potential_option_beside (h : IncludesOption pot pot') {g1 g2 : ℝ × ℝ} {occ : Scan (ℝ × ℝ)} {x y : Pot} {s s' : SimState τ}
    (hx : distortPotential g1 g2 occ (pot.map fun ds => (ds.map SigObject.dist).map SigDist.beside) x s = (.ok y, s')) :
    distortPotential g1 g2 occ (pot'.map fun ds => (ds.map SigObject.dist).map SigDist.beside) x s = (.ok y, s') := by
  cases pot <;> cases pot' <;> first | exact h.elim | exact hx | exact potential_perm h.2.1 h.2.2 hx

theorem scanPot_option (h : IncludesOption pot pot') {g1 g2 : ℝ × ℝ} {x y : Scan (Fin 3 → ℝ)} {s s' : SimState τ}
    (hx : distortScanPot g1 g2 (pot.map fun ds => (ds.map SigObject.dist).map SigDist.beside) x s = (.ok y, s')) :
    distortScanPot g1 g2 (pot'.map fun ds => (ds.map SigObject.dist).map SigDist.beside) x s = (.ok y, s') := by
  cases pot <;> cases pot' <;> first | exact h.elim | exact hx | exact scanPot_perm h.2.2 hx

theorem response_option (h : IncludesOption pot pot') {g1 g2 : ℝ × ℝ} {x y : Scan ℝ} {s s' : ObjState τ}
    (hx : distortResponse g1 g2 (pot.map fun ds => ds.map SigObject.dist) x s = (.ok y, s')) :
    distortResponse g1 g2 (pot'.map fun ds => ds.map SigObject.dist) x s = (.ok y, s') := by
  cases pot <;> cases pot' <;> first | exact h.elim | exact hx | exact h.1.1 _ _ _ _ _ _ hx

theorem response_option_beside (h : IncludesOption pot pot') {g1 g2 : ℝ × ℝ} {x y : Scan ℝ} {s s' : SimState τ}
    (hx : distortResponse g1 g2 (pot.map fun ds => (ds.map SigObject.dist).map SigDist.beside) x s = (.ok y, s')) :
    distortResponse g1 g2 (pot'.map fun ds => (ds.map SigObject.dist).map SigDist.beside) x s = (.ok y, s') := by
  cases pot <;> cases pot' <;> first | exact h.elim | exact hx | exact h.2.1 _ _ _ _ _ _ hx

theorem any_includes (hp : IncludesOption sim.pot pot') (hr : IncludesOption sim.resp resp') (lab : Labelling) (rq : Request) {s s' : SimState τ}
    {out : Scan ℝ × Scan (ℝ × ℝ) × Scan ℕ} (h : sim.measure lab rq s = (.ok out, s')) :
    AnySim.measure { sim with pot := pot', resp := resp' } lab rq s = (.ok out, s') := by
  obtain ⟨lim, ideal, sensor, occ, pt, rp⟩ := sim
  obtain ⟨q, s⟩ := s
  unfold AnySim.measure at h ⊢
  cases sensor with
  | generic d =>
    dsimp only at h ⊢
    obtain ⟨t, h1, rfl⟩ := onRest_iff.mp h
    exact onRest_eq (measureSim_gen (AnySim.generic ⟨lim, ideal, .generic d, occ, pt, rp⟩ lab d) (fun _ _ _ _ _ _ _ => potential_option hp)
      (fun _ _ _ _ _ _ => response_option hr) rq h1) q
  | scan d =>
    exact measureSim_gen (AnySim.scan ⟨lim, ideal, .scan d, occ, pt, rp⟩ lab d).csd (fun _ _ _ _ _ _ _ => potential_option_beside hp)
      (fun _ _ _ _ _ _ => response_option_beside hr) rq h

theorem anyScan_includes (hp : IncludesOption sim.pot pot') (hr : IncludesOption sim.resp resp') (lab : Labelling) (rq : ScanRequest)
    {s s' : SimState τ} {out : Scan ℝ × Scan ℕ × Scan ℕ} (h : sim.measureScan lab rq s = (.ok out, s')) :
    AnySim.measureScan { sim with pot := pot', resp := resp' } lab rq s = (.ok out, s') := by
  obtain ⟨lim, ideal, sensor, occ, pt, rp⟩ := sim
  unfold AnySim.measureScan at h ⊢
  cases sensor with
  | generic d => exact nomatch h
  | scan d =>
    exact scanSim_gen (AnySim.scan ⟨lim, ideal, .scan d, occ, pt, rp⟩ lab d) (fun _ _ _ _ _ _ => scanPot_option hp)
      (fun _ _ _ _ _ _ => response_option_beside hr) rq h

theorem includes_perm {os os' : List (SigObject τ)} (hp : os.Perm os') (h : os.Pairwise OwnGenerators) (hn : (os.map Distinct.sigName).Nodup) :
    IncludesObjects os os' :=
  ⟨⟨fun g1 g2 _ _ _ _ => sig_perm (hp.map _) (objects_exchangeable h hn g1 g2), fun g1 g2 _ _ _ _ => rows_perm (hp.map _) (objects_exchangeable h hn g1 g2)⟩,
    fun g1 g2 _ _ _ _ => sig_perm ((hp.map _).map _) (exchangeable_beside (objects_exchangeable h hn g1 g2)),
    fun g1 g2 _ _ _ _ => rows_perm ((hp.map _).map _) (exchangeable_beside (objects_exchangeable h hn g1 g2))⟩

theorem own_symm {a b : SigObject τ} (h : OwnGenerators a b) : OwnGenerators b a := by
  cases b with
  | additive i sigma noise =>
    exact ⟨everyCall_mono (fun _ _ hx => NoInteraction.symm hx.1) h, fun v n => everyCall_mono (fun _ _ hx => NoInteraction.symm (hx.2 v n)) h⟩
  | rtn i scale std height ratio rng =>
    exact ⟨everyCall_mono (fun _ _ hx => NoInteraction.symm hx.1) h, everyCall_mono (fun _ _ hx => NoInteraction.symm hx.2.1) h,
      everyCall_mono (fun _ _ hx => NoInteraction.symm hx.2.2.1) h,
      ⟨fun p => everyCall_mono (fun _ _ hx => NoInteraction.symm (hx.2.2.2.binomial p)) h,
        fun p n => everyCall_mono (fun _ _ hx => NoInteraction.symm (hx.2.2.2.geometric p n)) h,
        fun l => everyCall_mono (fun _ _ hx => NoInteraction.symm (hx.2.2.2.poisson l)) h,
        fun m s => everyCall_mono (fun _ _ hx => NoInteraction.symm (hx.2.2.2.normal m s)) h⟩⟩

theorem includes_back {os os' : List (SigObject τ)} (hp : os.Perm os') (h : os.Pairwise OwnGenerators) (hn : (os.map Distinct.sigName).Nodup) :
    IncludesObjects os' os :=
  includes_perm hp.symm (hp.pairwise h own_symm) ((hp.map _).nodup_iff.mp hn)

theorem includes_reordered (h : Reordered pot pot') (ho : (pot.getD []).Pairwise OwnGenerators) (hn : ((pot.getD []).map Distinct.sigName).Nodup) :
    IncludesOption pot pot' ∧ IncludesOption pot' pot := by
  cases pot <;> cases pot'
  · exact ⟨trivial, trivial⟩
  · exact h.elim
  · exact h.elim
  · exact ⟨includes_perm h ho hn, includes_back h ho hn⟩

theorem distinct_signals (h : Distinct sim) : ((sim.pot.getD []).map Distinct.sigName).Nodup ∧ ((sim.resp.getD []).map Distinct.sigName).Nodup :=
  ⟨(List.nodup_append.1 (List.nodup_append.1 h).1).2.1, (List.nodup_append.1 h).2.1⟩

theorem includes_refl (ds : List (SigDist σ)) : Includes ds ds := fun _ _ _ _ _ _ h => h

theorem sig_append (g1 g2 : ℝ × ℝ) (es : List (SigDist σ)) : ∀ (ds : List (SigDist σ)) (x : Scan ℝ),
    applySig g1 g2 (ds ++ es) x = applySig g1 g2 ds x >>= applySig g1 g2 es
  | [], _ => rfl
  | d :: ds, x => by
    show (d x g1 g2 >>= fun y => applySig g1 g2 (ds ++ es) y) = (d x g1 g2 >>= fun y => applySig g1 g2 ds y) >>= _
    rw [bind_assoc]
    congr 1
    funext y
    exact sig_append g1 g2 es ds y

theorem sig_later {g1 g2 : ℝ × ℝ} {d : SigDist σ} (hd : Adds g1 g2 d) : ∀ {es : List (SigDist σ)}, (∀ e ∈ es, Adds g1 g2 e ∧ Exchange g1 g2 d e) →
    ∀ {x y : Scan ℝ} {s s' : σ}, applySig g1 g2 (d :: es) x s = (.ok y, s') → applySig g1 g2 (es ++ [d]) x s = (.ok y, s')
  | [], _, _, _, _, _, h => h
  | e :: es, he, x, y, s, s', h => by
    unfold applySig at h
    obtain ⟨u, t, h1, h2⟩ := M.bind_ok.mp h
    unfold applySig at h2
    obtain ⟨v, t', h2, h3⟩ := M.bind_ok.mp h2
    obtain ⟨w, t'', k1, k2, _⟩ := swap_one hd (he e (by simp)).1 (he e (by simp)).2 h1 h2
    show applySig g1 g2 (e :: (es ++ [d])) x s = _
    unfold applySig
    refine M.bind_ok.mpr ⟨w, t'', k1, sig_later hd (fun e' h' => he e' (List.mem_cons_of_mem _ h')) ?_⟩
    unfold applySig
    exact M.bind_ok.mpr ⟨v, t', k2, h3⟩

theorem sig_earlier {g1 g2 : ℝ × ℝ} {d : SigDist σ} (hd : Adds g1 g2 d) : ∀ {es : List (SigDist σ)}, (∀ e ∈ es, Adds g1 g2 e ∧ Exchange g1 g2 e d) →
    ∀ {x y : Scan ℝ} {s s' : σ}, applySig g1 g2 (es ++ [d]) x s = (.ok y, s') → applySig g1 g2 (d :: es) x s = (.ok y, s')
  | [], _, _, _, _, _, h => h
  | e :: es, he, x, y, s, s', h => by
    change applySig g1 g2 (e :: (es ++ [d])) x s = _ at h
    unfold applySig at h
    obtain ⟨u, t, h1, h2⟩ := M.bind_ok.mp h
    have h2 := sig_earlier hd (fun e' h' => he e' (List.mem_cons_of_mem _ h')) h2
    unfold applySig at h2
    obtain ⟨v, t', h2, h3⟩ := M.bind_ok.mp h2
    obtain ⟨w, t'', k1, k2, _⟩ := swap_one (he e (by simp)).1 hd (he e (by simp)).2 h1 h2
    unfold applySig
    refine M.bind_ok.mpr ⟨w, t'', k1, ?_⟩
    unfold applySig
    exact M.bind_ok.mpr ⟨v, t', k2, h3⟩

/-- One object of a list becomes the last one. -/
theorem includes_later {pre post : List (SigObject τ)} {o : SigObject τ} (h : ∀ e ∈ post, OwnGenerators o e)
    (hn : ∀ e ∈ post, Distinct.sigName o ≠ Distinct.sigName e) :
    (Includes ((pre ++ o :: post).map SigObject.dist) ((pre ++ post ++ [o]).map SigObject.dist) ∧
      Includes ((pre ++ post ++ [o]).map SigObject.dist) ((pre ++ o :: post).map SigObject.dist)) ∧
    Includes (((pre ++ o :: post).map SigObject.dist).map (SigDist.beside : _ → SigDist (SimState τ)))
      (((pre ++ post ++ [o]).map SigObject.dist).map SigDist.beside) ∧
    Includes (((pre ++ post ++ [o]).map SigObject.dist).map (SigDist.beside : _ → SigDist (SimState τ)))
      (((pre ++ o :: post).map SigObject.dist).map SigDist.beside) := by
  have h1 : ∀ g1 g2, ∀ e ∈ post, Exchange g1 g2 o.dist e.dist := fun g1 g2 e he => object_exchange (fun x u => own_apart (h e he) x u g1 g2) (hn e he)
  have h2 : ∀ g1 g2, ∀ e ∈ post, Exchange g1 g2 e.dist o.dist := fun g1 g2 e he =>
    object_exchange (fun x u => NoInteraction.symm (own_apart (h e he) u x g1 g2)) (hn e he).symm
  refine ⟨⟨fun g1 g2 x y s s' hx => ?_, fun g1 g2 x y s s' hx => ?_⟩, fun g1 g2 x y s s' hx => ?_, fun g1 g2 x y s s' hx => ?_⟩
  · simp only [List.map_append, List.map_cons, List.map_nil, List.append_assoc] at hx ⊢
    rw [sig_append] at hx ⊢
    obtain ⟨a, t, k1, k2⟩ := M.bind_ok.mp hx
    refine M.bind_ok.mpr ⟨a, t, k1, sig_later (object_adds g1 g2 o) (fun e he => ?_) k2⟩
    obtain ⟨e, hm, rfl⟩ := List.mem_map.mp he
    exact ⟨object_adds g1 g2 e, h1 g1 g2 e hm⟩
  · simp only [List.map_append, List.map_cons, List.map_nil, List.append_assoc] at hx ⊢
    rw [sig_append] at hx ⊢
    obtain ⟨a, t, k1, k2⟩ := M.bind_ok.mp hx
    refine M.bind_ok.mpr ⟨a, t, k1, sig_earlier (object_adds g1 g2 o) (fun e he => ?_) k2⟩
    obtain ⟨e, hm, rfl⟩ := List.mem_map.mp he
    exact ⟨object_adds g1 g2 e, h2 g1 g2 e hm⟩
  · simp only [List.map_append, List.map_cons, List.map_nil, List.append_assoc] at hx ⊢
    rw [sig_append] at hx ⊢
    obtain ⟨a, t, k1, k2⟩ := M.bind_ok.mp hx
    refine M.bind_ok.mpr ⟨a, t, k1, sig_later (adds_beside (object_adds g1 g2 o)) (fun e he => ?_) k2⟩
    obtain ⟨e', he', rfl⟩ := List.mem_map.mp he
    obtain ⟨e, hm, rfl⟩ := List.mem_map.mp he'
    exact ⟨adds_beside (object_adds g1 g2 e), exchange_beside (h1 g1 g2 e hm)⟩
  · simp only [List.map_append, List.map_cons, List.map_nil, List.append_assoc] at hx ⊢
    rw [sig_append] at hx ⊢
    obtain ⟨a, t, k1, k2⟩ := M.bind_ok.mp hx
    refine M.bind_ok.mpr ⟨a, t, k1, sig_earlier (adds_beside (object_adds g1 g2 o)) (fun e he => ?_) k2⟩
    obtain ⟨e', he', rfl⟩ := List.mem_map.mp he
    obtain ⟨e, hm, rfl⟩ := List.mem_map.mp he'
    exact ⟨adds_beside (object_adds g1 g2 e), exchange_beside (h2 g1 g2 e hm)⟩

/-- The noise object that is given as last one may be at any place in the list. -/
theorem measure_place {pre post : List (SigObject τ)} {o : SigObject τ} (hr : sim.resp = some (pre ++ o :: post)) (h : ∀ e ∈ post, OwnGenerators o e)
    (hn : ∀ e ∈ post, Distinct.sigName o ≠ Distinct.sigName e) (lab : Labelling) (rq : Request) (s s' : SimState τ) (out : Scan ℝ × Scan (ℝ × ℝ) × Scan ℕ) :
    sim.measure lab rq s = (.ok out, s') ↔ AnySim.measure { sim with resp := some (pre ++ post ++ [o]) } lab rq s = (.ok out, s') := by
  obtain ⟨⟨l1, l2⟩, l3, l4⟩ := includes_later (pre := pre) h hn
  obtain ⟨lim, ideal, sensor, occ, pot, resp⟩ := sim
  dsimp only at hr
  subst hr
  obtain ⟨q, s⟩ := s
  unfold AnySim.measure
  cases sensor with
  | generic d =>
    dsimp only
    constructor <;> intro h'
    · obtain ⟨t, h1, rfl⟩ := onRest_iff.mp h'
      exact onRest_eq (measureSim_gen (AnySim.generic ⟨lim, ideal, .generic d, occ, pot, none⟩ lab d) (fun _ _ _ _ _ _ _ h => h) (include_response l1) rq h1) q
    · obtain ⟨t, h1, rfl⟩ := onRest_iff.mp h'
      exact onRest_eq (measureSim_gen (AnySim.generic ⟨lim, ideal, .generic d, occ, pot, none⟩ lab d) (fun _ _ _ _ _ _ _ h => h) (include_response l2) rq h1) q
  | scan d =>
    exact ⟨fun h' => measureSim_gen (AnySim.scan ⟨lim, ideal, .scan d, occ, pot, none⟩ lab d).csd (fun _ _ _ _ _ _ _ h => h) (include_response l3) rq h',
      fun h' => measureSim_gen (AnySim.scan ⟨lim, ideal, .scan d, occ, pot, none⟩ lab d).csd (fun _ _ _ _ _ _ _ h => h) (include_response l4) rq h'⟩

theorem measureScan_place {pre post : List (SigObject τ)} {o : SigObject τ} (hr : sim.resp = some (pre ++ o :: post))
    (h : ∀ e ∈ post, OwnGenerators o e) (hn : ∀ e ∈ post, Distinct.sigName o ≠ Distinct.sigName e) (lab : Labelling) (rq : ScanRequest) (s s' : SimState τ)
    (out : Scan ℝ × Scan ℕ × Scan ℕ) :
    sim.measureScan lab rq s = (.ok out, s') ↔ AnySim.measureScan { sim with resp := some (pre ++ post ++ [o]) } lab rq s = (.ok out, s') := by
  obtain ⟨-, l3, l4⟩ := includes_later (pre := pre) h hn
  obtain ⟨lim, ideal, sensor, occ, pot, resp⟩ := sim
  dsimp only at hr
  subst hr
  unfold AnySim.measureScan
  cases sensor with
  | generic d => exact ⟨nofun, nofun⟩
  | scan d =>
    exact ⟨fun h' => scanSim_gen (AnySim.scan ⟨lim, ideal, .scan d, occ, pot, none⟩ lab d) (fun _ _ _ _ _ _ h => h) (include_response l3) rq h',
      fun h' => scanSim_gen (AnySim.scan ⟨lim, ideal, .scan d, occ, pot, none⟩ lab d) (fun _ _ _ _ _ _ h => h) (include_response l4) rq h'⟩

theorem distinct_later {pre post : List (SigObject τ)} {o : SigObject τ} (hr : sim.resp = some (pre ++ o :: post)) (hd : Distinct sim) :
    ∀ e ∈ post, Distinct.sigName o ≠ Distinct.sigName e := by
  have h := (distinct_signals hd).2
  rw [hr, Option.getD_some, List.map_append, List.map_cons] at h
  intro e he heq
  exact (List.nodup_cons.1 (List.nodup_append.1 h).2.1).1 (heq ▸ List.mem_map_of_mem he)

theorem distinct_place {pre post : List (SigObject τ)} {o : SigObject τ} (hr : sim.resp = some (pre ++ o :: post)) (hd : Distinct sim) :
    Distinct { sim with resp := some (pre ++ post ++ [o]) } := by
  unfold Distinct at hd ⊢
  rw [hr] at hd
  refine (List.Perm.nodup_iff ?_).1 hd
  refine List.Perm.append_left _ (List.Perm.map _ ?_)
  rw [Option.getD_some, Option.getD_some]
  exact List.perm_middle.trans (List.perm_append_singleton o (pre ++ post)).symm

end simulation

section demo

/-- White noises on different streams. -/
theorem streams_apart {k l : Fin 2} (h : k ≠ l) (i j : ℕ) (v w : ℝ) : OwnGenerators (streamWhite i k v) (streamWhite j l w) := by
  have hn : ∀ v n w m, NoInteraction (streamNoise k v n) (streamNoise l w m) := by
    intro v n w m g
    unfold streamNoise
    by_cases hv : 0 ≤ v <;> by_cases hw : 0 ≤ w <;> simp [hv, hw, Function.update_of_ne h, Function.update_of_ne h.symm, Function.update_comm h]
  refine ⟨⟨NoInteraction.pure _ _, fun w m => NoInteraction.pure _ _⟩, fun v n => ⟨NoInteraction.symm (NoInteraction.pure _ _), fun w m => hn v n w m⟩⟩

open Classical in
/-- An offset of the signal, without a generator. -/
noncomputable def offset (v : ℝ) : SigObject τ :=
  .additive 1 (pure v) fun v n g => if 0 ≤ v then (.ok ((List.range n).map fun _ => v * 1), g) else (.error .valueError, g)

theorem offset_draws : ScaledDraws (fun _ : τ => ()) (fun v n g => open Classical in if 0 ≤ v then (.ok ((List.range n).map fun _ => v * 1), g) else (.error .valueError, g))
    fun _ _ => 1 := fun v n g => ⟨fun h => ⟨g, if_pos h⟩, fun h => ⟨g, if_neg (not_le.2 h)⟩⟩

theorem offset_untouched (own : τ → ω) (v : ℝ) : SigUntouched own (offset v) := by
  refine ⟨fun _ => rfl, fun v n g => ?_⟩
  by_cases h : 0 ≤ v
  · simp [h]
  · simp [h]

theorem offset_apart (o : SigObject τ) (v : ℝ) : OwnGenerators o (offset v) := by
  refine own_symm ⟨?_, fun v n => ?_⟩
  · have h : ∀ (α : Type) (y : M τ α), NoInteraction (pure v : M τ ℝ) y := fun _ y => NoInteraction.pure v y
    cases o with
    | additive i sigma noise => exact ⟨h _ _, fun _ _ => h _ _⟩
    | rtn i scale std height r rng => exact ⟨h _ _, h _ _, h _ _, ⟨fun _ => h _ _, fun _ _ => h _ _, fun _ => h _ _, fun _ _ => h _ _⟩⟩
  · have h : ∀ (α : Type) (y : M τ α), NoInteraction (fun g : τ => open Classical in if 0 ≤ v then ((.ok ((List.range n).map fun _ => v * 1), g) : Py (List ℝ) × τ) else (.error .valueError, g)) y := by
      intro _ y g
      by_cases hv : 0 ≤ v <;> simp [hv]
    cases o with
    | additive i sigma noise => exact ⟨h _ _, fun _ _ => h _ _⟩
    | rtn i scale std height r rng => exact ⟨h _ _, h _ _, h _ _, ⟨fun _ => h _ _, fun _ _ => h _ _, fun _ => h _ _, fun _ _ => h _ _⟩⟩

theorem plus_line {n : ℕ} {f : Fin n → ℝ} {v : ℝ} {z : ℕ → ℝ} {y : Scan ℝ} (h : PlusNoise (.d1 n f) v z y) : y = .d1 n fun i => f i + v * z i := h

theorem offset_line (lab : Labelling) (s : SimState τ) (g : τ) :
    g ∈ HasDensity ((streamSim [offset 1]).measure lab countingRequest) s (-0.2, -0.1) (-0.2, -0.1) 10 100 := by
  obtain ⟨q, a, h⟩ := stream_silent lab (withGenerators s g)
  obtain ⟨y, s', h', hp, -⟩ := after_ok (i := 1) (sigma := pure 1) offset_draws (fun _ => rfl) h rfl (v := 1) rfl zero_le_one
  rw [plus_line hp] at h'
  exact ⟨_, a, s', (congrFun (measure_last (sim := streamSim [offset 1]) (pre := []) rfl lab countingRequest) _).trans h', rfl, by norm_num, by norm_num⟩

theorem offset_scan (lab : Labelling) (s : SimState τ) (g : τ) :
    g ∈ HasDensity ((streamScanSim [offset 1]).measureScan lab flipRequest) s (-2, -1) (-2, -1) 2 2 := by
  obtain ⟨q, a, s0, h⟩ := stream_scan_silent lab (withGenerators s g)
  obtain ⟨y, s', h', hp, -⟩ := after_ok (i := 1) (sigma := pure 1) offset_draws (fun _ => rfl) h rfl (v := 1) rfl zero_le_one
  rw [plus_line hp] at h'
  exact ⟨_, a, s', (congrFun (measureScan_last (sim := streamScanSim [offset 1]) (pre := []) rfl lab flipRequest) _).trans h', rfl, by norm_num, by norm_num⟩

/-- White noise on a line with generator 0. -/
theorem white_line {n : ℕ} (i : ℕ) {v : ℝ} (hv : 0 ≤ v) (f : Fin n → ℝ) (s : SimState Streams) :
    whiteCall i (pure v) (streamNoise 0) (.d1 n f) s = (.ok (.d1 n fun k => f k + v * s.2.gens 0 k),
      (s.1, { s.2 with sigma := Function.update s.2.sigma i (some v), gens := Function.update s.2.gens 0 fun m => s.2.gens 0 (m + n) })) := by
  rw [whiteCall_eq]
  obtain ⟨z, hz, hp⟩ := addNoise_plus (.d1 n f) v fun k => s.2.gens 0 k
  rw [plus_line hp] at hz
  dsimp only [M.pure_run]
  rw [show streamNoise 0 v (Scan.size (.d1 n f)) s.2.gens = _ from if_pos hv]
  exact Prod.ext hz rfl

/-- Two white noises with the same generator. -/
theorem shared_line (lab : Labelling) {i j : ℕ} {v w : ℝ} (hv : 0 ≤ v) (hw : 0 ≤ w) {s : SimState Streams} {q : Fin 10 → ℝ} {a : Scan (ℝ × ℝ) × Scan ℕ}
    (h : (streamSim []).measure lab countingRequest s = (.ok (.d1 10 q, a), s)) :
    ((streamSim [streamWhite i 0 v, streamWhite j 0 w]).measure lab countingRequest s).1 =
      .ok (.d1 10 fun k => q k + v * s.2.gens 0 k + w * s.2.gens 0 (k + 10), a) := by
  rw [measure_last (sim := streamSim [streamWhite i 0 v, streamWhite j 0 w]) (pre := [streamWhite i 0 v]) rfl lab countingRequest]
  have h1 : (streamSim [streamWhite i 0 v]).measure lab countingRequest s = _ :=
    (congrFun (measure_last (sim := streamSim [streamWhite i 0 v]) (pre := []) rfl lab countingRequest) s).trans
      ((M.step h).trans (M.step (white_line i hv q s)))
  refine (congrArg Prod.fst ((M.step h1).trans (M.step (white_line j hw _ _)))).trans ?_
  simp

end demo

end SimCATS
