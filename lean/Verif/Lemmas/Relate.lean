import Verif.Model.SampledSim
import Verif.Lemmas.Monad
import Verif.Lemmas.Telegraph

/-!
Two runs of one method from different states: rules for results that are equal and states that stay related.
-/

namespace SimCATS

/-- Equal results (or exceptions), with states related by `R` after a result and by `E` after an exception. -/
inductive Out {σ α : Type} (R E : σ → σ → Prop) : Py α × σ → Py α × σ → Prop
  | ok (a : α) (s t : σ) : R s t → Out R E (.ok a, s) (.ok a, t)
  | err (e : PyErr) (s t : σ) : E s t → Out R E (.error e, s) (.error e, t)

/-- Two calls with the same outcome, started from states related by `R`. -/
def Same {σ α : Type} (R R' E : σ → σ → Prop) (x y : M σ α) : Prop := ∀ s t, R s t → Out R' E (x s) (y t)

theorem M.step {σ α β : Type} {x : M σ α} {f : α → M σ β} {s s' : σ} {a : α} (h : x s = (.ok a, s')) : (x >>= f) s = f a s' := by
  rw [M.bind_run, h]

section rules
variable {σ α β : Type} {R R' R'' E E' : σ → σ → Prop}

theorem Out.fst {p q : Py α × σ} (h : Out R E p q) : p.1 = q.1 := by cases h <;> rfl

theorem Out.mono {p q : Py α × σ} (h : Out R E p q) (hR : ∀ s t, R s t → R' s t) (hE : ∀ s t, E s t → E' s t) : Out R' E' p q := by
  cases h with
  | ok a s t h => exact .ok a s t (hR _ _ h)
  | err e s t h => exact .err e s t (hE _ _ h)

theorem Out.after {p q : Py α × σ} (h : Out R E p q) (hR : ∀ s t, R s t → R' s t) (hE : ∀ s t, E s t → R' s t) : R' p.2 q.2 := by
  cases h with
  | ok a s t h => exact hR _ _ h
  | err e s t h => exact hE _ _ h

theorem Same.mono {x y : M σ α} (h : Same R R' E x y) {Q Q' F : σ → σ → Prop} (hR : ∀ s t, Q s t → R s t) (hR' : ∀ s t, R' s t → Q' s t)
    (hE : ∀ s t, E s t → F s t) : Same Q Q' F x y := fun s t hs => (h s t (hR s t hs)).mono hR' hE

theorem Same.pure (a : α) (h : ∀ s t, R s t → R' s t) : Same R R' E (pure a : M σ α) (pure a) := fun s t hs => .ok a s t (h s t hs)

theorem Same.raise (e : PyErr) (h : ∀ s t, R s t → E s t) : Same R R' E (M.raise e : M σ α) (M.raise e) := fun s t hs => .err e s t (h s t hs)

theorem Same.ofPy (x : Py α) (h : ∀ s t, R s t → R' s t) (h' : ∀ s t, R s t → E s t) : Same R R' E (SimCATS.ofPy x : M σ α) (SimCATS.ofPy x) := by
  intro s t hs
  cases x with
  | ok a => exact .ok a s t (h s t hs)
  | error e => exact .err e s t (h' s t hs)

theorem Same.bind {x y : M σ α} {f g : α → M σ β} (hx : Same R R' E x y) (hf : ∀ a, Same R' R'' E (f a) (g a)) :
    Same R R'' E (x >>= f) (y >>= g) := by
  intro s t hs
  have h := hx s t hs
  rw [M.bind_run, M.bind_run]
  generalize x s = p at h ⊢
  generalize y t = q at h ⊢
  cases h with
  | ok a s' t' h => exact hf a s' t' h
  | err e s' t' h => exact .err e s' t' h

/-- As `Same.bind`; the second call is only needed for values that the first one can return. -/
theorem Same.bind_of {x y : M σ α} {f g : α → M σ β} (hx : Same R R' E x y)
    (hf : ∀ a, (∃ s s', x s = (.ok a, s')) → Same R' R'' E (f a) (g a)) : Same R R'' E (x >>= f) (y >>= g) := by
  intro s t hs
  have h := hx s t hs
  rw [M.bind_run, M.bind_run]
  rcases hxs : x s with ⟨r, s'⟩
  rw [hxs] at h
  generalize y t = q at h ⊢
  cases h with
  | ok a s' t' h => exact hf a ⟨s, s', hxs⟩ s' t' h
  | err e s' t' h => exact .err e s' t' h

end rules

/-! ### States with own places -/

/-- What is compared: `same` for the generators, `own k` for the object with key `k`. -/
structure Memory (σ ι : Type) where
  same : σ → σ → Prop
  own : ι → σ → σ → Prop

variable {σ ι D α : Type}

/-- The generators and the objects of `K` agree. -/
def Memory.rel (m : Memory σ ι) (K : Set ι) (s t : σ) : Prop := m.same s t ∧ ∀ k ∈ K, m.own k s t

theorem Memory.rel_same {m : Memory σ ι} {K : Set ι} (s t : σ) (h : m.rel K s t) : m.same s t := h.1

theorem Memory.rel_anti {m : Memory σ ι} {K K' : Set ι} (hK : K ⊆ K') (s t : σ) (h : m.rel K' s t) : m.rel K s t :=
  ⟨h.1, fun k hk => h.2 k (hK hk)⟩

/-- The place `L` holds the state of the object `k`; two such states agree if `V` holds. -/
structure Placed (m : Memory σ ι) (L : Slot σ D) (k : ι) (V : D → D → Prop) : Prop where
  same : ∀ d d' s t, m.same s t → m.same (L.put d s) (L.put d' t)
  other : ∀ j, j ≠ k → ∀ d d' s t, m.own j s t → m.own j (L.put d s) (L.put d' t)
  own : ∀ s t, m.own k s t ↔ V (L.get s) (L.get t)

/-- States related after the own state has been written back. -/
def Pull (L : Slot σ D) (X : σ → σ → Prop) (p q : D × σ) : Prop := X (L.put p.1 p.2) (L.put q.1 q.2)

/-- A call that does not touch the place `L` and depends on the generators only. -/
structure IsDraw (m : Memory σ ι) (L : Slot σ D) (z : M σ α) : Prop where
  neutral : ∀ d s, z (L.put d s) = ((z s).1, L.put d (z s).2)
  keeps : ∀ K, Same (m.rel K) (m.rel K) m.same z z

section places
variable {m : Memory σ ι} {L : Slot σ D} {k : ι} {V : D → D → Prop} {β : Type}

theorem IsDraw.pure (a : α) : IsDraw m L (pure a : M σ α) := ⟨fun _ _ => rfl, fun _ => .pure a fun _ _ h => h⟩

theorem IsDraw.raise (e : PyErr) : IsDraw m L (M.raise e : M σ α) := ⟨fun _ _ => rfl, fun _ => .raise e Memory.rel_same⟩

theorem IsDraw.ofPy (x : Py α) : IsDraw m L (ofPy x : M σ α) := ⟨fun _ _ => rfl, fun _ => .ofPy x (fun _ _ h => h) Memory.rel_same⟩

theorem IsDraw.bind {x : M σ α} {f : α → M σ β} (hx : IsDraw m L x) (hf : ∀ a, IsDraw m L (f a)) : IsDraw m L (x >>= f) := by
  refine ⟨fun d s => ?_, fun K => (hx.keeps K).bind fun a => (hf a).keeps K⟩
  rw [M.bind_run, M.bind_run, hx.neutral d s]
  rcases h : x s with ⟨r, s'⟩
  cases r with
  | ok a => exact (hf a).neutral d s'
  | error e => rfl

theorem IsDraw.burst [Semiring α] {amp : M σ α} (ha : IsDraw m L amp) (size : ℕ) (w : ℕ → ℕ) :
    ∀ todo i bi noise, IsDraw m L (burstLoop amp size w todo i bi noise)
  | 0, _, _, noise => IsDraw.pure noise
  | todo + 1, i, bi, noise => by
    unfold burstLoop
    split
    · refine ha.bind fun a => ?_
      dsimp only
      split
      · exact IsDraw.pure _
      · exact IsDraw.burst ha size w todo _ _ _
    · split
      · exact IsDraw.pure _
      · exact IsDraw.burst ha size w todo _ _ _

/-- The calls of a generator are draws. -/
structure RngDraws (m : Memory σ ι) (L : Slot σ D) (rng : Rng σ) : Prop where
  binomial : ∀ p, IsDraw m L (rng.binomial p)
  geometric : ∀ p n, IsDraw m L (rng.geometric p n)
  poisson : ∀ lam, IsDraw m L (rng.poisson lam)
  normal : ∀ a b, IsDraw m L (rng.normal a b)

theorem RngDraws.telegraph {rng : Rng σ} (h : RngDraws m L rng) (x : Scan ℝ) (scale : Option ℝ) (std height : ℝ) :
    IsDraw m L (telegraphNoise rng x scale std height) := by
  unfold telegraphNoise
  cases scale with
  | none => exact .raise _
  | some scale =>
    dsimp only
    split
    · exact .pure _
    · exact (h.geometric _ _).bind fun w => (IsDraw.burst (h.normal _ _) _ _ _ _ _ _).bind fun n => .ofPy _

theorem RngDraws.jumps {rng : Rng σ} (h : RngDraws m L rng) (size : ℕ) (scale lam : ℝ) : IsDraw m L (generateJumps rng size scale lam) := by
  unfold generateJumps
  split
  · exact .pure _
  · exact (h.geometric _ _).bind fun w => (IsDraw.burst (h.poisson _) _ _ _ _ _ _).bind fun n => .pure _

theorem Same.onRest {z : M σ α} (h : IsDraw m L z) (K : Set ι) :
    Same (Pull L (m.rel K)) (Pull L (m.rel K)) (Pull L m.same) (onRest z : M (D × σ) α) (SimCATS.onRest z) := by
  rintro ⟨d, s⟩ ⟨d', t⟩ hp
  have hk := h.keeps K _ _ (show m.rel K (L.put d s) (L.put d' t) from hp)
  rw [h.neutral, h.neutral] at hk
  unfold SimCATS.onRest
  dsimp only
  rcases hs : z s with ⟨r, s'⟩
  rcases ht : z t with ⟨r', t'⟩
  rw [hs, ht] at hk
  dsimp only at hk ⊢
  cases hk with
  | ok a _ _ h => exact .ok a _ _ h
  | err e _ _ h => exact .err e _ _ h

theorem Placed.put (hL : Placed m L k V) {d d' : D} (hV : V d d') {K : Set ι} {s t : σ} (h : m.rel K s t) :
    m.rel (insert k K) (L.put d s) (L.put d' t) := by
  refine ⟨hL.same _ _ _ _ h.1, fun j hj => ?_⟩
  by_cases hjk : j = k
  · rw [hjk, hL.own, L.get_put, L.get_put]
    exact hV
  · exact hL.other j hjk _ _ _ _ (h.2 j (hj.resolve_left hjk))

theorem Placed.setOwn (hL : Placed m L k V) {d d' : D} (hV : V d d') (K : Set ι) :
    Same (Pull L (m.rel K)) (Pull L (m.rel (insert k K))) (Pull L m.same) (SimCATS.setOwn d : M (D × σ) Unit) (SimCATS.setOwn d') := by
  rintro ⟨e, s⟩ ⟨e', t⟩ hp
  refine .ok () _ _ ?_
  have h := hL.put hV (show m.rel K (L.put e s) (L.put e' t) from hp)
  rw [L.put_put, L.put_put] at h
  exact h

/-- Only the generators and objects other than `k` are compared: the value written to the place of `k` may be any. -/
theorem Placed.write (hL : Placed m L k V) (d d' : D) {K : Set ι} (hk : k ∉ K) :
    Same (Pull L (m.rel K)) (Pull L (m.rel K)) (Pull L m.same) (SimCATS.setOwn d : M (D × σ) Unit) (SimCATS.setOwn d') := by
  rintro ⟨e, s⟩ ⟨e', t⟩ hp
  refine .ok () _ _ ⟨?_, fun j hj => ?_⟩
  · have h := hL.same d d' _ _ (show m.rel K (L.put e s) (L.put e' t) from hp).1
    rw [L.put_put, L.put_put] at h
    exact h
  · have h := hL.other j (fun h => hk (h ▸ hj)) d d' _ _ ((show m.rel K (L.put e s) (L.put e' t) from hp).2 j hj)
    rw [L.put_put, L.put_put] at h
    exact h

theorem Same.run {X X' E : σ → σ → Prop} {x y : M (D × σ) α} (h : Same (Pull L X) (Pull L X') (Pull L E) x y) :
    Same X X' E (L.run x) (L.run y) := by
  intro s t hs
  have hp : Pull L X (L.get s, s) (L.get t, t) := by
    unfold Pull
    rw [L.put_get, L.put_get]
    exact hs
  have h := h _ _ hp
  unfold Slot.run
  generalize x (L.get s, s) = p at h ⊢
  generalize y (L.get t, t) = q at h ⊢
  cases h with
  | ok a _ _ h => exact .ok a _ _ h
  | err e _ _ h => exact .err e _ _ h

theorem Same.inner {X X' E : σ → σ → Prop} {x y : M σ α} (h : Same X X' E x y) :
    Same (Pull L X) (Pull L X') (Pull L E) (L.inner x) (L.inner y) := by
  rintro ⟨d, s⟩ ⟨d', t⟩ hp
  have h := h _ _ (show X (L.put d s) (L.put d' t) from hp)
  unfold Slot.inner
  dsimp only
  generalize x (L.put d s) = p at h ⊢
  generalize y (L.put d' t) = q at h ⊢
  cases h with
  | ok a s' t' h =>
    refine .ok a _ _ ?_
    unfold Pull
    rw [L.put_get, L.put_get]
    exact h
  | err e s' t' h =>
    refine .err e _ _ ?_
    unfold Pull
    rw [L.put_get, L.put_get]
    exact h

end places

/-! ### CSD generators and dot jumps -/

/-- Two CSD generators with the same outcomes. -/
def GenSame (R E : σ → σ → Prop) (gen gen' : Gen σ) : Prop := ∀ v1 v2 res, Same R R E (gen v1 v2 res) (gen' v1 v2 res)

section jumps
variable {R E : σ → σ → Prop} {gen gen' : Gen σ}

theorem GenSame.borderCall (h : GenSame R E gen gen') (axis : Axis) (g1 g2 : ℝ × ℝ) (r c m : ℕ) :
    Same R R E (borderCall axis gen g1 g2 r c m) (SimCATS.borderCall axis gen' g1 g2 r c m) := by
  cases axis <;> exact h _ _ _

theorem GenSame.border2d (h : GenSame R E gen gen') (hE : ∀ s t, R s t → E s t) (axis : Axis) (g1 g2 : ℝ × ℝ) (r c m : ℕ) :
    Same R R E (border2d axis gen g1 g2 r c m) (SimCATS.border2d axis gen' g1 g2 r c m) := by
  have hid : ∀ s t, R s t → R s t := fun _ _ h => h
  unfold SimCATS.border2d
  by_cases hm : m = 0
  · rw [if_pos hm, if_pos hm]
    exact .pure _ hid
  · rw [if_neg hm, if_neg hm]
    refine (h.borderCall axis g1 g2 r c m).bind fun data => ?_
    cases axis
    · exact (Same.ofPy _ hid hE).bind fun o => (Same.ofPy _ hid hE).bind fun l => .pure _ hid
    · exact (Same.ofPy _ hid hE).bind fun o => (Same.ofPy _ hid hE).bind fun l => .pure _ hid

theorem GenSame.apply2d (h : GenSame R E gen gen') (hE : ∀ s t, R s t → E s t) (axis : Axis) (nan : ℝ) (r c : ℕ)
    (occ : Fin r → Fin c → ℝ × ℝ) (lead : Fin r → Fin c → ℕ) (g1 g2 : ℝ × ℝ) (scale : Option ℝ) (noise : List ℕ) :
    Same R R E (apply2d axis nan r c occ lead g1 g2 gen scale noise) (SimCATS.apply2d axis nan r c occ lead g1 g2 gen' scale noise) := by
  have hid : ∀ s t, R s t → R s t := fun _ _ h => h
  unfold SimCATS.apply2d
  exact (Same.ofPy _ hid hE).bind fun m => (h.border2d hE axis g1 g2 r c m).bind fun b => (Same.ofPy _ hid hE).bind fun o1 =>
    (Same.ofPy _ hid hE).bind fun o2 => (Same.ofPy _ hid hE).bind fun l => .pure _ hid

theorem GenSame.border1d (h : GenSame R E gen gen') (hE : ∀ s t, R s t → E s t) (axis : Axis) (g1 g2 : ℝ × ℝ) (n : ℕ) :
    ∀ todo i o l, Same R R E (border1d axis gen g1 g2 n todo i o l) (SimCATS.border1d axis gen' g1 g2 n todo i o l)
  | 0, _, o, l => .pure (o, l) fun _ _ h => h
  | todo + 1, i, o, l => by
    have hid : ∀ s t, R s t → R s t := fun _ _ h => h
    unfold SimCATS.border1d
    dsimp only
    cases axis
    · exact (h _ _ _).bind fun data => (Same.ofPy _ hid hE).bind fun a => (Same.ofPy _ hid hE).bind fun b =>
        GenSame.border1d h hE .g1 g1 g2 n todo _ _ _
    · exact (h _ _ _).bind fun data => (Same.ofPy _ hid hE).bind fun a => (Same.ofPy _ hid hE).bind fun b =>
        GenSame.border1d h hE .g2 g1 g2 n todo _ _ _

theorem GenSame.apply1d (h : GenSame R E gen gen') (hE : ∀ s t, R s t → E s t) (axis : Axis) (np2 : Bool) (nan : ℝ) (n : ℕ)
    (occ : Fin n → ℝ × ℝ) (lead : Fin n → ℕ) (g1 g2 : ℝ × ℝ) (scale : Option ℝ) (noise : List ℕ) :
    Same R R E (apply1d axis np2 nan n occ lead g1 g2 gen scale noise)
      (SimCATS.apply1d axis np2 nan n occ lead g1 g2 gen' scale noise) := by
  have hid : ∀ s t, R s t → R s t := fun _ _ h => h
  unfold SimCATS.apply1d
  exact (Same.ofPy _ hid hE).bind fun m => (h.border1d hE axis g1 g2 n m _ _ _).bind fun b => (Same.ofPy _ hid hE).bind fun s1 =>
    (Same.ofPy _ hid hE).bind fun s2 => (Same.ofPy _ hid hE).bind fun o1 => (Same.ofPy _ hid hE).bind fun o2 =>
    (Same.ofPy _ hid hE).bind fun sl => (Same.ofPy _ hid hE).bind fun l => .pure _ hid

end jumps

theorem run1d_same {R E : DotState × σ → DotState × σ → Prop} {gen gen' : Gen (DotState × σ)} (h : GenSame R E gen gen')
    (hE : ∀ s t, R s t → E s t) (d : DotJumps σ) (n : ℕ) (occ : Fin n → ℝ × ℝ) (lead : Fin n → ℕ) (g1 g2 : ℝ × ℝ) (p : List ℕ × Option ℝ) :
    Same R R E (d.run1d n occ lead g1 g2 gen p) (d.run1d n occ lead g1 g2 gen' p) := by
  unfold DotJumps.run1d
  split
  · exact (h.apply1d hE _ _ _ _ _ _ _ _ _ _).bind fun out => .pure _ fun _ _ h => h
  · exact (h.apply1d hE _ _ _ _ _ _ _ _ _ _).bind fun out => .pure _ fun _ _ h => h

theorem run2d_same {R E : DotState × σ → DotState × σ → Prop} {gen gen' : Gen (DotState × σ)} (h : GenSame R E gen gen')
    (hE : ∀ s t, R s t → E s t) (d : DotJumps σ) (r c : ℕ) (occ : Fin r → Fin c → ℝ × ℝ) (lead : Fin r → Fin c → ℕ) (g1 g2 : ℝ × ℝ)
    (p : List ℕ × Option ℝ) : Same R R E (d.run2d r c occ lead g1 g2 gen p) (d.run2d r c occ lead g1 g2 gen' p) := by
  unfold DotJumps.run2d
  exact (h.apply2d hE _ _ _ _ _ _ _ _ _ _).bind fun out => .pure _ fun _ _ h => h

theorem active_same {R R' E : DotState × σ → DotState × σ → Prop} {gen gen' : Gen (DotState × σ)} (h : GenSame R' E gen gen')
    (hRE : ∀ s t, R s t → E s t) (hE : ∀ s t, R' s t → E s t) (d : DotJumps σ) (data : CsdData) (g1 g2 : ℝ × ℝ) (freeze : Bool)
    (hn : ∀ occ size, Same R R' E (d.noise g1 g2 occ size freeze) (d.noise g1 g2 occ size freeze)) :
    Same R R' E (d.active data g1 g2 gen freeze) (d.active data g1 g2 gen' freeze) := by
  obtain ⟨occ, lead⟩ := data
  unfold DotJumps.active
  cases occ with
  | d0 v => exact .raise _ hRE
  | d1 n occ =>
    exact (Same.ofPy _ (fun _ _ h => h) hRE).bind fun l => (hn _ _).bind fun p => run1d_same h hE d _ _ _ _ _ _
  | d2 r c occ =>
    exact (Same.ofPy _ (fun _ _ h => h) hRE).bind fun l => (hn _ _).bind fun p => run2d_same h hE d _ _ _ _ _ _ _

/-- Two states of a dot jump distortion with the same effect on frozen calls. -/
def DotAgree (d d' : DotState) : Prop := d.activated = d'.activated ∧ (d.activated = some true → d.prev = d'.prev)

/-- A distortion of the occupations whose outcome does not depend on its own earlier state (unfrozen calls). -/
structure OccFresh (m : Memory σ ι) (k : ι) (d : OccDist σ) : Prop where
  fresh : ∀ K data g1 g2 gen gen', GenSame (m.rel (insert k K)) m.same gen gen' →
    Same (m.rel K) (m.rel (insert k K)) m.same (d data g1 g2 gen false) (d data g1 g2 gen' false)
  frozen : ∀ K, k ∈ K → ∀ data g1 g2 gen gen', GenSame (m.rel K) m.same gen gen' →
    Same (m.rel K) (m.rel K) m.same (d data g1 g2 gen true) (d data g1 g2 gen' true)

/-- A distortion of the potential or of the response whose outcome does not depend on its own earlier state. -/
def SigFresh (m : Memory σ ι) (k : ι) (d : SigDist σ) : Prop :=
  ∀ K x g1 g2, Same (m.rel K) (m.rel (insert k K)) m.same (d x g1 g2) (d x g1 g2)

section objects
variable {m : Memory σ ι} {k : ι}

theorem pull_same {L : Slot σ D} {K : Set ι} (p q : D × σ) (h : Pull L (m.rel K) p q) : Pull L m.same p q := h.1

theorem noise_fresh {L : Slot σ DotState} (hL : Placed m L k DotAgree) {d : DotJumps σ} (hr : RngDraws m L d.rng)
    (hs : IsDraw m L d.scale) (hl : IsDraw m L d.lam) {K : Set ι} (g1 g2 : ℝ × ℝ) (occ : Scan (ℝ × ℝ)) (size : ℕ) :
    Same (Pull L (m.rel K)) (Pull L (m.rel (insert k K))) (Pull L m.same) (d.noise g1 g2 occ size false) (d.noise g1 g2 occ size false) := by
  unfold DotJumps.noise
  rw [if_neg (by decide)]
  refine (Same.onRest hs K).bind fun scale => (Same.onRest hl K).bind fun lam => ?_
  cases pixelParams (jumpFactor d.axis g1 g2 occ) scale lam with
  | none => exact .raise _ pull_same
  | some p =>
    exact (Same.onRest (hr.jumps _ _ _) K).bind fun n => (hL.setOwn ⟨rfl, fun _ => rfl⟩ K).bind fun _ => .pure _ fun _ _ h => h

theorem noise_frozen {L : Slot σ DotState} (hL : Placed m L k DotAgree) (d : DotJumps σ) {K : Set ι} (hk : k ∈ K) (g1 g2 : ℝ × ℝ)
    (occ : Scan (ℝ × ℝ)) (size : ℕ) :
    Same (fun p q => Pull L (m.rel K) p q ∧ p.1.activated = some true) (Pull L (m.rel K)) (Pull L m.same)
      (d.noise g1 g2 occ size true) (d.noise g1 g2 occ size true) := by
  rintro ⟨o, s⟩ ⟨o', t⟩ ⟨hp, ha⟩
  have ho : DotAgree o o' := by
    have h := (hL.own _ _).1 (hp.2 k hk)
    rwa [L.get_put, L.get_put] at h
  unfold DotJumps.noise
  rw [if_pos rfl, M.step (getOwn_run _), M.step (getOwn_run _)]
  dsimp only
  rw [← ho.2 ha]
  cases o.prev with
  | none => exact .err _ _ _ hp.1
  | some n => exact .ok _ _ _ hp

theorem dotJumps_fresh {L : Slot σ DotState} (hL : Placed m L k DotAgree) {d : DotJumps σ} (hr : RngDraws m L d.rng)
    (hs : IsDraw m L d.scale) (hl : IsDraw m L d.lam) : OccFresh m k (OccDist.on L d.noiseFunction) where
  fresh := by
    intro K data g1 g2 gen gen' hg
    refine Same.run ?_
    have hg' : GenSame (Pull L (m.rel (insert k K))) (Pull L m.same) (fun v1 v2 res => L.inner (gen v1 v2 res))
        (fun v1 v2 res => L.inner (gen' v1 v2 res)) := fun v1 v2 res => (hg v1 v2 res).inner
    rintro ⟨o, s⟩ ⟨o', t⟩ hp
    unfold DotJumps.noiseFunction
    rw [M.step (getOwn_run _), M.step (getOwn_run _)]
    rw [if_neg (by decide), if_neg (by decide)]
    refine (Same.onRest (hr.binomial _) K).bind (R'' := Pull L (m.rel (insert k K))) (fun b => ?_) _ _ hp
    cases b with
    | false =>
      have hd : DotAgree { o with activated := some false } { o' with activated := some false } := ⟨rfl, fun h => absurd (Option.some.inj h) (by decide)⟩
      refine (hL.setOwn hd K).bind fun _ => ?_
      rw [if_pos rfl, if_pos rfl]
      exact .pure _ fun _ _ h => h
    | true =>
      have hw : Same (Pull L (m.rel K)) (Pull L (m.rel (K \ {k}))) (Pull L m.same)
          (setOwn { o with activated := some true } : M (DotState × σ) Unit) (setOwn { o' with activated := some true }) :=
        (hL.write _ _ (K := K \ {k}) (fun h => h.2 rfl)).mono (fun _ _ h => Memory.rel_anti Set.sdiff_subset _ _ h) (fun _ _ h => h)
          fun _ _ h => h
      refine hw.bind fun _ => ?_
      rw [if_neg (by decide), if_neg (by decide)]
      refine active_same hg' pull_same pull_same d data g1 g2 false fun occ size => ?_
      have h := noise_fresh hL hr hs hl (K := K \ {k}) g1 g2 occ size
      rw [Set.insert_sdiff_singleton] at h
      exact h
  frozen := by
    intro K hk data g1 g2 gen gen' hg
    refine Same.run ?_
    have hg' : GenSame (Pull L (m.rel K)) (Pull L m.same) (fun v1 v2 res => L.inner (gen v1 v2 res))
        (fun v1 v2 res => L.inner (gen' v1 v2 res)) := fun v1 v2 res => (hg v1 v2 res).inner
    rintro ⟨o, s⟩ ⟨o', t⟩ hp
    have ho : DotAgree o o' := by
      have h := (hL.own _ _).1 (hp.2 k hk)
      rwa [L.get_put, L.get_put] at h
    unfold DotJumps.noiseFunction
    rw [M.step (getOwn_run _), M.step (getOwn_run _)]
    rw [if_pos rfl, if_pos rfl]
    dsimp only
    rw [← ho.1]
    by_cases ha : o.activated = some true
    · rw [if_pos ha, if_pos ha]
      exact active_same hg' (fun _ _ h => pull_same _ _ h.1) pull_same d data g1 g2 true (noise_frozen hL d hk g1 g2) _ _ ⟨hp, ha⟩
    · rw [if_neg ha, if_neg ha]
      exact .ok _ _ _ hp

theorem blur_fresh' {L : Slot σ (Option ℝ)} (hL : Placed m L k (· = ·)) {d : Blur σ} (hs : IsDraw m L d.sigma) :
    OccFresh m k (OccDist.on L d.noiseFunction) where
  fresh := by
    intro K data g1 g2 gen gen' _
    refine Same.run ?_
    unfold Blur.noiseFunction Blur.sample
    rw [if_neg (by decide)]
    refine ((Same.onRest hs K).bind fun v => Same.pure (some v) fun _ _ h => h).bind (R' := Pull L (m.rel K)) fun v =>
      (hL.setOwn rfl K).bind fun _ => ?_
    cases v with
    | none => exact .raise _ pull_same
    | some v => exact .ofPy _ (fun _ _ h => h) pull_same
  frozen := by
    intro K hk data g1 g2 gen gen' _
    refine Same.run ?_
    rintro ⟨o, s⟩ ⟨o', t⟩ hp
    have ho : o = o' := by
      have h := (hL.own _ _).1 (hp.2 k hk)
      rwa [L.get_put, L.get_put] at h
    subst ho
    unfold Blur.noiseFunction Blur.sample
    rw [if_pos rfl, M.step (getOwn_run _), M.step (getOwn_run _), M.step (setOwn_run _ _ _), M.step (setOwn_run _ _ _)]
    dsimp only
    cases o with
    | none => exact .err _ _ _ hp.1
    | some v =>
      exact (Same.ofPy (R := Pull L (m.rel K)) (R' := Pull L (m.rel K)) (E := Pull L m.same) _ (fun _ _ h => h) pull_same) _ _ hp

theorem white_fresh {L : Slot σ (Option ℝ)} (hL : Placed m L k (· = ·)) {d : WhiteNoise σ} (hs : IsDraw m L d.sigma)
    (hn : ∀ v n, IsDraw m L (d.noise v n)) : SigFresh m k (SigDist.on L d.noiseFunction) := by
  intro K x g1 g2
  refine Same.run ?_
  exact (Same.onRest hs K).bind fun v => (hL.setOwn rfl K).bind fun _ => (Same.onRest (hn _ _) _).bind fun n =>
    .ofPy _ (fun _ _ h => h) pull_same

theorem rtn_fresh {L : Slot σ (Option Bool)} (hL : Placed m L k (· = ·)) {d : Rtn σ} (hr : RngDraws m L d.rng) (h1 : IsDraw m L d.scale)
    (h2 : IsDraw m L d.std) (h3 : IsDraw m L d.height) : SigFresh m k (SigDist.on L d.noiseFunction) := by
  intro K x g1 g2
  refine Same.run ?_
  refine (Same.onRest (hr.binomial _) K).bind fun b => (hL.setOwn rfl K).bind fun _ => ?_
  split
  · exact .pure _ fun _ _ h => h
  · exact (Same.onRest h1 _).bind fun v => (Same.onRest h2 _).bind fun w => (Same.onRest h3 _).bind fun u =>
      Same.onRest (hr.telegraph _ _ _ _) _

end objects

end SimCATS
