import Verif.Lemmas.History
import Verif.Spec.Reports

/-!
Values that a call leaves unchanged, and what the distortions report after a call.
-/

namespace SimCATS

open Spec

variable {σ D α β τ ρ : Type}

/-- A call that leaves the value `v` of `f` as it is, also if it raises an exception. -/
def KeepsAt (f : σ → ρ) (v : ρ) (x : M σ α) : Prop := ∀ s, f s = v → f (x s).2 = v

section rules
variable {f : σ → ρ} {v : ρ}

theorem KeepsAt.ok {x : M σ α} (h : KeepsAt f v x) {s s' : σ} {a : α} (hx : x s = (.ok a, s')) (hs : f s = v) : f s' = v := by
  have := h s hs
  rwa [hx] at this

theorem KeepsAt.pure (a : α) : KeepsAt f v (pure a : M σ α) := fun _ h => h

theorem KeepsAt.raise (e : PyErr) : KeepsAt f v (M.raise e : M σ α) := fun _ h => h

theorem KeepsAt.ofPy (x : Py α) : KeepsAt f v (ofPy x : M σ α) := fun _ h => h

theorem KeepsAt.bind {x : M σ α} {g : α → M σ β} (hx : KeepsAt f v x) (hg : ∀ a, KeepsAt f v (g a)) : KeepsAt f v (x >>= g) := by
  intro s hs
  have h := hx s hs
  rw [M.bind_run]
  rcases e : x s with ⟨r, s'⟩
  rw [e] at h
  cases r with
  | ok a => exact hg a s' h
  | error _ => exact h

/-- Equal states with the value `v` of `f`. -/
def Diag (f : σ → ρ) (v : ρ) (s t : σ) : Prop := s = t ∧ f s = v

theorem keepsAt_iff_same {x : M σ α} : KeepsAt f v x ↔ Same (Diag f v) (Diag f v) (Diag f v) x x := by
  constructor
  · rintro h s t ⟨rfl, hs⟩
    have h := h s hs
    generalize x s = p at h ⊢
    obtain ⟨r, s'⟩ := p
    cases r with
    | ok a => exact .ok a _ _ ⟨rfl, h⟩
    | error e => exact .err e _ _ ⟨rfl, h⟩
  · intro h s hs
    exact ((h s s ⟨rfl, hs⟩).after (R' := Diag f v) (fun _ _ h => h) fun _ _ h => h).2

theorem KeepsAt.burst [Semiring α] {amp : M σ α} (ha : KeepsAt f v amp) (size : ℕ) (w : ℕ → ℕ) :
    ∀ todo i bi noise, KeepsAt f v (burstLoop amp size w todo i bi noise)
  | 0, _, _, noise => KeepsAt.pure noise
  | todo + 1, i, bi, noise => by
    unfold burstLoop
    split
    · refine ha.bind fun a => ?_
      dsimp only
      split
      · exact KeepsAt.pure _
      · exact KeepsAt.burst ha size w todo _ _ _
    · split
      · exact KeepsAt.pure _
      · exact KeepsAt.burst ha size w todo _ _ _

/-- All calls of a generator keep the value. -/
structure RngKeeps (f : σ → ρ) (v : ρ) (rng : Rng σ) : Prop where
  binomial : ∀ p, KeepsAt f v (rng.binomial p)
  geometric : ∀ p n, KeepsAt f v (rng.geometric p n)
  poisson : ∀ lam, KeepsAt f v (rng.poisson lam)
  normal : ∀ a b, KeepsAt f v (rng.normal a b)

theorem RngKeeps.telegraph {rng : Rng σ} (h : RngKeeps f v rng) (x : Scan ℝ) (scale : Option ℝ) (std height : ℝ) :
    KeepsAt f v (telegraphNoise rng x scale std height) := by
  unfold telegraphNoise
  cases scale with
  | none => exact .raise _
  | some scale =>
    dsimp only
    split
    · exact .pure _
    · exact (h.geometric _ _).bind fun w => (KeepsAt.burst (h.normal _ _) _ _ _ _ _ _).bind fun n => .ofPy _

theorem RngKeeps.jumps {rng : Rng σ} (h : RngKeeps f v rng) (size : ℕ) (scale lam : ℝ) : KeepsAt f v (generateJumps rng size scale lam) := by
  unfold generateJumps
  split
  · exact .pure _
  · exact (h.geometric _ _).bind fun w => (KeepsAt.burst (h.poisson _) _ _ _ _ _ _).bind fun n => .pure _

end rules

/-! ### Objects with an own place -/

section place
variable {f : σ → ρ} {v : ρ} {L : Slot σ D}

/-- The value after the own state has been written back. -/
def AtPlace (L : Slot σ D) (f : σ → ρ) (p : D × σ) : ρ := f (L.put p.1 p.2)

theorem KeepsAt.run {x : M (D × σ) α} (h : KeepsAt (AtPlace L f) v x) : KeepsAt f v (L.run x) := by
  intro s hs
  have := h (L.get s, s) (by unfold AtPlace; rw [L.put_get]; exact hs)
  unfold Slot.run
  exact this

theorem KeepsAt.inner {x : M σ α} (h : KeepsAt f v x) : KeepsAt (AtPlace L f) v (L.inner x) := by
  rintro ⟨d, s⟩ hs
  have := h (L.put d s) hs
  unfold Slot.inner AtPlace
  dsimp only
  rw [L.put_get]
  exact this

theorem KeepsAt.getOwn : KeepsAt (AtPlace L f) v (getOwn : M (D × σ) D) := fun _ h => h

theorem KeepsAt.setOwn {d : D} (h : ∀ d' s, f (L.put d' s) = v → f (L.put d s) = v) : KeepsAt (AtPlace L f) v (setOwn d : M (D × σ) Unit) :=
  fun p hp => h p.1 p.2 hp

/-- A call that does not touch the place `L` and keeps the value. -/
def DrawKeeps (L : Slot σ D) (f : σ → ρ) (v : ρ) (z : M σ α) : Prop := ∀ d, KeepsAt (fun s => f (L.put d s)) v z

theorem KeepsAt.onRest {z : M σ α} (h : DrawKeeps L f v z) : KeepsAt (AtPlace L f) v (onRest z : M (D × σ) α) := by
  rintro ⟨d, s⟩ hs
  exact h d s hs

theorem active_keeps {f : DotState × σ → ρ} {gen : Gen (DotState × σ)} (hg : ∀ v1 v2 res, KeepsAt f v (gen v1 v2 res)) (d : DotJumps σ)
    (data : CsdData) (g1 g2 : ℝ × ℝ) (freeze : Bool) (hn : ∀ occ size, KeepsAt f v (d.noise g1 g2 occ size freeze)) :
    KeepsAt f v (d.active data g1 g2 gen freeze) :=
  keepsAt_iff_same.2 (active_same (fun v1 v2 res => keepsAt_iff_same.1 (hg v1 v2 res)) (fun _ _ h => h) (fun _ _ h => h) d data g1 g2 freeze
    fun occ size => keepsAt_iff_same.1 (hn occ size))

theorem noise_frozen_keeps {f : DotState × σ → ρ} (d : DotJumps σ) (g1 g2 : ℝ × ℝ) (occ : Scan (ℝ × ℝ)) (size : ℕ) :
    KeepsAt f v (d.noise g1 g2 occ size true) := by
  rintro ⟨st, s⟩ hs
  unfold DotJumps.noise
  rw [if_pos rfl, M.step (getOwn_run _)]
  dsimp only
  cases st.prev <;> exact hs

end place

/-- All draws of dot jumps keep the value. -/
structure JumpDraws (L : Slot σ DotState) (f : σ → ρ) (v : ρ) (d : DotJumps σ) : Prop where
  scale : DrawKeeps L f v d.scale
  lam : DrawKeeps L f v d.lam
  rng : ∀ e, RngKeeps (fun s => f (L.put e s)) v d.rng

section jumps
variable {f : σ → ρ} {v : ρ} {L : Slot σ DotState} {d : DotJumps σ}

theorem noise_keeps (h : JumpDraws L f v d) (hset : ∀ n e s, f (L.put e s) = v → f (L.put ⟨some true, n⟩ s) = v) (g1 g2 : ℝ × ℝ)
    (occ : Scan (ℝ × ℝ)) (size : ℕ) : KeepsAt (AtPlace L f) v (d.noise g1 g2 occ size false) := by
  unfold DotJumps.noise
  rw [if_neg Bool.false_ne_true]
  refine (KeepsAt.onRest h.scale).bind fun a => (KeepsAt.onRest h.lam).bind fun b => ?_
  cases pixelParams (jumpFactor d.axis g1 g2 occ) a b with
  | none => exact .raise _
  | some p => exact (KeepsAt.onRest fun e => (h.rng e).jumps _ _ _).bind fun n => (KeepsAt.setOwn (hset _)).bind fun _ => .pure _

theorem jumps_frozen_keeps {gen : Gen (DotState × σ)} {f : DotState × σ → ρ} (hg : ∀ v1 v2 res, KeepsAt f v (gen v1 v2 res)) (data : CsdData)
    (g1 g2 : ℝ × ℝ) : KeepsAt f v (d.noiseFunction data g1 g2 gen true) := by
  unfold DotJumps.noiseFunction
  refine KeepsAt.bind (fun _ h => h) fun st => ?_
  rw [if_pos rfl]
  split
  · exact active_keeps hg d data g1 g2 true (noise_frozen_keeps d g1 g2)
  · exact .pure _

/-- A value that does not depend on the own state. -/
theorem jumps_keeps (h : JumpDraws L f v d) (hset : ∀ e e' s, f (L.put e s) = f (L.put e' s)) {gen : Gen σ}
    (hg : ∀ v1 v2 res, KeepsAt f v (gen v1 v2 res)) (data : CsdData) (g1 g2 : ℝ × ℝ) (freeze : Bool) :
    KeepsAt f v (OccDist.on L d.noiseFunction data g1 g2 gen freeze) := by
  have hset' : ∀ e e' s, f (L.put e' s) = v → f (L.put e s) = v := fun e e' s hs => (hset e e' s).trans hs
  refine KeepsAt.run ?_
  cases freeze with
  | true => exact jumps_frozen_keeps (fun v1 v2 res => (hg v1 v2 res).inner) data g1 g2
  | false =>
    unfold DotJumps.noiseFunction
    refine KeepsAt.getOwn.bind fun st => ?_
    rw [if_neg Bool.false_ne_true]
    refine (KeepsAt.onRest fun e => (h.rng e).binomial _).bind fun b => (KeepsAt.setOwn (hset' _)).bind fun _ => ?_
    split
    · exact .pure _
    · exact active_keeps (fun v1 v2 res => (hg v1 v2 res).inner) d data g1 g2 false
        (noise_keeps h (fun n e s hs => hset' _ e s hs) g1 g2)

end jumps

/-! ### What is reported after a call -/

/-- The values reported by the object with the given key. -/
def report (k : Fin 3 × ℕ) (s : ObjState τ) : Option ℝ × Option Bool :=
  if k.1 = 0 then (s.sigma k.2, none) else if k.1 = 1 then (none, (s.jumps k.2).activated) else (none, s.active k.2)

theorem drawing_keeps (k : Fin 3 × ℕ) (v : Option ℝ × Option Bool) (x : M τ α) : KeepsAt (report k) v (drawing x) := fun _ h => h

theorem rng_keeps (k : Fin 3 × ℕ) (v : Option ℝ × Option Bool) (rng : Rng τ) : RngKeeps (report k) v rng.drawing :=
  ⟨fun _ => drawing_keeps k v _, fun _ _ => drawing_keeps k v _, fun _ => drawing_keeps k v _, fun _ _ => drawing_keeps k v _⟩

theorem drawing_sigma (k : Fin 3 × ℕ) (v : Option ℝ × Option Bool) (i : ℕ) (x : M τ α) : DrawKeeps (sigmaSlot τ i) (report k) v (drawing x) :=
  fun _ _ h => h

theorem drawing_jumps (k : Fin 3 × ℕ) (v : Option ℝ × Option Bool) (i : ℕ) (x : M τ α) : DrawKeeps (jumpsSlot τ i) (report k) v (drawing x) :=
  fun _ _ h => h

theorem drawing_active (k : Fin 3 × ℕ) (v : Option ℝ × Option Bool) (i : ℕ) (x : M τ α) : DrawKeeps (activeSlot τ i) (report k) v (drawing x) :=
  fun _ _ h => h

theorem report_sigma {k : Fin 3 × ℕ} {i : ℕ} (h : k ≠ (0, i)) (d : Option ℝ) (s : ObjState τ) : report k ((sigmaSlot τ i).put d s) = report k s := by
  unfold report sigmaSlot
  dsimp only
  split
  · rw [Function.update_of_ne]
    rintro rfl
    exact h (Prod.ext (by assumption) rfl)
  · rfl

theorem report_jumps {k : Fin 3 × ℕ} {i : ℕ} (h : k ≠ (1, i)) (d : DotState) (s : ObjState τ) : report k ((jumpsSlot τ i).put d s) = report k s := by
  unfold report jumpsSlot
  dsimp only
  split
  · rfl
  · split
    · rw [Function.update_of_ne]
      rintro rfl
      exact h (Prod.ext (by assumption) rfl)
    · rfl

theorem report_active {k : Fin 3 × ℕ} {i : ℕ} (h : k ≠ (2, i)) (d : Option Bool) (s : ObjState τ) :
    report k ((activeSlot τ i).put d s) = report k s := by
  unfold report activeSlot
  dsimp only
  split
  · rfl
  · split
    · rfl
    · rw [Function.update_of_ne]
      rintro rfl
      exact h (Prod.ext (by
        rename_i h0 h1
        show k.1 = 2
        have := k.1.2
        apply Fin.ext
        have h0 : (k.1 : ℕ) ≠ 0 := fun e => h0 (Fin.ext e)
        have h1 : (k.1 : ℕ) ≠ 1 := fun e => h1 (Fin.ext e)
        show (k.1 : ℕ) = 2
        omega) rfl)

theorem report_sigma_own (i : ℕ) (d : Option ℝ) (s : ObjState τ) : report (0, i) ((sigmaSlot τ i).put d s) = (d, none) := by
  simp [report, sigmaSlot]

theorem report_jumps_own (i : ℕ) (d : DotState) (s : ObjState τ) : report (1, i) ((jumpsSlot τ i).put d s) = (none, d.activated) := by
  simp [report, jumpsSlot]

theorem report_active_own (i : ℕ) (d : Option Bool) (s : ObjState τ) : report (2, i) ((activeSlot τ i).put d s) = (none, d) := by
  simp [report, activeSlot]

/-- A CSD generator that changes no report. -/
def GenKeeps (rep : Fin 3 × ℕ → σ → Option ℝ × Option Bool) (gen : Gen σ) : Prop := ∀ k v v1 v2 res, KeepsAt (rep k) v (gen v1 v2 res)

/-- A CSD generator that does not change the state of the random number generators. -/
def GenStill (gens : σ → τ) (gen : Gen σ) : Prop := ∀ v v1 v2 res, KeepsAt gens v (gen v1 v2 res)

/-- An occupation distortion that reports what it does under the key `k`. -/
structure OccTells (rep : Fin 3 × ℕ → σ → Option ℝ × Option Bool) (gens : σ → τ) (k : Fin 3 × ℕ) (o : OccObject τ) (d : OccDist σ) : Prop where
  other : ∀ j, j ≠ k → ∀ v data g1 g2 gen freeze, GenKeeps rep gen → KeepsAt (rep j) v (d data g1 g2 gen freeze)
  frozen : ∀ v data g1 g2 gen, GenKeeps rep gen → KeepsAt (rep k) v (d data g1 g2 gen true)
  still : ∀ v data g1 g2 gen, GenStill gens gen → KeepsAt gens v (d data g1 g2 gen true)
  call : ∀ data g1 g2 gen s y s', GenKeeps rep gen → GenStill gens gen → d data g1 g2 gen false s = (.ok y, s') → OccDid g1 g2 (rep k s') o data (gens s) y (gens s')

/-- A distortion of the potential or the response that reports what it does under the key `k`. -/
structure SigTells (rep : Fin 3 × ℕ → σ → Option ℝ × Option Bool) (gens : σ → τ) (k : Fin 3 × ℕ) (o : SigObject τ) (d : SigDist σ) : Prop where
  other : ∀ j, j ≠ k → ∀ v x g1 g2, KeepsAt (rep j) v (d x g1 g2)
  call : ∀ x g1 g2 s y s', d x g1 g2 s = (.ok y, s') → SigDid (rep k s') o x (gens s) y (gens s')

theorem blur_keeps {i : ℕ} {k : Fin 3 × ℕ} (v : Option ℝ × Option Bool) (sigma : M τ ℝ) (K : ℝ → Kernel) (data : CsdData) (g1 g2 : ℝ × ℝ)
    (gen : Gen (ObjState τ)) (freeze : Bool) (h : k ≠ (0, i) ∨ freeze = true) :
    KeepsAt (report k) v (OccDist.on (sigmaSlot τ i) (Blur.noiseFunction ⟨drawing sigma, K⟩) data g1 g2 gen freeze) := by
  refine KeepsAt.run ?_
  cases freeze with
  | true =>
    rintro ⟨d, s⟩ hs
    unfold Blur.noiseFunction Blur.sample
    rw [if_pos rfl, M.step (getOwn_run _), M.step (setOwn_run _ _ _)]
    cases d <;> exact hs
  | false =>
    have hk := h.resolve_right Bool.false_ne_true
    unfold Blur.noiseFunction Blur.sample
    rw [if_neg Bool.false_ne_true]
    refine ((KeepsAt.onRest (drawing_sigma k v i sigma)).bind fun a => .pure _).bind fun a => (KeepsAt.setOwn fun d' s hs => ?_).bind fun _ => ?_
    · rw [report_sigma hk] at hs ⊢
      exact hs
    · cases a with
      | none => exact .raise _
      | some σ => exact .ofPy _

theorem run_ok {L : Slot σ D} {x : M (D × σ) α} {s s' : σ} {a : α} (h : L.run x s = (.ok a, s')) :
    ∃ d t, x (L.get s, s) = (.ok a, (d, t)) ∧ s' = L.put d t := by
  unfold Slot.run at h
  rcases e : x (L.get s, s) with ⟨r, d, t⟩
  rw [e] at h
  cases h
  exact ⟨d, t, rfl, rfl⟩

theorem onRest_ok {x : M σ α} {p q : D × σ} {a : α} (h : onRest x p = (.ok a, q)) : x p.2 = (.ok a, q.2) ∧ q.1 = p.1 := by
  unfold onRest at h
  rcases e : x p.2 with ⟨r, t⟩
  rw [e] at h
  cases h
  exact ⟨rfl, rfl⟩

theorem drawing_ok {x : M τ α} {s s' : ObjState τ} {a : α} (h : drawing x s = (.ok a, s')) :
    x s.gens = (.ok a, s'.gens) ∧ s' = { s with gens := s'.gens } := by
  unfold drawing at h
  rcases e : x s.gens with ⟨r, t⟩
  rw [e] at h
  cases h
  exact ⟨rfl, rfl⟩

theorem blur_call {i : ℕ} {sigma : M τ ℝ} {K : ℝ → Kernel} {data y : CsdData} {g1 g2 : ℝ × ℝ} {gen : Gen (ObjState τ)} {s s' : ObjState τ}
    (h : OccDist.on (sigmaSlot τ i) (Blur.noiseFunction ⟨drawing sigma, K⟩) data g1 g2 gen false s = (.ok y, s')) :
    ∃ σ, sigma s.gens = (.ok σ, s'.gens) ∧ report (0, i) s' = (some σ, none) ∧ BlurredWith K g1 g2 σ data y := by
  obtain ⟨d, t, h', hs'⟩ := run_ok h
  clear h
  subst hs'
  rename' h' => h
  unfold Blur.noiseFunction Blur.sample at h
  rw [if_neg Bool.false_ne_true] at h
  obtain ⟨a, p, h1, k1⟩ := M.bind_ok.1 h
  obtain ⟨σ, q, h2, h1'⟩ := M.bind_ok.1 h1
  obtain ⟨⟨⟩, q', h3, k2⟩ := M.bind_ok.1 k1
  obtain ⟨h2', -⟩ := onRest_ok h2
  cases h1'
  cases h3
  have hd := drawing_ok h2'
  change (Blur.apply _ data g1 g2 σ, (some σ, p.2)) = (Except.ok y, (d, t)) at k2
  obtain ⟨k3, k4⟩ := Prod.mk.inj k2
  cases k4
  clear h k1 k2 h1 h2
  rename' k3 => h
  refine ⟨σ, hd.1, report_sigma_own i _ _, ?_⟩
  unfold BlurredWith
  unfold Blur.apply at h
  by_cases hσ : 0 < σ
  · rw [if_neg (not_le.2 hσ)]
    rw [if_pos hσ] at h
    cases hk : blurFactor g1 g2 data.1 with
    | none => rw [hk] at h; exact nomatch h
    | some k =>
      rw [hk] at h
      exact ⟨k, rfl, (Except.ok.inj h).symm⟩
  · rw [if_pos (not_lt.1 hσ)]
    rw [if_neg hσ] at h
    exact (Except.ok.inj h).symm

theorem blur_still {i : ℕ} (v : τ) (sigma : M τ ℝ) (K : ℝ → Kernel) (data : CsdData) (g1 g2 : ℝ × ℝ) (gen : Gen (ObjState τ)) :
    KeepsAt ObjState.gens v (OccDist.on (sigmaSlot τ i) (Blur.noiseFunction ⟨drawing sigma, K⟩) data g1 g2 gen true) := by
  refine KeepsAt.run ?_
  rintro ⟨d, s⟩ hs
  unfold Blur.noiseFunction Blur.sample
  rw [if_pos rfl, M.step (getOwn_run _), M.step (setOwn_run _ _ _)]
  cases d <;> exact hs

/-- A draw that does not use a part of the state of the generators. -/
theorem untouched_keeps {ω : Type} {own : τ → ω} {x : M τ α} (h : Untouched own x) (v : ω) :
    KeepsAt (fun s : ObjState τ => own s.gens) v (drawing x) := by
  intro s hs
  exact (h s.gens).trans hs

theorem rng_untouched {ω : Type} {own : τ → ω} {rng : Rng τ} (h : RngUntouched own rng) (v : ω) :
    RngKeeps (fun s : ObjState τ => own s.gens) v rng.drawing :=
  ⟨fun p => untouched_keeps (h.binomial p) v, fun p n => untouched_keeps (h.geometric p n) v, fun l => untouched_keeps (h.poisson l) v,
    fun m s => untouched_keeps (h.normal m s) v⟩

theorem occObject_tells (o : OccObject τ) : OccTells report ObjState.gens o.key o o.dist := by
  cases o with
  | fermi i sigma =>
    exact ⟨fun j hj v data g1 g2 gen freeze _ => blur_keeps v sigma fermiKernel data g1 g2 gen freeze (Or.inl hj),
      fun v data g1 g2 gen _ => blur_keeps v sigma fermiKernel data g1 g2 gen true (Or.inr rfl), fun v data g1 g2 gen _ => blur_still v sigma _ data g1 g2 gen,
      fun data g1 g2 gen s y s' _ _ h => blur_call h⟩
  | gauss i sigma =>
    exact ⟨fun j hj v data g1 g2 gen freeze _ => blur_keeps v sigma gaussKernel data g1 g2 gen freeze (Or.inl hj),
      fun v data g1 g2 gen _ => blur_keeps v sigma gaussKernel data g1 g2 gen true (Or.inr rfl), fun v data g1 g2 gen _ => blur_still v sigma _ data g1 g2 gen,
      fun data g1 g2 gen s y s' _ _ h => blur_call h⟩
  | jumps i scale lam axis ratio rng np2 nan =>
    have hd : ∀ k v, JumpDraws (jumpsSlot τ i) (report k) v ⟨drawing scale, drawing lam, axis, ratio, rng.drawing, np2, nan⟩ := fun k v =>
      ⟨drawing_jumps k v i _, drawing_jumps k v i _, fun e => ⟨fun _ _ h => h, fun _ _ _ h => h, fun _ _ h => h, fun _ _ _ h => h⟩⟩
    refine ⟨fun j hj v data g1 g2 gen freeze hg => jumps_keeps (hd j v) (fun e e' s => ?_) (hg j v) data g1 g2 freeze,
      fun v data g1 g2 gen hg => KeepsAt.run (jumps_frozen_keeps (fun v1 v2 res => (hg _ v v1 v2 res).inner) data g1 g2),
      fun v data g1 g2 gen hg => KeepsAt.run (jumps_frozen_keeps (fun v1 v2 res => (hg v v1 v2 res).inner) data g1 g2), ?_⟩
    · rw [report_jumps hj, report_jumps hj]
    · intro data g1 g2 gen s y s' hg hst h
      have hown : ∀ (ω : Type) (own : τ → ω), OccUntouched own (.jumps i scale lam axis ratio rng np2 nan) → own s'.gens = own s.gens := by
        rintro ω own ⟨u1, u2, u3⟩
        exact (jumps_keeps (f := fun s : ObjState τ => own s.gens) (v := own s.gens)
          (d := ⟨drawing scale, drawing lam, axis, ratio, rng.drawing, np2, nan⟩) (L := jumpsSlot τ i)
          ⟨fun _ => untouched_keeps u1 _, fun _ => untouched_keeps u2 _, fun _ => rng_untouched u3 _⟩ (fun _ _ _ => rfl)
          (fun v1 v2 res t ht => by
            have := hst t.gens v1 v2 res t rfl
            exact (congrArg own this).trans ht) data g1 g2 false).ok h rfl
      obtain ⟨e, t, h', hs'⟩ := run_ok (L := jumpsSlot τ i) (show (jumpsSlot τ i).run (DotJumps.noiseFunction
        ⟨drawing scale, drawing lam, axis, ratio, rng.drawing, np2, nan⟩ data g1 g2 (fun v1 v2 res => (jumpsSlot τ i).inner (gen v1 v2 res)) false) s =
          (.ok y, s') from h)
      clear h
      subst hs'
      rename' h' => h
      unfold DotJumps.noiseFunction at h
      rw [M.step (getOwn_run _), if_neg Bool.false_ne_true] at h
      obtain ⟨b, p, h1, h⟩ := M.bind_ok.1 h
      obtain ⟨⟨⟩, q, h2, h⟩ := M.bind_ok.1 h
      obtain ⟨h1, -⟩ := onRest_ok h1
      cases h2
      have hb := drawing_ok h1
      refine ⟨b, p.2.gens, hb.1, ?_, fun hf => ?_, hown⟩
      · cases b with
        | false =>
          rw [if_pos rfl] at h
          cases h
          exact report_jumps_own i _ _
        | true =>
          rw [if_neg (by simp)] at h
          have hk := active_keeps (f := AtPlace (jumpsSlot τ i) (report (1, i))) (v := (none, some true))
            (fun v1 v2 res => (hg (1, i) (none, some true) v1 v2 res).inner (L := jumpsSlot τ i))
            ⟨drawing scale, drawing lam, axis, ratio, rng.drawing, np2, nan⟩ data g1 g2 false
            (noise_keeps (hd _ _) (fun n e s _ => report_jumps_own i _ _) g1 g2)
          exact hk.ok h (report_jumps_own i _ _)
      · rw [if_pos hf] at h
        cases h
        exact ⟨rfl, rfl⟩

theorem sigObject_tells (o : SigObject τ) : SigTells report ObjState.gens o.key o o.dist := by
  cases o with
  | additive i sigma noise =>
    refine ⟨fun j hj v x g1 g2 => KeepsAt.run ?_, fun x g1 g2 s y s' h => ?_⟩
    · unfold WhiteNoise.noiseFunction
      refine (KeepsAt.onRest (drawing_sigma j v i sigma)).bind fun a => (KeepsAt.setOwn fun d' s hs => ?_).bind fun _ =>
        (KeepsAt.onRest (drawing_sigma j v i _)).bind fun n => .ofPy _
      rw [report_sigma hj] at hs ⊢
      exact hs
    · obtain ⟨d, t, h', hs'⟩ := run_ok (L := sigmaSlot τ i) (show (sigmaSlot τ i).run (WhiteNoise.noiseFunction
        ⟨drawing sigma, fun v n => drawing (noise v n)⟩ x g1 g2) s = (.ok y, s') from h)
      clear h
      subst hs'
      rename' h' => h
      unfold WhiteNoise.noiseFunction at h
      obtain ⟨a, p, h1, k1⟩ := M.bind_ok.1 h
      obtain ⟨⟨⟩, q, h2, k2⟩ := M.bind_ok.1 k1
      obtain ⟨n, q', h3, k3⟩ := M.bind_ok.1 k2
      clear h k1 k2
      obtain ⟨h1, -⟩ := onRest_ok h1
      cases h2
      obtain ⟨h3, h3'⟩ := onRest_ok h3
      obtain ⟨h, h'⟩ := Prod.mk.inj k3
      subst h'
      refine ⟨a, p.2.gens, n, (drawing_ok h1).1, (drawing_ok h3).1, ?_, h⟩
      dsimp only at h3'
      rw [h3']
      exact report_sigma_own i _ _
  | rtn i scale std height ratio rng =>
    refine ⟨fun j hj v x g1 g2 => KeepsAt.run ?_, fun x g1 g2 s y s' h => ?_⟩
    · unfold Rtn.noiseFunction
      refine (KeepsAt.onRest (drawing_active j v i _)).bind fun b => (KeepsAt.setOwn fun d' s hs => ?_).bind fun _ => ?_
      · rw [report_active hj] at hs ⊢
        exact hs
      · split
        · exact .pure _
        · exact (KeepsAt.onRest (drawing_active j v i _)).bind fun _ => (KeepsAt.onRest (drawing_active j v i _)).bind fun _ =>
            (KeepsAt.onRest (drawing_active j v i _)).bind fun _ => KeepsAt.onRest fun e => RngKeeps.telegraph
              ⟨fun _ _ h => h, fun _ _ _ h => h, fun _ _ h => h, fun _ _ _ h => h⟩ _ _ _ _
    · have hown : ∀ (ω : Type) (own : τ → ω), SigUntouched own (.rtn i scale std height ratio rng) → own s'.gens = own s.gens := by
        rintro ω own ⟨u1, u2, u3, u4⟩
        refine (KeepsAt.run (L := activeSlot τ i) (f := fun s : ObjState τ => own s.gens) (v := own s.gens) ?_).ok
          (show (activeSlot τ i).run (Rtn.noiseFunction ⟨drawing scale, drawing std, drawing height, ratio, rng.drawing⟩ x g1 g2) s = (.ok y, s')
            from h) rfl
        unfold Rtn.noiseFunction
        refine (KeepsAt.onRest fun _ => (rng_untouched u4 _).binomial _).bind fun b => (KeepsAt.setOwn fun _ _ hs => hs).bind fun _ => ?_
        split
        · exact .pure _
        · exact (KeepsAt.onRest fun _ => untouched_keeps u1 _).bind fun _ => (KeepsAt.onRest fun _ => untouched_keeps u2 _).bind fun _ =>
            (KeepsAt.onRest fun _ => untouched_keeps u3 _).bind fun _ => KeepsAt.onRest fun _ => (rng_untouched u4 _).telegraph _ _ _ _
      obtain ⟨d, t, h', hs'⟩ := run_ok (L := activeSlot τ i) (show (activeSlot τ i).run (Rtn.noiseFunction
        ⟨drawing scale, drawing std, drawing height, ratio, rng.drawing⟩ x g1 g2) s = (.ok y, s') from h)
      clear h
      subst hs'
      rename' h' => h
      unfold Rtn.noiseFunction at h
      obtain ⟨b, p, h1, h⟩ := M.bind_ok.1 h
      obtain ⟨⟨⟩, q, h2, h⟩ := M.bind_ok.1 h
      obtain ⟨h1, -⟩ := onRest_ok h1
      cases h2
      refine ⟨b, p.2.gens, (drawing_ok h1).1, ?_, fun hf => ?_, hown⟩
      · cases b with
        | false =>
          rw [if_pos rfl] at h
          cases h
          exact report_active_own i _ _
        | true =>
          rw [if_neg (by simp)] at h
          obtain ⟨a, p1, k1, h⟩ := M.bind_ok.1 h
          obtain ⟨a', p2, k2, h⟩ := M.bind_ok.1 h
          obtain ⟨a'', p3, k3, h⟩ := M.bind_ok.1 h
          have e1 := (onRest_ok k1).2
          have e2 := (onRest_ok k2).2
          have e3 := (onRest_ok k3).2
          have e4 := (onRest_ok h).2
          dsimp only at e1 e4
          rw [e4, e3, e2, e1]
          exact report_active_own i _ _
      · rw [if_pos hf] at h
        cases h
        exact ⟨rfl, rfl⟩

/-! ### Lists of distortions -/

section lists
variable {rep : Fin 3 × ℕ → σ → Option ℝ × Option Bool} {gens : σ → τ}

theorem withNoise_keeps {k : Fin 3 × ℕ} {o : OccObject τ} {d : OccDist σ} (hd : OccTells rep gens k o d) {gen : Gen σ} (hg : GenKeeps rep gen) :
    GenKeeps rep (withNoise gen d) := by
  intro j v v1 v2 res
  refine (hg j v v1 v2 res).bind fun data => ?_
  by_cases hj : j = k
  · subst hj
    exact hd.frozen v data v1 v2 gen hg
  · exact hd.other j hj v data v1 v2 gen true hg

theorem withNoise_still {k : Fin 3 × ℕ} {o : OccObject τ} {d : OccDist σ} (hd : OccTells rep gens k o d) {gen : Gen σ} (hg : GenStill gens gen) :
    GenStill gens (withNoise gen d) := by
  intro v v1 v2 res
  exact (hg v v1 v2 res).bind fun data => hd.still v data v1 v2 gen hg

theorem applyOcc_keeps {key : OccObject τ → Fin 3 × ℕ} {dist : OccObject τ → OccDist σ} (hd : ∀ o, OccTells rep gens (key o) o (dist o))
    (g1 g2 : ℝ × ℝ) (j : Fin 3 × ℕ) (v : Option ℝ × Option Bool) : ∀ (os : List (OccObject τ)), j ∉ os.map key → ∀ (gen : Gen σ) (_ : GenKeeps rep gen)
    (x : CsdData), KeepsAt (rep j) v (applyOcc g1 g2 (os.map dist) gen x)
  | [], _, _, _, _ => .pure _
  | o :: os, hj, gen, hg, x => by
    rw [List.map_cons, List.mem_cons, not_or] at hj
    exact ((hd o).other j hj.1 v x g1 g2 gen false hg).bind fun y => applyOcc_keeps hd g1 g2 j v os hj.2 _ (withNoise_keeps (hd o) hg) y

theorem applyOcc_told {key : OccObject τ → Fin 3 × ℕ} {dist : OccObject τ → OccDist σ} (hd : ∀ o, OccTells rep gens (key o) o (dist o))
    (g1 g2 : ℝ × ℝ) : ∀ (os : List (OccObject τ)), (os.map key).Nodup → ∀ (gen : Gen σ), GenKeeps rep gen → GenStill gens gen → ∀ (x y : CsdData) (gen' : Gen σ) (s s' : σ),
    applyOcc g1 g2 (os.map dist) gen x s = (.ok (y, gen'), s') →
    Steps (fun o => OccDid g1 g2 (rep (key o) s') o) os x (gens s) y (gens s')
  | [], _, _, _, _, x, y, gen', s, s', h => by
    cases h
    exact .nil _ _
  | o :: os, hn, gen, hg, hst, x, y, gen', s, s', h => by
    rw [List.map_cons, List.nodup_cons] at hn
    obtain ⟨x', t, h1, h2⟩ := M.bind_ok.1 h
    have hk := (applyOcc_keeps hd g1 g2 (key o) (rep (key o) t) os hn.1 _ (withNoise_keeps (hd o) hg) x').ok h2 rfl
    refine .cons (y := x') (h := gens t) ?_ (applyOcc_told hd g1 g2 os hn.2 _ (withNoise_keeps (hd o) hg) (withNoise_still (hd o) hst) x' y gen' t s' h2)
    rw [hk]
    exact (hd o).call x g1 g2 gen s x' t hg hst h1

theorem applySig_keepsAt {key : SigObject τ → Fin 3 × ℕ} {dist : SigObject τ → SigDist σ} (hd : ∀ o, SigTells rep gens (key o) o (dist o))
    (g1 g2 : ℝ × ℝ) (j : Fin 3 × ℕ) (v : Option ℝ × Option Bool) : ∀ (os : List (SigObject τ)), j ∉ os.map key → ∀ (x : Scan ℝ),
    KeepsAt (rep j) v (applySig g1 g2 (os.map dist) x)
  | [], _, _ => .pure _
  | o :: os, hj, x => by
    rw [List.map_cons, List.mem_cons, not_or] at hj
    exact ((hd o).other j hj.1 v x g1 g2).bind fun y => applySig_keepsAt hd g1 g2 j v os hj.2 y

theorem applySig_told {key : SigObject τ → Fin 3 × ℕ} {dist : SigObject τ → SigDist σ} (hd : ∀ o, SigTells rep gens (key o) o (dist o))
    (g1 g2 : ℝ × ℝ) : ∀ (os : List (SigObject τ)), (os.map key).Nodup → ∀ (x y : Scan ℝ) (s s' : σ),
    applySig g1 g2 (os.map dist) x s = (.ok y, s') → Steps (fun o => SigDid (rep (key o) s') o) os x (gens s) y (gens s')
  | [], _, x, y, s, s', h => by
    cases h
    exact .nil _ _
  | o :: os, hn, x, y, s, s', h => by
    rw [List.map_cons, List.nodup_cons] at hn
    obtain ⟨x', t, h1, h2⟩ := M.bind_ok.1 h
    have hk := (applySig_keepsAt hd g1 g2 (key o) (rep (key o) t) os hn.1 x').ok h2 rfl
    refine .cons (y := x') (h := gens t) ?_ (applySig_told hd g1 g2 os hn.2 x' y t s' h2)
    rw [hk]
    exact (hd o).call x g1 g2 s x' t h1

theorem distortRows_keeps {j k : Fin 3 × ℕ} {o : SigObject τ} {d : SigDist σ} (hd : SigTells rep gens k o d) (hj : j ≠ k)
    (v : Option ℝ × Option Bool) (g1 g2 : ℝ × ℝ) : ∀ xs : List (Scan ℝ), KeepsAt (rep j) v (distortRows g1 g2 d xs)
  | [] => .pure _
  | x :: xs => (hd.other j hj v x g1 g2).bind fun _ => (distortRows_keeps hd hj v g1 g2 xs).bind fun _ => .pure _

theorem distortRows_told {k : Fin 3 × ℕ} {o : SigObject τ} {d : SigDist σ} (hd : SigTells rep gens k o d) (g1 g2 : ℝ × ℝ) :
    ∀ (xs : List (Scan ℝ)), xs ≠ [] → ∀ (ys : List (Scan ℝ)) (s s' : σ), distortRows g1 g2 d xs s = (.ok ys, s') →
      ys ≠ [] ∧ LastTold (rep k s') o xs (gens s) ys (gens s')
  | [], h, _, _, _, _ => absurd rfl h
  | [x], _, ys, s, s', h => by
    obtain ⟨y, t, h1, h2⟩ := M.bind_ok.1 h
    cases h2
    exact ⟨by simp, .last (hd.call x g1 g2 s y _ h1)⟩
  | x :: x' :: xs, _, ys, s, s', h => by
    obtain ⟨y, t, h1, h2⟩ := M.bind_ok.1 h
    obtain ⟨ys', t', h2, h3⟩ := M.bind_ok.1 h2
    cases h3
    exact ⟨by simp, .cons (hd.call x g1 g2 s y t h1) (distortRows_told hd g1 g2 (x' :: xs) (by simp) ys' t _ h2).2⟩

theorem applyRows_keeps {key : SigObject τ → Fin 3 × ℕ} {dist : SigObject τ → SigDist σ} (hd : ∀ o, SigTells rep gens (key o) o (dist o))
    (g1 g2 : ℝ × ℝ) (j : Fin 3 × ℕ) (v : Option ℝ × Option Bool) : ∀ (os : List (SigObject τ)), j ∉ os.map key → ∀ (xs : List (Scan ℝ)),
    KeepsAt (rep j) v (applyRows g1 g2 (os.map dist) xs)
  | [], _, _ => .pure _
  | o :: os, hj, xs => by
    rw [List.map_cons, List.mem_cons, not_or] at hj
    exact (distortRows_keeps (hd o) hj.1 v g1 g2 xs).bind fun ys => applyRows_keeps hd g1 g2 j v os hj.2 ys

theorem applyRows_told {key : SigObject τ → Fin 3 × ℕ} {dist : SigObject τ → SigDist σ} (hd : ∀ o, SigTells rep gens (key o) o (dist o))
    (g1 g2 : ℝ × ℝ) : ∀ (os : List (SigObject τ)), (os.map key).Nodup → ∀ (xs : List (Scan ℝ)), xs ≠ [] → ∀ (ys : List (Scan ℝ)) (s s' : σ),
    applyRows g1 g2 (os.map dist) xs s = (.ok ys, s') → Steps (fun o => LastTold (rep (key o) s') o) os xs (gens s) ys (gens s')
  | [], _, xs, _, ys, s, s', h => by
    cases h
    exact .nil _ _
  | o :: os, hn, xs, hx, ys, s, s', h => by
    rw [List.map_cons, List.nodup_cons] at hn
    obtain ⟨xs', t, h1, h2⟩ := M.bind_ok.1 h
    have hk := (applyRows_keeps hd g1 g2 (key o) (rep (key o) t) os hn.1 xs').ok h2 rfl
    obtain ⟨hx', hl⟩ := distortRows_told (hd o) g1 g2 xs hx xs' s t h1
    refine .cons (y := xs') (h := gens t) ?_ (applyRows_told hd g1 g2 os hn.2 xs' hx' ys t s' h2)
    rw [hk]
    exact hl

end lists

/-! ### Beside the state of a scan sensor -/

section beside
variable {X : Type}

theorem occ_tells_beside {k : Fin 3 × ℕ} {o : OccObject τ} {d : OccDist (ObjState τ)} (hd : OccTells report ObjState.gens k o d) :
    OccTells (fun k (p : X × ObjState τ) => report k p.2) (fun p => p.2.gens) k o (d.beside (X := X)) := by
  have hgen : ∀ {gen : Gen (X × ObjState τ)}, GenKeeps (fun k (p : X × ObjState τ) => report k p.2) gen → ∀ x : X,
      GenKeeps report (fun v1 v2 res s => match gen v1 v2 res (x, s) with | (r, q) => (r, q.2)) :=
    fun hg x k v v1 v2 res s hs => hg k v v1 v2 res (x, s) hs
  have hstill : ∀ {gen : Gen (X × ObjState τ)}, GenStill (fun p : X × ObjState τ => p.2.gens) gen → ∀ x : X,
      GenStill ObjState.gens (fun v1 v2 res s => match gen v1 v2 res (x, s) with | (r, q) => (r, q.2)) :=
    fun hg x v v1 v2 res s hs => hg v v1 v2 res (x, s) hs
  refine ⟨fun j hj v data g1 g2 gen freeze hg p hp => hd.other j hj v data g1 g2 _ freeze (hgen hg p.1) p.2 hp,
    fun v data g1 g2 gen hg p hp => hd.frozen v data g1 g2 _ (hgen hg p.1) p.2 hp,
    fun v data g1 g2 gen hg p hp => hd.still v data g1 g2 _ (hstill hg p.1) p.2 hp, fun data g1 g2 gen p y q hg hst h => ?_⟩
  unfold OccDist.beside at h
  rcases e : d data g1 g2 (fun v1 v2 res s => match gen v1 v2 res (p.1, s) with | (r, q) => (r, q.2)) false p.2 with ⟨r, t⟩
  rw [e] at h
  cases h
  exact hd.call data g1 g2 _ p.2 y t (hgen hg p.1) (hstill hst p.1) e

theorem sig_tells_beside {k : Fin 3 × ℕ} {o : SigObject τ} {d : SigDist (ObjState τ)} (hd : SigTells report ObjState.gens k o d) :
    SigTells (fun k (p : X × ObjState τ) => report k p.2) (fun p => p.2.gens) k o (d.beside (X := X)) :=
  ⟨fun j hj v x g1 g2 p hp => hd.other j hj v x g1 g2 p.2 hp, fun x g1 g2 p y q h => hd.call x g1 g2 p.2 y q.2 (onRest_ok h).1⟩

end beside

end SimCATS
