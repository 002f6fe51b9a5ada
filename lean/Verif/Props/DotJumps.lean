import Verif.Lemmas.DotJumpsCall
import Verif.Props.Telegraph

/-! Properties C30, C31, C32, C55, C56 and C57 of dot jumps; C33, C34 and C36 for dot jumps. -/

namespace SimCATS

open Spec

/-! ### C30 -/

/-- C30 for jumps along gate 1: in every row, the pixel in column `c` holds the value `noise[c]` columns earlier. -/
theorem C30_axis1 {α : Type} (rows cols : ℕ) (scale : Option ℝ) (hs : scale ≠ some 0) (orig : ℕ → ℕ → Option α)
    (noise : List ℕ) (empty : ℕ → ℕ → Option α) (hl : cols ≤ noise.length) :
    ∃ res, dotJumpsBlockwise .g1 rows cols scale orig noise empty = .ok res ∧
      ∀ i, Shifted cols (orig i) (fun j => noise.getD j 0) (res i) :=
  blockwise_g1 rows cols scale hs orig noise empty hl

/-- C30 for jumps along gate 2: in every column, the pixel in row `c` holds the value `noise[c]` rows earlier. -/
theorem C30_axis0 {α : Type} (rows cols : ℕ) (scale : Option ℝ) (hs : scale ≠ some 0) (orig : ℕ → ℕ → Option α)
    (noise : List ℕ) (empty : ℕ → ℕ → Option α) (hl : rows ≤ noise.length) :
    ∃ res, dotJumpsBlockwise .g2 rows cols scale orig noise empty = .ok res ∧
      ∀ i, Shifted rows (fun j => orig j i) (fun j => noise.getD j 0) (fun j => res j i) :=
  blockwise_g2 rows cols scale hs orig noise empty hl

example : ∃ res, dotJumpsBlockwise .g2 3 1 (some 2) (fun i _ => some (10 + i)) [0, 1, 1] (fun _ _ => none) = .ok res ∧
    res 0 0 = some 10 ∧ res 1 0 = some 10 ∧ res 2 0 = some 11 := by
  obtain ⟨res, h, hs⟩ := C30_axis0 3 1 (some 2) (by norm_num) (fun i _ => some (10 + i)) [0, 1, 1] (fun _ _ => none) (by simp)
  refine ⟨res, h, ?_, ?_, ?_⟩
  · have := hs 0 0 (by norm_num); simpa using this
  · have := hs 0 1 (by norm_num); simpa using this
  · have := hs 0 2 (by norm_num); simpa using this

/-- C30, concrete case: a row 10, 11, 12 with jumps 0, 1, 1 becomes 10, 10, 11. -/
example : ∃ res, dotJumpsBlockwise .g1 1 3 none (fun _ j => some (10 + j)) [0, 1, 1] (fun _ _ => none) = .ok res ∧
    res 0 0 = some 10 ∧ res 0 1 = some 10 ∧ res 0 2 = some 11 := by
  obtain ⟨res, h, hs⟩ := C30_axis1 1 3 none (by simp) (fun _ j => some (10 + j)) [0, 1, 1] (fun _ _ => none) (by simp)
  refine ⟨res, h, ?_, ?_, ?_⟩
  · simpa using hs 0 0 (by norm_num)
  · simpa using hs 0 1 (by norm_num)
  · simpa using hs 0 2 (by norm_num)

/-- C30: pixels with jump 0 keep their value. -/
theorem C30_no_jump {α : Type} (rows cols : ℕ) (scale : Option ℝ) (hs : scale ≠ some 0) (orig : ℕ → ℕ → Option α)
    (noise : List ℕ) (empty res : ℕ → ℕ → Option α) (hl : cols ≤ noise.length)
    (h : dotJumpsBlockwise .g1 rows cols scale orig noise empty = .ok res) (i j : ℕ) (hj : j < cols) (h0 : noise.getD j 0 = 0) :
    res i j = orig i j := by
  obtain ⟨res', h', hsh⟩ := C30_axis1 rows cols scale hs orig noise empty hl
  rw [h] at h'
  cases h'
  rw [hsh i j hj]
  simp only [h0, Nat.sub_zero]
  split_ifs <;> rfl

/-- C30: the result does not depend on the uninitialised array it is written to. -/
theorem C30_no_garbage {α : Type} (axis : Axis) (rows cols : ℕ) (scale : Option ℝ) (orig : ℕ → ℕ → Option α) (noise : List ℕ)
    (e1 e2 r1 r2 : ℕ → ℕ → Option α) (h1 : dotJumpsBlockwise axis rows cols scale orig noise e1 = .ok r1)
    (h2 : dotJumpsBlockwise axis rows cols scale orig noise e2 = .ok r2) (i j : ℕ) (hi : i < rows) (hj : j < cols) :
    r1 i j = r2 i j := by
  by_cases hs : scale = some 0
  · unfold dotJumpsBlockwise at h1 h2
    rw [if_pos hs] at h1 h2
    cases h1
    cases h2
    rfl
  cases axis
  · have hl : cols ≤ noise.length := by
      by_contra hlt
      unfold dotJumpsBlockwise at h1
      simp only [if_neg hs] at h1
      rw [if_pos (by omega)] at h1
      cases h1
    obtain ⟨a, ha, sa⟩ := C30_axis1 rows cols scale hs orig noise e1 hl
    obtain ⟨b, hb, sb⟩ := C30_axis1 rows cols scale hs orig noise e2 hl
    rw [h1] at ha
    rw [h2] at hb
    cases ha
    cases hb
    rw [sa i j hj, sb i j hj]
  · have hl : rows ≤ noise.length := by
      by_contra hlt
      unfold dotJumpsBlockwise at h1
      simp only [if_neg hs] at h1
      rw [if_pos (by omega)] at h1
      cases h1
    obtain ⟨a, ha, sa⟩ := C30_axis0 rows cols scale hs orig noise e1 hl
    obtain ⟨b, hb, sb⟩ := C30_axis0 rows cols scale hs orig noise e2 hl
    rw [h1] at ha
    rw [h2] at hb
    cases ha
    cases hb
    have := sa j i hi
    have := sb j i hi
    simp_all

/-- C30: with scale 0 the image is returned unchanged, even if jumps are given. -/
theorem C30_scale_zero {α : Type} (axis : Axis) (rows cols : ℕ) (orig : ℕ → ℕ → Option α) (noise : List ℕ)
    (empty : ℕ → ℕ → Option α) : dotJumpsBlockwise axis rows cols (some 0) orig noise empty = .ok orig := by
  unfold dotJumpsBlockwise
  rw [if_pos rfl]

/-- C30: too few jumps are an `IndexError`. -/
theorem C30_error {α : Type} (rows cols : ℕ) (scale : Option ℝ) (hs : scale ≠ some 0) (orig : ℕ → ℕ → Option α)
    (noise : List ℕ) (empty : ℕ → ℕ → Option α) :
    (0 < rows → noise.length < cols → dotJumpsBlockwise .g1 rows cols scale orig noise empty = .error .indexError) ∧
    (0 < cols → noise.length < rows → dotJumpsBlockwise .g2 rows cols scale orig noise empty = .error .indexError) := by
  unfold dotJumpsBlockwise
  simp only [if_neg hs]
  exact ⟨fun h1 h2 => by rw [if_pos ⟨h1, h2⟩], fun h1 h2 => by rw [if_pos ⟨h1, h2⟩]⟩

example := (C30_error 1 3 none (by simp) (fun _ j => some (10 + j)) [0, 1] fun _ _ => none).1 (by norm_num) (by simp)

/-- C30 for `dot_jumps_pixelwise`: every pixel has its own jump along the row. -/
theorem C30_pixelwise {α : Type} (cols : ℕ) (orig : ℕ → ℕ → Option α) (noise : ℕ → ℕ → ℕ) (empty : ℕ → ℕ → Option α) (i : ℕ) :
    Shifted cols (orig i) (noise i) (dotJumpsPixelwise cols orig noise empty i) :=
  jumpLane_shifted _ _ _ _

/-! ### C33 and C57 -/

theorem TwoState.map {α : Type} [Zero α] (f : α → α) (hf : f 0 = 0) {w : ℕ → ℕ} {amp : ℕ → α} {noise : List α}
    (h : TwoState w amp noise) : TwoState w (fun b => f (amp b)) (noise.map f) := by
  intro p hp
  rw [List.length_map] at hp
  obtain ⟨b, h1, h2, h3⟩ := h p hp
  refine ⟨b, h1, h2, ?_⟩
  rw [List.getElem_map, h3]
  split_ifs
  · exact hf
  · rfl

/-- C33 for dot jumps: for every outcome of the generator, the jumps have exactly the length of the axis and are a two-state
signal whose block widths are the geometric draws.  Every nonzero jump is a Poisson draw modulo 256. -/
theorem C33_jumps {τ : Type} (rng : Rng τ) (hv : rng.Valid) (size : ℕ) (scale lam : ℝ) (hs : scale ≠ 0) (s s' : τ) (out : List ℕ)
    (h : generateJumps rng size scale lam s = (.ok out, s')) :
    out.length = size ∧ ∃ w t amps, rng.geometric (1 / scale) size s = (.ok w, t) ∧ (∀ i < size, 1 ≤ w i) ∧ TwoState w amps out ∧
      ∀ (p : ℕ) (hp : p < out.length), out[p] = 0 ∨ ∃ a t1 t2, rng.poisson lam t1 = (.ok a, t2) ∧ out[p] = a % 256 := by
  unfold generateJumps at h
  rw [if_neg hs] at h
  obtain ⟨w, t, hw, h⟩ := M.bind_ok.mp h
  obtain ⟨o, t', ho, h⟩ := M.bind_ok.mp h
  cases h
  have hw1 : ∀ i < size, 1 ≤ w i := by
    by_cases hp : 0 < 1 / scale ∧ 1 / scale ≤ 1
    · obtain ⟨w', t', e, h1⟩ := hv.geometric_ok (1 / scale) size s hp.1 hp.2
      rw [hw] at e
      cases e
      exact h1
    · rw [hv.geometric_error _ _ _ hp] at hw
      cases hw
  obtain ⟨hl, amps, h2, h3⟩ := burst_take (fun a => ∃ t1 t2, rng.poisson lam t1 = (.ok a, t2)) (rng.poisson lam)
    (fun s a s' e => ⟨s, s', e⟩) size w hw1 t s' o ho
  refine ⟨by rw [List.length_map, hl], w, t, fun b => amps b % 256, hw, hw1, TwoState.map (· % 256) rfl h2, ?_⟩
  intro p hp
  rw [List.length_map] at hp
  rw [List.getElem_map]
  rcases h3 p hp with h0 | ⟨t1, t2, e⟩
  · left
    simp [h0]
  · right
    exact ⟨_, t1, t2, e, rfl⟩

/-- C33: with scale 0 there are no jumps at all, whatever the state of the generator. -/
theorem C33_jumps_scale_zero {τ : Type} (rng : Rng τ) (size : ℕ) (lam : ℝ) (s : τ) :
    ∃ out, generateJumps rng size 0 lam s = (.ok out, s) ∧ out.length = size ∧ ∀ x ∈ out, x = 0 := by
  unfold generateJumps
  rw [if_pos rfl]
  exact ⟨_, rfl, List.length_replicate, fun x hx => List.eq_of_mem_replicate hx⟩

/-- C33: dot jumps can be drawn for every scale of at least one pixel. -/
theorem C33_jumps_total {τ : Type} (rng : Rng τ) (hv : rng.Valid) (size : ℕ) (scale lam : ℝ)
    (hn : ∀ s, ∃ a s', rng.poisson lam s = (.ok a, s')) (hs : 1 ≤ scale) (s : τ) : ∃ out s', generateJumps rng size scale lam s = (.ok out, s') := by
  have hp : 0 < 1 / scale := by positivity
  have hp1 : 1 / scale ≤ 1 := by
    rw [div_le_one (by linarith)]
    exact hs
  obtain ⟨w, t, hw, hw1⟩ := hv.geometric_ok (1 / scale) size s hp hp1
  obtain ⟨out, t', ho⟩ := burstLoop_total (rng.poisson lam) hn size w size 0 0 [] t
  unfold generateJumps
  rw [if_neg (by linarith), M.bind_run, hw]
  simp only
  rw [M.bind_run, ho]
  exact ⟨_, _, rfl⟩

example : ∃ out s', generateJumps plainRng 5 2 1 () = (.ok out, s') :=
  C33_jumps_total plainRng plainRng_valid 5 2 1 (fun _ => ⟨_, _, rfl⟩) (by norm_num) ()

/-- C57 if the generator only draws heights below 256: every nonzero jump is a Poisson draw. -/
theorem C57_partial {τ : Type} (rng : Rng τ) (hv : rng.Valid) (size : ℕ) (scale lam : ℝ) (hs : scale ≠ 0) (s s' : τ) (out : List ℕ)
    (hp : ∀ t a t', rng.poisson lam t = (.ok a, t') → a < 256) (h : generateJumps rng size scale lam s = (.ok out, s')) (p : ℕ)
    (hl : p < out.length) : out[p] = 0 ∨ ∃ t1 t2, rng.poisson lam t1 = (.ok out[p], t2) := by
  obtain ⟨-, w, t, amps, -, -, -, h3⟩ := C33_jumps rng hv size scale lam hs s s' out h
  rcases h3 p hl with h0 | ⟨a, t1, t2, e, hm⟩
  · exact .inl h0
  · refine .inr ⟨t1, t2, ?_⟩
    rw [Nat.mod_eq_of_lt (hp _ _ _ e)] at hm
    rw [hm]
    exact e

example (out : List ℕ) (s' : Unit) (h : generateJumps plainRng 5 2 1 () = (.ok out, s')) := C57_partial plainRng plainRng_valid 5 2 1
  (by norm_num) () s' out (fun t a t' h => by cases h; norm_num) h

/-- C57 is false: all heights drawn are 300, but the jumps have height 44. -/
theorem C57_refuted : ∃ (rng : Rng Unit) (lam : ℝ) (size : ℕ) (scale : ℝ) (out : List ℕ), rng.Valid ∧ 1 ≤ scale ∧
    (∀ t, rng.poisson lam t = (.ok 300, t)) ∧ generateJumps rng size scale lam () = (.ok out, ()) ∧ 44 ∈ out ∧
    ∀ x ∈ out, x = 0 ∨ x = 44 := by
  refine ⟨{ plainRng with poisson := fun _ => pure 300 }, 300, 2, 1, [0, 44], ⟨plainRng_valid.geometric_error, plainRng_valid.geometric_ok⟩,
    le_refl _, fun _ => rfl, ?_, by simp, by simp⟩
  unfold generateJumps
  rw [if_neg one_ne_zero, M.bind_run]
  have hg : plainRng.geometric (1 / 1) 2 () = (.ok fun _ => 1, ()) := by
    unfold plainRng
    simp only
    rw [if_pos (by norm_num)]
  simp only [hg]
  rfl

/-! ### C34 -/

/-- C34: dot jumps that are not activated return their input unchanged; the previous jumps are kept. -/
theorem C34_dots_inactive {τ : Type} (d : DotJumps τ) (data : CsdData) (g1 g2 : ℝ × ℝ) (gen : Gen (DotState × τ)) (st : DotState)
    (t t' : τ) (h : d.rng.binomial d.ratio t = (.ok false, t')) :
    d.noiseFunction data g1 g2 gen false (st, t) = (.ok data, (⟨some false, st.prev⟩, t')) := by
  unfold DotJumps.noiseFunction
  rw [M.bind_run, getOwn_run]
  simp only [Bool.false_eq_true, if_false]
  rw [M.bind_run, onRest_eq h]
  simp only
  rw [M.bind_run, setOwn_run]
  simp only [if_true]
  rfl

/-- C34: a frozen call of dot jumps that are not active has no effect at all. -/
theorem C34_dots_frozen_inactive {τ : Type} (d : DotJumps τ) (data : CsdData) (g1 g2 : ℝ × ℝ) (gen : Gen (DotState × τ))
    (s : DotState × τ) (h : s.1.activated ≠ some true) : d.noiseFunction data g1 g2 gen true s = (.ok data, s) := by
  unfold DotJumps.noiseFunction
  rw [M.bind_run, getOwn_run]
  simp only [if_true]
  rw [if_neg h]
  rfl

/-- Calls that keep the own state of the distortion. -/
def KeepsOwn {D τ α : Type} (x : M (D × τ) α) : Prop := ∀ s, (x s).2.1 = s.1

theorem KeepsOwn.bind {D τ α β : Type} {x : M (D × τ) α} {f : α → M (D × τ) β} (hx : KeepsOwn x) (hf : ∀ a, KeepsOwn (f a)) :
    KeepsOwn (x >>= f) := by
  intro s
  rw [M.bind_run]
  have h := hx s
  rcases hh : x s with ⟨e | a, t⟩ <;> rw [hh] at h <;> simp only
  · exact h
  · rw [hf]
    exact h

theorem KeepsOwn.pure {D τ α : Type} (a : α) : KeepsOwn (pure a : M (D × τ) α) := fun _ => rfl
theorem KeepsOwn.ofPy {D τ α : Type} (a : Py α) : KeepsOwn (SimCATS.ofPy a : M (D × τ) α) := fun _ => rfl
theorem KeepsOwn.raise {D τ α : Type} (e : PyErr) : KeepsOwn (M.raise e : M (D × τ) α) := fun _ => rfl

theorem apply2d_keeps {D τ : Type} (axis : Axis) (nan : ℝ) (rows cols : ℕ) (occ : Fin rows → Fin cols → ℝ × ℝ)
    (lead : Fin rows → Fin cols → ℕ) (g1 g2 : ℝ × ℝ) {gen : Gen (D × τ)} (hg : ∀ v1 v2 res, KeepsOwn (gen v1 v2 res))
    (scale : Option ℝ) (noise : List ℕ) : KeepsOwn (apply2d axis nan rows cols occ lead g1 g2 gen scale noise) := by
  unfold apply2d
  refine .bind (.ofPy _) fun m => .bind ?_ fun _ => .bind (.ofPy _) fun _ => .bind (.ofPy _) fun _ => .bind (.ofPy _) fun _ => .pure _
  unfold border2d
  split_ifs
  · exact .pure _
  · refine .bind ?_ fun data => ?_
    · cases axis <;> exact hg _ _ _
    · cases axis <;> exact .bind (.ofPy _) fun _ => .bind (.ofPy _) fun _ => .pure _

theorem apply1d_keeps {D τ : Type} (axis : Axis) (np2 : Bool) (nan : ℝ) (n : ℕ) (occ : Fin n → ℝ × ℝ)
    (lead : Fin n → ℕ) (g1 g2 : ℝ × ℝ) {gen : Gen (D × τ)} (hg : ∀ v1 v2 res, KeepsOwn (gen v1 v2 res)) (scale : Option ℝ)
    (noise : List ℕ) : KeepsOwn (apply1d axis np2 nan n occ lead g1 g2 gen scale noise) := by
  unfold apply1d
  refine .bind (.ofPy _) fun m => .bind ?_ fun _ => .bind (.ofPy _) fun _ =>
    .bind (.ofPy _) fun _ => .bind (.ofPy _) fun _ => .bind (.ofPy _) fun _ => .bind (.ofPy _) fun _ =>
    .bind (.ofPy _) fun _ => .pure _
  have : ∀ (todo i : ℕ) (o : ℕ → ℕ → Option (ℝ × ℝ)) (l : ℕ → ℕ → Option ℕ), KeepsOwn (border1d axis gen g1 g2 n todo i o l) := by
    intro todo
    induction todo with
    | zero => intro i o l; exact .pure _
    | succ todo ih =>
      intro i o l
      unfold border1d
      cases axis <;> exact .bind (hg _ _ _) fun _ => .bind (.ofPy _) fun _ => .bind (.ofPy _) fun _ => ih _ _ _
  exact this _ _ _ _

/-- C34: a frozen call, whatever its data and result, leaves the activation and the jumps of the distortion unchanged (if
`generate_csd` does not change them). -/
theorem C34_dots_frozen_state {τ : Type} (d : DotJumps τ) (data : CsdData) (g1 g2 : ℝ × ℝ) (gen : Gen (DotState × τ))
    (hg : ∀ v1 v2 res, KeepsOwn (gen v1 v2 res)) : KeepsOwn (d.noiseFunction data g1 g2 gen true) := by
  unfold DotJumps.noiseFunction
  refine .bind (fun _ => rfl) fun st => ?_
  simp only [if_true]
  split_ifs
  · have hnoise : ∀ occ size, KeepsOwn (d.noise g1 g2 occ size true) := by
      intro occ size
      unfold DotJumps.noise
      simp only [if_true]
      refine .bind (fun _ => rfl) fun st => ?_
      cases st.prev with
      | none => exact .raise _
      | some n => exact .pure _
    unfold DotJumps.active
    rcases data with ⟨o | ⟨n, o⟩ | ⟨r, c, o⟩, l⟩
    · exact .raise _
    · refine .bind (.ofPy _) fun l => .bind (hnoise _ _) fun p => ?_
      unfold DotJumps.run1d
      split_ifs
      · exact .bind (apply1d_keeps _ _ _ _ _ _ _ _ hg _ _) fun _ => .pure _
      · exact .bind (apply1d_keeps _ _ _ _ _ _ _ _ hg _ _) fun _ => .pure _
    · refine .bind (.ofPy _) fun l => .bind (hnoise _ _) fun p => ?_
      unfold DotJumps.run2d
      exact .bind (apply2d_keeps _ _ _ _ _ _ _ _ hg _ _) fun _ => .pure _
  · exact .pure _

/-- A sequence of calls with freeze=True (their results are ignored). -/
noncomputable def frozenCalls {τ : Type} (d : DotJumps τ) : List (CsdData × (ℝ × ℝ) × (ℝ × ℝ) × Gen (DotState × τ)) → DotState × τ → DotState × τ
  | [], s => s
  | c :: cs, s => frozenCalls d cs (d.noiseFunction c.1 c.2.1 c.2.2.1 c.2.2.2 true s).2

/-- C34: the activation and the jumps survive any number of frozen calls. -/
theorem C34_dots_frozen_many {τ : Type} (d : DotJumps τ) (calls : List (CsdData × (ℝ × ℝ) × (ℝ × ℝ) × Gen (DotState × τ)))
    (hg : ∀ c ∈ calls, ∀ v1 v2 res, KeepsOwn (c.2.2.2 v1 v2 res)) (s : DotState × τ) : (frozenCalls d calls s).1 = s.1 := by
  induction calls generalizing s with
  | nil => rfl
  | cons c cs ih =>
    unfold frozenCalls
    rw [ih (fun c' hc => hg c' (List.mem_cons_of_mem _ hc)), C34_dots_frozen_state d _ _ _ _ (hg c List.mem_cons_self)]

/-- C34: a frozen call repeats the last unfrozen call: with the same data and a generator of CSD data that has no state, it
returns the same result and changes nothing. -/
theorem C34_dots_repeat {τ : Type} (d : DotJumps τ) (data out : CsdData) (g1 g2 : ℝ × ℝ) (gen : Gen (DotState × τ))
    (hg : ∀ v1 v2 res, StateFree (gen v1 v2 res)) (s s' : DotState × τ)
    (h : d.noiseFunction data g1 g2 gen false s = (.ok out, s')) :
    d.noiseFunction data g1 g2 gen true s' = (.ok out, s') := by
  have h0 := h
  unfold DotJumps.noiseFunction at h
  rw [M.bind_run, getOwn_run] at h
  simp only [Bool.false_eq_true, if_false] at h
  obtain ⟨b, s1, hb, h⟩ := M.bind_ok.mp h
  obtain ⟨u, s2, hu, h⟩ := M.bind_ok.mp h
  cases hu
  split at h
  · rename_i hb
    subst hb
    cases h
    exact C34_dots_frozen_inactive d data g1 g2 gen _ (by simp)
  · unfold DotJumps.active at h
    rcases data with ⟨o | ⟨n, o⟩ | ⟨r, c, o⟩, l⟩
    · cases h
    · simp only at h
      obtain ⟨l', t1, hl, h⟩ := M.bind_ok.mp h
      obtain ⟨p, t2, hp, h⟩ := M.bind_ok.mp h
      obtain ⟨hp0, hst⟩ := noise_unfrozen hp
      rw [show p = (p.1, p.2) from rfl, run1d_scale _ _ _ _ _ _ _ _ _ hp0] at h
      obtain ⟨R, hR⟩ := run1d_free d n o l' g1 g2 hg (p.1, none)
      rw [hR] at h
      cases h
      have hs' : s' = (⟨some true, some p.1⟩, s'.2) := by rw [← hst]
      rw [hs']
      unfold DotJumps.noiseFunction
      rw [M.bind_run, getOwn_run]
      simp only [if_true]
      unfold DotJumps.active DotJumps.noise
      simp only [if_true]
      have hl' : as1d n l = .ok l' := congrArg Prod.fst hl
      rw [M.bind_run, ofPy_run, hl']
      simp only
      rw [M.bind_run, M.bind_run, getOwn_run]
      simp only [M.pure_run]
      exact hR _
    · simp only at h
      obtain ⟨l', t1, hl, h⟩ := M.bind_ok.mp h
      obtain ⟨p, t2, hp, h⟩ := M.bind_ok.mp h
      obtain ⟨hp0, hst⟩ := noise_unfrozen hp
      rw [show p = (p.1, p.2) from rfl, run2d_scale _ _ _ _ _ _ _ _ _ _ hp0] at h
      obtain ⟨R, hR⟩ := run2d_free d r c o l' g1 g2 hg (p.1, none)
      rw [hR] at h
      cases h
      have hs' : s' = (⟨some true, some p.1⟩, s'.2) := by rw [← hst]
      rw [hs']
      unfold DotJumps.noiseFunction
      rw [M.bind_run, getOwn_run]
      simp only [if_true]
      unfold DotJumps.active DotJumps.noise
      simp only [if_true]
      have hl' : reshape2 r c l = .ok l' := congrArg Prod.fst hl
      rw [M.bind_run, ofPy_run, hl']
      simp only
      rw [M.bind_run, M.bind_run, getOwn_run]
      simp only [M.pure_run]
      exact hR _

end SimCATS
