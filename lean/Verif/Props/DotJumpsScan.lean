import Verif.Props.DotJumps

/-! Properties C31, C32, C55 and C56 of dot jumps in 1D and 2D scans; C36 for dot jumps. -/

namespace SimCATS

open Spec

/-- A generator that samples two fields. -/
noncomputable def sampleGen (σ : Type) (F : ℝ → ℝ → ℝ × ℝ) (L : ℝ → ℝ → ℕ) : Gen σ := fun v1 v2 res s =>
  match res with
  | .arr [c, r] => (.ok (grid2 F L v1 v2 r.toNat c.toNat), s)
  | .int n => (.ok (grid1 F L v1 v2 n.toNat), s)
  | _ => (.error .valueError, s)

/-- Dot jumps without randomness for concrete cases. -/
noncomputable def plainJumps (axis : Axis) : DotJumps Unit := ⟨pure 1, pure 1, axis, 1, plainRng, false, 0⟩

theorem sampleGen_sampled (σ : Type) (F : ℝ → ℝ → ℝ × ℝ) (L : ℝ → ℝ → ℕ) : SampledBy (sampleGen σ F L) F L where
  two := by
    intro v1 v2 c r s _ _
    rfl
  one := by
    intro v1 v2 n s
    rfl

theorem sortLim_asc {g : ℝ × ℝ} (h : g.1 ≤ g.2) : sortLim g = g := by
  unfold sortLim
  rw [min_eq_left h, max_eq_right h]

theorem sortLim_sortLim (g : ℝ × ℝ) : sortLim (sortLim g) = sortLim g := sortLim_asc min_le_max

theorem not_desc_sort (g : ℝ × ℝ) : ¬ Desc (sortLim g) := not_lt.mpr min_le_max

theorem flip2d_asc {r c : ℕ} {α : Type} {g1 g2 : ℝ × ℝ} (h1 : ¬ Desc g1) (h2 : ¬ Desc g2) (f : Fin r → Fin c → α) :
    flip2d g1 g2 f = f := by
  unfold flip2d
  rw [if_neg h1, if_neg h2]

/-! ### C31 -/

theorem flip2d_mirror {r c : ℕ} {α : Type} (g1 g2 : ℝ × ℝ) (h : ¬ (Desc g1 ∧ Desc g2)) (f : Fin r → Fin c → α) :
    flip2d g1 g2 f = mirror g1 g2 f := by
  unfold flip2d mirror
  by_cases h1 : Desc g1
  · have h2 : ¬ g2.2 < g2.1 := fun h2 => h ⟨h1, h2⟩
    rw [if_pos h1]
    have h1' : g1.2 < g1.1 := h1
    simp only [if_pos h1', if_neg h2]
  · rw [if_neg h1]
    have h1' : ¬ g1.2 < g1.1 := h1
    by_cases h2 : Desc g2
    · have h2' : g2.2 < g2.1 := h2
      rw [if_pos h2]
      simp only [if_neg h1', if_pos h2']
    · have h2' : ¬ g2.2 < g2.1 := h2
      rw [if_neg h2]
      simp only [if_neg h1', if_neg h2']

theorem run2d_mirror {τ : Type} (d : DotJumps τ) (r c : ℕ) (occ : Fin r → Fin c → ℝ × ℝ) (lead : Fin r → Fin c → ℕ) (g1 g2 : ℝ × ℝ)
    (hd : ¬ (Desc g1 ∧ Desc g2)) (gen : Gen (DotState × τ)) (p : List ℕ × Option ℝ) (s s' : DotState × τ)
    (occ' : Fin r → Fin c → ℝ × ℝ) (lead' : Fin r → Fin c → ℕ)
    (h : d.run2d r c (mirror g1 g2 occ) (mirror g1 g2 lead) (ascending g1) (ascending g2) gen p s =
      (.ok (.d2 r c occ', .d2 r c lead'), s')) :
    d.run2d r c occ lead g1 g2 gen p s = (.ok (.d2 r c (mirror g1 g2 occ'), .d2 r c (mirror g1 g2 lead')), s') := by
  have e1 : ascending g1 = sortLim g1 := rfl
  have e2 : ascending g2 = sortLim g2 := rfl
  unfold DotJumps.run2d at h ⊢
  rw [e1, e2, flip2d_asc (not_desc_sort _) (not_desc_sort _), flip2d_asc (not_desc_sort _) (not_desc_sort _),
    sortLim_sortLim, sortLim_sortLim] at h
  rw [flip2d_mirror _ _ hd, flip2d_mirror _ _ hd]
  obtain ⟨out, t, ho, h⟩ := M.bind_ok.mp h
  rw [M.bind_run, ho]
  simp only
  simp only [flip2d_asc (not_desc_sort g1) (not_desc_sort g2), flip2d_mirror _ _ hd] at h ⊢
  cases h
  rfl

theorem noise_asc {τ : Type} (d : DotJumps τ) (g1 g2 : ℝ × ℝ) (r c : ℕ) (occ occ' : Fin r → Fin c → ℝ × ℝ) (size : ℕ) (freeze : Bool) :
    d.noise (ascending g1) (ascending g2) (.d2 r c occ') size freeze = d.noise g1 g2 (.d2 r c occ) size freeze := by
  have h : ∀ (n : ℕ) (g : ℝ × ℝ), pxPerVolt n (ascending g) = pxPerVolt n g := by
    intro n g
    unfold pxPerVolt ascending
    simp only [max_eq_right (min_le_max : min g.1 g.2 ≤ max g.1 g.2), min_eq_left (min_le_max : min g.1 g.2 ≤ max g.1 g.2)]
  have hj : jumpFactor d.axis (ascending g1) (ascending g2) (.d2 r c occ') = jumpFactor d.axis g1 g2 (.d2 r c occ) := by
    cases d.axis <;> simp only [jumpFactor, h]
  unfold DotJumps.noise
  rw [hj]

/-- C31 if at most one of the two axes is swept from high to low: the scan gets the mirrored jumps of the mirrored scan. -/
theorem C31_partial {τ : Type} (d : DotJumps τ) (g1 g2 : ℝ × ℝ) (hd : ¬ (g1.2 < g1.1 ∧ g2.2 < g2.1)) :
    MirrorLaw d.noiseFunction g1 g2 := by
  intro r c occ lead gen freeze s s' occ' lead' h
  have hmm : ∀ {α : Type} (f : Fin r → Fin c → α), mirror g1 g2 (mirror g1 g2 f) = f := by
    intro α f
    funext i j
    unfold mirror
    split_ifs <;> simp
  have key : ∀ fr s, d.active (.d2 r c (mirror g1 g2 occ), .d2 r c (mirror g1 g2 lead)) (ascending g1) (ascending g2) gen fr s =
      (.ok (.d2 r c occ', .d2 r c lead'), s') →
      d.active (.d2 r c occ, .d2 r c lead) g1 g2 gen fr s = (.ok (.d2 r c (mirror g1 g2 occ'), .d2 r c (mirror g1 g2 lead')), s') := by
    intro fr s h
    unfold DotJumps.active at h ⊢
    simp only at h ⊢
    rw [M.bind_run, ofPy_run, reshape2_self] at h ⊢
    simp only at h ⊢
    rw [noise_asc d g1 g2 r c occ] at h
    obtain ⟨p, t, hp, h⟩ := M.bind_ok.mp h
    rw [M.bind_run, hp]
    exact run2d_mirror d r c occ lead g1 g2 hd gen p t s' occ' lead' h
  have inact : ∀ {s t : DotState × τ}, ((pure (.d2 r c (mirror g1 g2 occ), .d2 r c (mirror g1 g2 lead)) : M _ CsdData) s) =
      (.ok (.d2 r c occ', .d2 r c lead'), t) →
      (pure (.d2 r c occ, .d2 r c lead) : M _ CsdData) s = (.ok (.d2 r c (mirror g1 g2 occ'), .d2 r c (mirror g1 g2 lead')), t) := by
    intro s t h
    cases h
    rw [hmm, hmm]
    rfl
  unfold DotJumps.noiseFunction at h ⊢
  rw [M.bind_run, getOwn_run] at h ⊢
  simp only at h ⊢
  split at h
  · rename_i hf
    rw [if_pos hf]
    split at h
    · rename_i ha
      rw [if_pos ha]
      exact key _ _ h
    · rename_i ha
      rw [if_neg ha]
      exact inact h
  · rename_i hf
    rw [if_neg hf]
    obtain ⟨b, s1, hb, h⟩ := M.bind_ok.mp h
    obtain ⟨u, s2, hu, h⟩ := M.bind_ok.mp h
    rw [M.bind_run, hb]
    simp only
    rw [M.bind_run, hu]
    simp only
    split at h
    · rename_i ha
      rw [if_pos ha]
      exact inact h
    · rename_i ha
      rw [if_neg ha]
      exact key _ _ h

/-! ### C32 -/

/-- The voltage that the pixel with index `j` and jump `d` shows along the jump axis. -/
noncomputable def jumpVolt (g : ℝ × ℝ) (n d j : ℕ) : ℝ :=
  if d ≤ j then sweepVolt g n (j - d) else g.1 - ((d : ℝ) - j) * ((g.2 - g.1) / n)

/-- What dot jumps along gate 1 do in a 2D scan with jumps `noise` (ascending sweeps): each pixel shows the CSD at the
voltage `jumpVolt` of gate 1 and at its own voltage of gate 2. -/
theorem C32_axis1_actual {τ : Type} (d : DotJumps τ) (hd : d.axis = .g1) {gen : Gen (DotState × τ)} {F : ℝ → ℝ → ℝ × ℝ}
    {L : ℝ → ℝ → ℕ} (h : SampledBy gen F L) (g1 g2 : ℝ × ℝ) (h1 : g1.1 ≤ g1.2) (h2 : g2.1 ≤ g2.2) (rows cols : ℕ) (hr : 2 ≤ rows)
    (hc : 0 < cols) (noise : List ℕ) (hn : noise.length = cols) (t : τ) :
    d.noiseFunction (grid2 F L g1 g2 rows cols) g1 g2 gen true (⟨some true, some noise⟩, t) =
      (.ok (.d2 rows cols fun i j => F (jumpVolt g1 cols (noise.getD j 0) j) (sweepVolt g2 rows i),
        .d2 rows cols fun i j => L (jumpVolt g1 cols (noise.getD j 0) j) (sweepVolt g2 rows i)), (⟨some true, some noise⟩, t)) := by
  obtain ⟨m, hmax, hm⟩ := maxJump_spec noise (by rintro rfl; simp at hn; omega)
  unfold grid2
  rw [frozen_2d]
  unfold DotJumps.run2d
  simp only [flip2d_asc (not_lt.mpr h1) (not_lt.mpr h2), sortLim_asc h1, sortLim_asc h2]
  obtain ⟨b, hb, hb1, hb2⟩ := border2d_g1 h g1 g2 rows cols m hr (⟨some true, some noise⟩, t)
  rw [hd, M.bind_run, apply2d_g1 _ _ _ _ _ _ _ _ _ (by simp) _ (by omega) m hmax hm _ _ b hb
    (fun i k => F (g1.1 - ((m : ℝ) - k) * borderStep g1 cols) (sweepVolt g2 rows i))
    (fun i k => L (g1.1 - ((m : ℝ) - k) * borderStep g1 cols) (sweepVolt g2 rows i)) hb1 hb2]
  simp only [M.pure_run]
  have hv : ∀ j : Fin cols, ¬ noise.getD j 0 ≤ j → g1.1 - ((m : ℝ) - ((m + (j : ℕ) - noise.getD j 0 : ℕ) : ℝ)) * borderStep g1 cols =
      jumpVolt g1 cols (noise.getD j 0) j := by
    intro j hj
    unfold jumpVolt borderStep
    rw [if_neg hj, Nat.cast_sub (by have := hm j; omega)]
    push_cast
    ring
  have hv' : ∀ j : Fin cols, noise.getD j 0 ≤ j → jumpVolt g1 cols (noise.getD j 0) j = sweepVolt g1 cols (j - noise.getD j 0) := by
    intro j hj
    unfold jumpVolt
    rw [if_pos hj]
  refine congrArg (fun x => (Except.ok x, _)) (Prod.ext ?_ ?_)
  · simp only
    congr 1
    funext i j
    split_ifs with hj
    · rw [hv' j hj]
    · rw [hv j hj]
  · simp only
    congr 1
    funext i j
    split_ifs with hj
    · rw [hv' j hj]
    · rw [hv j hj]

example (noise : List ℕ) (hl : noise.length = 5) := C32_axis1_actual (plainJumps .g1) rfl (sampleGen_sampled _ (fun v w => (v, w)) fun _ _ => 0)
  (0, 1) (2, 3) (by norm_num) (by norm_num) 4 5 (by norm_num) (by norm_num) noise hl ()

/-- The same for dot jumps along gate 2. -/
theorem C32_axis0_actual {τ : Type} (d : DotJumps τ) (hd : d.axis = .g2) {gen : Gen (DotState × τ)} {F : ℝ → ℝ → ℝ × ℝ}
    {L : ℝ → ℝ → ℕ} (h : SampledBy gen F L) (g1 g2 : ℝ × ℝ) (h1 : g1.1 ≤ g1.2) (h2 : g2.1 ≤ g2.2) (rows cols : ℕ) (hr : 0 < rows)
    (hc : 2 ≤ cols) (noise : List ℕ) (hn : noise.length = rows) (t : τ) :
    d.noiseFunction (grid2 F L g1 g2 rows cols) g1 g2 gen true (⟨some true, some noise⟩, t) =
      (.ok (.d2 rows cols fun i j => F (sweepVolt g1 cols j) (jumpVolt g2 rows (noise.getD i 0) i),
        .d2 rows cols fun i j => L (sweepVolt g1 cols j) (jumpVolt g2 rows (noise.getD i 0) i)), (⟨some true, some noise⟩, t)) := by
  obtain ⟨m, hmax, hm⟩ := maxJump_spec noise (by rintro rfl; simp at hn; omega)
  unfold grid2
  rw [frozen_2d]
  unfold DotJumps.run2d
  simp only [flip2d_asc (not_lt.mpr h1) (not_lt.mpr h2), sortLim_asc h1, sortLim_asc h2]
  obtain ⟨b, hb, hb1, hb2⟩ := border2d_g2 h g1 g2 rows cols m hc (⟨some true, some noise⟩, t)
  rw [hd, M.bind_run, apply2d_g2 _ _ _ _ _ _ _ _ _ (by simp) _ (by omega) m hmax hm _ _ b hb
    (fun k j => F (sweepVolt g1 cols j) (g2.1 - ((m : ℝ) - k) * borderStep g2 rows))
    (fun k j => L (sweepVolt g1 cols j) (g2.1 - ((m : ℝ) - k) * borderStep g2 rows)) hb1 hb2]
  simp only [M.pure_run]
  have hv : ∀ j : Fin rows, ¬ noise.getD j 0 ≤ j → g2.1 - ((m : ℝ) - ((m + (j : ℕ) - noise.getD j 0 : ℕ) : ℝ)) * borderStep g2 rows =
      jumpVolt g2 rows (noise.getD j 0) j := by
    intro j hj
    unfold jumpVolt borderStep
    rw [if_neg hj, Nat.cast_sub (by have := hm j; omega)]
    push_cast
    ring
  have hv' : ∀ j : Fin rows, noise.getD j 0 ≤ j → jumpVolt g2 rows (noise.getD j 0) j = sweepVolt g2 rows (j - noise.getD j 0) := by
    intro j hj
    unfold jumpVolt
    rw [if_pos hj]
  refine congrArg (fun x => (Except.ok x, _)) (Prod.ext ?_ ?_)
  · simp only
    congr 1
    funext i j
    split_ifs with hj
    · rw [hv' i hj]
    · rw [hv i hj]
  · simp only
    congr 1
    funext i j
    split_ifs with hj
    · rw [hv' i hj]
    · rw [hv i hj]

example (noise : List ℕ) (hl : noise.length = 5) := C32_axis0_actual (plainJumps .g2) rfl (sampleGen_sampled _ (fun v w => (v, w)) fun _ _ => 0)
  (0, 1) (2, 3) (by norm_num) (by norm_num) 5 4 (by norm_num) (by norm_num) noise hl ()

/-- C32 for the pixels whose source is inside the image: they show the pixel grid, exactly `d` pixels earlier. -/
theorem C32_partial (g : ℝ × ℝ) (n d j : ℕ) (hn : 2 ≤ n) (hd : d ≤ j) : jumpVolt g n d j = gridVolt g n ((j : ℤ) - d) := by
  have : (n : ℝ) - 1 ≠ 0 := by
    have : (2 : ℝ) ≤ n := by exact_mod_cast hn
    linarith
  unfold jumpVolt sweepVolt gridVolt
  rw [if_pos hd, if_neg (by omega), Nat.cast_sub hd]
  push_cast
  field_simp

/-- The deviation of the pixels from outside the image: they are taken too close to the image, by `d - j` times the
difference of the two steps. -/
theorem C32_deviation (g : ℝ × ℝ) (n d j : ℕ) (hn : 2 ≤ n) (hd : j < d) :
    jumpVolt g n d j - gridVolt g n ((j : ℤ) - d) = ((d : ℝ) - j) * ((g.2 - g.1) / (n * ((n : ℝ) - 1))) := by
  have h2 : (2 : ℝ) ≤ n := by exact_mod_cast hn
  have h0 : (n : ℝ) - 1 ≠ 0 := by linarith
  have h1 : (n : ℝ) ≠ 0 := by linarith
  unfold jumpVolt gridVolt
  rw [if_neg (by omega)]
  push_cast
  field_simp
  ring

example := C32_partial (0, 1) 5 2 3 (by norm_num) (by norm_num)

example := C32_deviation (0, 1) 5 3 2 (by norm_num) (by norm_num)

/-- C32 is false: a pixel at the border shows the CSD at a voltage that is not on the continued pixel grid (2 x 2 pixels over
1 V, jump of 1 pixel: -0.5 V instead of -1 V). -/
theorem C32_refuted : ∃ (g1 g2 : ℝ × ℝ) (F : ℝ → ℝ → ℝ × ℝ) (L : ℝ → ℝ → ℕ) (noise : List ℕ) (out : Fin 2 → Fin 2 → ℝ × ℝ)
    (l : Fin 2 → Fin 2 → ℕ) (s : DotState × Unit), g1.1 < g1.2 ∧ g2.1 < g2.2 ∧
    (plainJumps .g1).noiseFunction (grid2 F L g1 g2 2 2) g1 g2 (sampleGen _ F L) true (⟨some true, some noise⟩, ()) =
      (.ok (.d2 2 2 out, .d2 2 2 l), s) ∧
    out 0 0 ≠ F (gridVolt g1 2 ((0 : ℤ) - (noise.getD 0 0 : ℕ))) (sweepVolt g2 2 0) := by
  refine ⟨(0, 1), (0, 1), fun v _ => (v, 0), fun _ _ => 0, [1, 0], _, _, _, by norm_num, by norm_num,
    C32_axis1_actual (plainJumps .g1) rfl (sampleGen_sampled _ _ _) (0, 1) (0, 1) (by norm_num) (by norm_num) 2 2 (le_refl _)
      (by norm_num) [1, 0] rfl (), ?_⟩
  simp [jumpVolt, gridVolt]
  norm_num

/-! ### C31, refutation -/

/-- C31 is false if both axes are swept from high to low: jumps along gate 2 are then applied from high to low voltages. -/
theorem C31_refuted : ∃ (g1 g2 : ℝ × ℝ), ¬ MirrorLaw (plainJumps .g2).noiseFunction g1 g2 := by
  refine ⟨(1, 0), (1, 0), ?_⟩
  intro h
  have hs := sampleGen_sampled (DotState × Unit) (fun _ v => (v, 0)) (fun _ _ => 0)
  have ha : ascending (1, 0) = ((0, 1) : ℝ × ℝ) := by
    unfold ascending
    norm_num
  have e := C32_axis0_actual (plainJumps .g2) rfl hs (0, 1) (0, 1) (by norm_num) (by norm_num) 2 2 (by norm_num) (le_refl _) [0, 1] rfl ()
  have hm : ∀ {α : Type} (f : Fin 2 → Fin 2 → α), mirror (1, 0) (1, 0) (mirror (1, 0) (1, 0) f) = f := by
    intro α f
    funext i j
    simp [mirror]
  have h' := h 2 2 (mirror (1, 0) (1, 0) fun i _ => (sweepVolt (0, 1) 2 i, 0)) (mirror (1, 0) (1, 0) fun _ _ => 0)
    (sampleGen _ (fun _ v => (v, 0)) (fun _ _ => 0)) true (⟨some true, some [0, 1]⟩, ()) _ _ _
    (by rw [hm, hm, ha]; exact e)
  -- the actual result
  rw [frozen_2d] at h'
  unfold DotJumps.run2d at h'
  have hsl : sortLim (1, 0) = ((0, 1) : ℝ × ℝ) := ha
  rw [hsl] at h'
  obtain ⟨b, hb, hb1, hb2⟩ := border2d_g2 hs (0, 1) (0, 1) 2 2 1 (le_refl _) (⟨some true, some [0, 1]⟩, ())
  rw [show (plainJumps .g2).axis = .g2 from rfl, M.bind_run, apply2d_g2 _ _ _ _ _ _ _ _ none (by simp) [0, 1] (by simp) 1 rfl
    (fun j => by rcases j with _ | _ | j <;> simp) _ _ b hb _ _ hb1 hb2] at h'
  simp only [M.pure_run] at h'
  have h1 := congrArg Prod.fst h'
  simp only [Except.ok.injEq, Prod.mk.injEq, Scan.d2.injEq, heq_eq_eq, true_and] at h1
  have h2 := congrFun (congrFun h1.1 0) 0
  simp [flip2d, mirror, Desc, sweepVolt, jumpVolt] at h2
  norm_num at h2

/-! ### C36 -/

/-- What the conversion for dot jumps does in 2D: the numbers of pixels of the two axes are exchanged. -/
theorem C36_dots_actual (r c : ℕ) (occ : Fin r → Fin c → ℝ × ℝ) (g1 g2 : ℝ × ℝ) (h1 : g1.1 ≠ g1.2) (h2 : g2.1 ≠ g2.2) :
    jumpFactor .g1 g1 g2 (.d2 r c occ) = some (density r g1) ∧ jumpFactor .g2 g1 g2 (.d2 r c occ) = some (density c g2) :=
  ⟨pxPerVolt_density _ _ h1, pxPerVolt_density _ _ h2⟩

/-- C36 for dot jumps in square images and in 1D scans. -/
theorem C36_dots_partial (n : ℕ) (occ : Fin n → Fin n → ℝ × ℝ) (occ1 : Fin n → ℝ × ℝ) (g1 g2 : ℝ × ℝ) (h1 : g1.1 ≠ g1.2)
    (h2 : g2.1 ≠ g2.2) :
    jumpFactor .g1 g1 g2 (.d2 n n occ) = some (density n g1) ∧ jumpFactor .g2 g1 g2 (.d2 n n occ) = some (density n g2) ∧
    jumpFactor .g1 g1 g2 (.d1 n occ1) = some (density n g1) ∧ jumpFactor .g2 g1 g2 (.d1 n occ1) = some (density n g2) :=
  ⟨pxPerVolt_density _ _ h1, pxPerVolt_density _ _ h2, pxPerVolt_density _ _ h1, pxPerVolt_density _ _ h2⟩

example (occ : Fin 3 → Fin 5 → ℝ × ℝ) := C36_dots_actual 3 5 occ (0, 1) (2, 4) (by norm_num) (by norm_num)

example (occ : Fin 5 → Fin 5 → ℝ × ℝ) (line : Fin 5 → ℝ × ℝ) := C36_dots_partial 5 occ line (0, 1) (2, 4) (by norm_num) (by norm_num)

/-- C36 is false for dot jumps: 10 columns over 1 V, but the scale is multiplied by the 100 rows. -/
theorem C36_dots_refuted : ∃ (g1 g2 : ℝ × ℝ) (occ : Fin 100 → Fin 10 → ℝ × ℝ), g1.1 < g1.2 ∧ g2.1 < g2.2 ∧
    jumpFactor .g1 g1 g2 (.d2 100 10 occ) ≠ some (density 10 g1) := by
  refine ⟨(0, 1), (0, 1), fun _ _ => (0, 0), by norm_num, by norm_num, ?_⟩
  rw [(C36_dots_actual _ _ _ _ _ (by norm_num) (by norm_num)).1]
  unfold density
  norm_num

/-- C36 at the level of the distortion: in an activated 2D call, the jumps are drawn with the scale and the height in volts
times the factor of `jumpFactor`, the scale being at least one pixel. -/
theorem C36_dots_call {τ : Type} (d : DotJumps τ) (r c : ℕ) (occ : Fin r → Fin c → ℝ × ℝ) (lead : Fin r → Fin c → ℕ) (g1 g2 : ℝ × ℝ)
    (gen : Gen (DotState × τ)) (st : DotState) (t t1 t2 t3 t4 : τ) (sc la k : ℝ) (noise : List ℕ)
    (hb : d.rng.binomial d.ratio t = (.ok true, t1)) (h1 : d.scale t1 = (.ok sc, t2)) (h2 : d.lam t2 = (.ok la, t3))
    (hk : jumpFactor d.axis g1 g2 (.d2 r c occ) = some k)
    (hn : generateJumps d.rng (d.axis.size r c) (max 1 (sc * k)) (la * k) t3 = (.ok noise, t4)) :
    d.noiseFunction (.d2 r c occ, .d2 r c lead) g1 g2 gen false (st, t) =
      d.noiseFunction (.d2 r c occ, .d2 r c lead) g1 g2 gen true (⟨some true, some noise⟩, t4) := by
  rw [frozen_2d]
  have hp : pixelParams (some k) sc la = some (max 1 (sc * k), la * k) := by
    unfold pixelParams
    simp only [Option.map_some, Option.some.injEq, Prod.mk.injEq, and_true]
    split_ifs with h
    · rw [max_eq_left h.le]
    · rw [max_eq_right (by linarith)]
  unfold DotJumps.noiseFunction
  rw [M.bind_run, getOwn_run]
  simp only [Bool.false_eq_true, if_false]
  rw [M.bind_run, onRest_eq hb]
  simp only
  rw [M.bind_run, setOwn_run]
  simp only [Bool.true_eq_false, if_false]
  unfold DotJumps.active
  simp only
  rw [M.bind_run, ofPy_run, reshape2_self]
  simp only
  have hnoise : d.noise g1 g2 (.d2 r c occ) (d.axis.size r c) false (⟨some true, st.prev⟩, t1) =
      (.ok (noise, some (max 1 (sc * k))), (⟨some true, some noise⟩, t4)) := by
    unfold DotJumps.noise
    simp only [Bool.false_eq_true, if_false]
    rw [M.bind_run, onRest_eq h1]
    simp only
    rw [M.bind_run, onRest_eq h2]
    simp only [hk, hp]
    rw [M.bind_run, onRest_eq hn]
    simp only
    rw [M.bind_run, setOwn_run]
    rfl
  rw [M.bind_run, hnoise]
  simp only
  rw [run2d_scale]
  have : (1 : ℝ) ≤ max 1 (sc * k) := le_max_left _ _
  simp only [ne_eq, Option.some.injEq]
  linarith

/-! ### C55 -/

theorem frozen_1d_asc {τ : Type} (d : DotJumps τ) {gen : Gen (DotState × τ)} {F : ℝ → ℝ → ℝ × ℝ} {L : ℝ → ℝ → ℕ}
    (h : SampledBy gen F L) (g1 g2 : ℝ × ℝ) (h1 : g1.1 ≤ g1.2) (h2 : g2.1 ≤ g2.2) (n : ℕ) (hn : 0 < n) (noise : List ℕ)
    (hl : noise.length = n) (hnp : d.np2 = true → ∀ x ∈ noise, n + x ≤ 256) (occ : Fin n → ℝ × ℝ) (lead : Fin n → ℕ) (t : τ) :
    d.noiseFunction (.d1 n occ, .d1 n lead) g1 g2 gen true (⟨some true, some noise⟩, t) =
      (.ok (.d1 n fun p => jumped1d d.axis F g1 g2 occ (noise.getD p 0) p,
        .d1 n fun p => jumped1d d.axis L g1 g2 lead (noise.getD p 0) p), (⟨some true, some noise⟩, t)) := by
  have hne : noise ≠ [] := by rintro rfl; simp at hl; omega
  obtain ⟨m, hmax, hm⟩ := maxJump_spec noise hne
  have hmem : m ∈ noise := by
    cases noise with
    | nil => exact absurd rfl hne
    | cons x xs =>
      cases hmax
      clear hm hl hnp hne hn
      induction xs generalizing x with
      | nil => simp
      | cons y ys ih =>
        have := ih (max x y)
        simp only [List.foldl_cons, List.mem_cons] at this ⊢
        rcases this with h | h
        · rcases max_choice x y with e | e <;> rw [e] at h ⊢ <;> simp [h]
        · exact .inr (.inr h)
  rw [frozen_1d]
  unfold DotJumps.run1d
  rw [if_neg (by rintro (h | h) <;> unfold Desc at h <;> linarith)]
  rw [sortLim_asc h1, sortLim_asc h2, M.bind_run,
    apply1d_sampled h d.axis d.np2 d.nan n occ lead g1 g2 none (by simp) noise (by omega) m hmax hm (fun e _ => hnp e m hmem)]
  rfl

/-- What dot jumps do in an ascending 1D scan (numpy 1, or scans where no index exceeds 255): a pixel with jump `d` shows the
CSD at a voltage of the jump axis lowered by `d` times the range of gate 1 divided by the number of pixels. -/
theorem C55_actual {τ : Type} (d : DotJumps τ) {gen : Gen (DotState × τ)} {F : ℝ → ℝ → ℝ × ℝ} {L : ℝ → ℝ → ℕ}
    (h : SampledBy gen F L) (g1 g2 : ℝ × ℝ) (h1 : g1.1 ≤ g1.2) (h2 : g2.1 ≤ g2.2) (n : ℕ) (hn : 0 < n) (noise : List ℕ)
    (hl : noise.length = n) (hnp : d.np2 = true → ∀ x ∈ noise, n + x ≤ 256) (t : τ) :
    d.noiseFunction (grid1 F L g1 g2 n) g1 g2 gen true (⟨some true, some noise⟩, t) =
      (.ok (.d1 n fun p => shifted1d d.axis F g1 g2 n (noise.getD p 0) p,
        .d1 n fun p => shifted1d d.axis L g1 g2 n (noise.getD p 0) p), (⟨some true, some noise⟩, t)) := by
  unfold grid1
  rw [frozen_1d_asc d h g1 g2 h1 h2 n hn noise hl hnp]
  have : ∀ {α : Type} (F : ℝ → ℝ → α) (dd : ℕ) (p : Fin n), jumped1d d.axis F g1 g2
      (fun i : Fin n => F (sweepVolt g1 n i) (sweepVolt g2 n i)) dd p = shifted1d d.axis F g1 g2 n dd p := by
    intro α F dd p
    unfold jumped1d
    split_ifs with h0
    · subst h0
      cases d.axis <;> simp [shifted1d]
    · rfl
  simp only [this]

example (noise : List ℕ) (hl : noise.length = 5) := C55_actual (plainJumps .g2) (sampleGen_sampled _ (fun v w => (v, w)) fun _ _ => 0)
  (0, 1) (2, 3) (by norm_num) (by norm_num) 5 (by norm_num) noise hl (fun h => by simp [plainJumps] at h) ()

/-- C55 for jumps along gate 1 in ascending scans: a pixel with jump `d` shows the CSD `d` steps of `range / n` earlier along
gate 1, at its own voltage of gate 2. -/
theorem C55_partial {τ : Type} (d : DotJumps τ) (hd : d.axis = .g1) {gen : Gen (DotState × τ)} {F : ℝ → ℝ → ℝ × ℝ} {L : ℝ → ℝ → ℕ}
    (h : SampledBy gen F L) (g1 g2 : ℝ × ℝ) (h1 : g1.1 ≤ g1.2) (h2 : g2.1 ≤ g2.2) (n : ℕ) (hn : 0 < n) (noise : List ℕ)
    (hl : noise.length = n) (hnp : d.np2 = true → ∀ x ∈ noise, n + x ≤ 256) (t : τ) :
    d.noiseFunction (grid1 F L g1 g2 n) g1 g2 gen true (⟨some true, some noise⟩, t) =
      (.ok (.d1 n fun p => F (sweepVolt g1 n p - noise.getD p 0 * ((g1.2 - g1.1) / n)) (sweepVolt g2 n p),
        .d1 n fun p => L (sweepVolt g1 n p - noise.getD p 0 * ((g1.2 - g1.1) / n)) (sweepVolt g2 n p)),
        (⟨some true, some noise⟩, t)) := by
  rw [C55_actual d h g1 g2 h1 h2 n hn noise hl hnp, hd]
  rfl

example (noise : List ℕ) (hl : noise.length = 5) := C55_partial (plainJumps .g1) rfl (sampleGen_sampled _ (fun v w => (v, w)) fun _ _ => 0)
  (0, 1) (2, 2) (by norm_num) (le_refl _) 5 (by norm_num) noise hl (fun h => by simp [plainJumps] at h) ()

/-- C55 is false for scans of gate 2: jumps along gate 2 never have any effect, whatever jumps have been drawn. -/
theorem C55_gate2_refuted {τ : Type} (d : DotJumps τ) (hd : d.axis = .g2) {gen : Gen (DotState × τ)} {F : ℝ → ℝ → ℝ × ℝ} {L : ℝ → ℝ → ℕ}
    (h : SampledBy gen F L) (v : ℝ) (g2 : ℝ × ℝ) (h2 : g2.1 ≤ g2.2) (n : ℕ) (hn : 0 < n) (noise : List ℕ)
    (hl : noise.length = n) (hnp : d.np2 = true → ∀ x ∈ noise, n + x ≤ 256) (t : τ) :
    d.noiseFunction (grid1 F L (v, v) g2 n) (v, v) g2 gen true (⟨some true, some noise⟩, t) =
      (.ok (grid1 F L (v, v) g2 n), (⟨some true, some noise⟩, t)) := by
  rw [C55_actual d h (v, v) g2 (le_refl _) h2 n hn noise hl hnp, hd]
  simp [shifted1d, borderStep, grid1]

example (noise : List ℕ) (hl : noise.length = 5) := C55_gate2_refuted (plainJumps .g2) rfl (sampleGen_sampled _ (fun v w => (v, w)) fun _ _ => 0)
  1 (2, 3) (by norm_num) 5 (by norm_num) noise hl (fun h => by simp [plainJumps] at h) ()

/-- C55 is false for scans in which the gate of the jumps is fixed: every activated call fails with `ValueError`, although
the same scan is possible without dot jumps. -/
theorem C55_fixed_refuted {τ : Type} (d : DotJumps τ) (n : ℕ) (occ : Fin n → ℝ × ℝ) (lead : Fin n → ℕ) (g1 g2 : ℝ × ℝ)
    (hf : (d.axis = .g1 ∧ g1.1 = g1.2) ∨ (d.axis = .g2 ∧ g2.1 = g2.2)) (gen : Gen (DotState × τ)) (st : DotState)
    (t t1 t2 t3 : τ) (sc la : ℝ) (hb : d.rng.binomial d.ratio t = (.ok true, t1)) (h1 : d.scale t1 = (.ok sc, t2))
    (h2 : d.lam t2 = (.ok la, t3)) :
    (d.noiseFunction (.d1 n occ, .d1 n lead) g1 g2 gen false (st, t)).1 = .error .valueError := by
  have hk : jumpFactor d.axis g1 g2 (.d1 n occ) = none := by
    rcases hf with ⟨ha, hg⟩ | ⟨ha, hg⟩ <;> rw [ha] <;> simp [jumpFactor, pxPerVolt, hg]
  unfold DotJumps.noiseFunction
  rw [M.bind_run, getOwn_run]
  simp only [Bool.false_eq_true, if_false]
  rw [M.bind_run, onRest_eq hb]
  simp only
  rw [M.bind_run, setOwn_run]
  simp only [Bool.true_eq_false, if_false]
  unfold DotJumps.active
  simp only
  rw [M.bind_run, ofPy_run, as1d_self]
  simp only
  rw [M.bind_run]
  unfold DotJumps.noise
  simp only [Bool.false_eq_true, if_false]
  rw [M.bind_run, onRest_eq h1]
  simp only
  rw [M.bind_run, onRest_eq h2]
  simp only [hk]
  rfl

example (occ : Fin 3 → ℝ × ℝ) (lead : Fin 3 → ℕ) (gen : Gen (DotState × Unit)) :
    ((plainJumps .g2).noiseFunction (.d1 3 occ, .d1 3 lead) (0, 1) (2, 2) gen false (⟨none, none⟩, ())).1 = .error .valueError :=
  C55_fixed_refuted (plainJumps .g2) 3 occ lead (0, 1) (2, 2) (.inr ⟨rfl, rfl⟩) gen _ () () () () 1 1 rfl rfl rfl

/-- C55 is false for opposite sweep directions: a scan of 2 pixels from (0, 1) to (1, 0) with jumps of 1 along gate 1; the last
pixel (gate 1 at 1 V) shows the CSD at -0.5 V instead of 0.5 V, as the sweep of gate 1 has been sorted but not its data. -/
theorem C55_direction_refuted : ∃ (g1 g2 : ℝ × ℝ) (F : ℝ → ℝ → ℝ × ℝ) (L : ℝ → ℝ → ℕ) (out : Fin 2 → ℝ × ℝ) (l : Fin 2 → ℕ)
    (s : DotState × Unit), g1.1 < g1.2 ∧ g2.2 < g2.1 ∧
    (plainJumps .g1).noiseFunction (grid1 F L g1 g2 2) g1 g2 (sampleGen _ F L) true (⟨some true, some [1, 1]⟩, ()) =
      (.ok (.d1 2 out, .d1 2 l), s) ∧
    out 1 = F (-1 / 2) (sweepVolt g2 2 1) ∧ out 1 ≠ F (sweepVolt g1 2 1 - 1 * ((g1.2 - g1.1) / 2)) (sweepVolt g2 2 1) := by
  have hs := sampleGen_sampled (DotState × Unit) (fun v w => (v, w)) (fun _ _ => 0)
  have hsl : sortLim (1, 0) = ((0, 1) : ℝ × ℝ) := by
    unfold sortLim
    norm_num
  refine ⟨(0, 1), (1, 0), fun v w => (v, w), fun _ _ => 0, ?_⟩
  unfold grid1
  rw [frozen_1d]
  unfold DotJumps.run1d
  rw [if_pos (.inl (by unfold Desc; norm_num)), sortLim_asc (by norm_num), hsl, M.bind_run,
    apply1d_sampled hs (plainJumps .g1).axis (plainJumps .g1).np2 (plainJumps .g1).nan 2 _ _ (0, 1) (0, 1) none (by simp) [1, 1]
      (by simp) 1 rfl (fun j => by rcases j with _ | _ | j <;> simp) (fun e => by simp [plainJumps] at e)]
  refine ⟨_, _, _, by norm_num, by norm_num, rfl, ?_, ?_⟩
  · simp [jumped1d, shifted1d, plainJumps, borderStep, sweepVolt]
    norm_num
  · simp [jumped1d, shifted1d, plainJumps, borderStep, sweepVolt]
    norm_num

/-! ### C56 -/

/-- C56 with numpy 1: the length of the scan does not matter (`C55_partial` for all `n` and jumps). -/
theorem C56_partial {τ : Type} (d : DotJumps τ) (hd : d.np2 = false) {gen : Gen (DotState × τ)} {F : ℝ → ℝ → ℝ × ℝ} {L : ℝ → ℝ → ℕ}
    (h : SampledBy gen F L) (g1 g2 : ℝ × ℝ) (h1 : g1.1 ≤ g1.2) (h2 : g2.1 ≤ g2.2) (n : ℕ) (hn : 0 < n) (noise : List ℕ)
    (hl : noise.length = n) (t : τ) :
    ∃ o l, d.noiseFunction (grid1 F L g1 g2 n) g1 g2 gen true (⟨some true, some noise⟩, t) =
      (.ok (.d1 n o, .d1 n l), (⟨some true, some noise⟩, t)) :=
  ⟨_, _, C55_actual d h g1 g2 h1 h2 n hn noise hl (fun e => by rw [hd] at e; cases e) t⟩

example (noise : List ℕ) (hl : noise.length = 300) := C56_partial (plainJumps .g1) rfl (sampleGen_sampled _ (fun v w => (v, w)) fun _ _ => 0)
  (0, 1) (2, 3) (by norm_num) (by norm_num) 300 (by norm_num) noise hl ()

/-- C56 is false with numpy 2: in every ascending scan of more than 256 pixels with at least one jump the call fails with
`OverflowError`. -/
theorem C56_refuted {τ : Type} (d : DotJumps τ) (hd : d.np2 = true) {gen : Gen (DotState × τ)} {F : ℝ → ℝ → ℝ × ℝ} {L : ℝ → ℝ → ℕ}
    (h : SampledBy gen F L) (g1 g2 : ℝ × ℝ) (h1 : g1.1 ≤ g1.2) (h2 : g2.1 ≤ g2.2) (n : ℕ) (hn : 256 < n) (noise : List ℕ)
    (hl : noise.length = n) (hj : ∃ x ∈ noise, 0 < x) (t : τ) :
    d.noiseFunction (grid1 F L g1 g2 n) g1 g2 gen true (⟨some true, some noise⟩, t) =
      (.error .overflowError, (⟨some true, some noise⟩, t)) := by
  obtain ⟨m, hmax, hm⟩ := maxJump_spec noise (by rintro rfl; simp at hl; omega)
  have hm0 : 0 < m := by
    obtain ⟨x, hx, h0⟩ := hj
    obtain ⟨i, hi, rfl⟩ := List.getElem_of_mem hx
    have := hm i
    rw [List.getD_eq_getElem _ _ hi] at this
    omega
  unfold grid1
  rw [frozen_1d]
  unfold DotJumps.run1d
  rw [if_neg (by rintro (h | h) <;> unfold Desc at h <;> linarith)]
  rw [sortLim_asc h1, sortLim_asc h2, hd, M.bind_run,
    apply1d_overflow h d.axis d.nan n _ _ g1 g2 none (by simp) noise (by omega) m hmax hm0 hn]

/-- The hypotheses are met by a scan of 300 pixels with one jump. -/
example := C56_refuted { plainJumps .g1 with np2 := true } rfl (sampleGen_sampled _ (fun v w => (v, w)) fun _ _ => 0) (0, 1) (0, 0)
  (by norm_num) (le_refl _) 300 (by norm_num) (1 :: List.replicate 299 0) (by rw [List.length_cons, List.length_replicate]) ⟨1, List.mem_cons_self, by norm_num⟩ ()

/-- With numpy 2 also shorter scans are damaged: the pixels whose index in the stacked image exceeds 255 become NaN. -/
theorem C56_nan_refuted {τ : Type} (d : DotJumps τ) (hd : d.np2 = true) {gen : Gen (DotState × τ)} {F : ℝ → ℝ → ℝ × ℝ} {L : ℝ → ℝ → ℕ}
    (h : SampledBy gen F L) (g1 g2 : ℝ × ℝ) (h1 : g1.1 ≤ g1.2) (h2 : g2.1 ≤ g2.2) (n : ℕ) (hn0 : 0 < n) (hn : n ≤ 256) (noise : List ℕ)
    (hl : noise.length = n) (h256 : ∀ x ∈ noise, x < 256) (t : τ) :
    ∃ o l, d.noiseFunction (grid1 F L g1 g2 n) g1 g2 gen true (⟨some true, some noise⟩, t) =
      (.ok (.d1 n o, .d1 n l), (⟨some true, some noise⟩, t)) ∧
      ∀ p : Fin n, ∀ x ∈ noise, 0 < x → 256 ≤ p + x → o p = (d.nan, d.nan) := by
  have hne : noise ≠ [] := by rintro rfl; simp at hl; omega
  obtain ⟨m, hmax, hm⟩ := maxJump_spec noise hne
  have hle : ∀ x ∈ noise, x ≤ m := by
    intro x hx
    obtain ⟨i, hi, rfl⟩ := List.getElem_of_mem hx
    have := hm i
    rwa [List.getD_eq_getElem _ _ hi] at this
  by_cases hm0 : m = 0
  · refine ⟨_, _, C55_actual d h g1 g2 h1 h2 n hn0 noise hl (fun _ x hx => ?_) t, ?_⟩
    · have := hle x hx
      omega
    · intro p x hx h0
      have := hle x hx
      omega
  · have hm256 : m < 256 := by
      by_contra hc
      have hmem : ∃ x ∈ noise, x = m := by
        cases noise with
        | nil => exact absurd rfl hne
        | cons x xs =>
          cases hmax
          clear hm hl hne hle hm0 hc h256
          induction xs generalizing x with
          | nil => simp
          | cons y ys ih =>
            obtain ⟨z, hz, e⟩ := ih (max x y)
            refine ⟨z, ?_, e⟩
            simp only [List.mem_cons] at hz ⊢
            rcases hz with hz | hz
            · rcases max_choice x y with e | e <;> rw [e] at hz <;> simp [hz]
            · exact .inr (.inr hz)
      obtain ⟨x, hx, rfl⟩ := hmem
      exact hc (h256 x hx)
    unfold grid1
    rw [frozen_1d]
    unfold DotJumps.run1d
    rw [if_neg (by rintro (h | h) <;> unfold Desc at h <;> linarith)]
    rw [sortLim_asc h1, sortLim_asc h2, hd, M.bind_run]
    obtain ⟨o, l, hr, hnan⟩ := apply1d_wrap h d.axis d.nan n (fun i : Fin n => F (sweepVolt g1 n i) (sweepVolt g2 n i))
      (fun i : Fin n => L (sweepVolt g1 n i) (sweepVolt g2 n i)) g1 g2 none (by simp) noise (by omega) m hmax hm (by omega) hm256 hn
      (⟨some true, some noise⟩, t)
    rw [hr]
    refine ⟨o, l, rfl, ?_⟩
    intro p x hx h0 hp
    have := hle x hx
    exact hnan p (by omega)

example := C56_nan_refuted { plainJumps .g1 with np2 := true } rfl (sampleGen_sampled _ (fun v w => (v, w)) fun _ _ => 0)
  (0, 1) (2, 3) (by norm_num) (by norm_num) 250 (by norm_num) (by norm_num) (List.replicate 250 10) (by rw [List.length_replicate])
  (fun x hx => by rw [List.eq_of_mem_replicate hx]; norm_num) ()

end SimCATS
