import Verif.Lemmas.JumpBlur
import Verif.Lemmas.DefaultNoise

/-! Property C84: data shifted into a scan by dot jumps is blurred like the scan. -/

namespace SimCATS

open Spec

/-- C84 for 1D scans (ascending sweeps; numpy 1, or no index above 255): a pixel with jump `d` shows the value that the same pixel has in the
scan shifted by `d` steps and blurred with the kernel of the original scan. -/
theorem C84_line_partial {τ : Type} (blur : Blur τ) (d : DotJumps (Option ℝ × τ)) {gen : Gen (Option ℝ × τ)} {F : ℝ → ℝ → ℝ × ℝ}
    {L : ℝ → ℝ → ℕ} (h : SampledBy gen F L) (g1 g2 : ℝ × ℝ) (h1 : g1.1 ≤ g1.2) (h2 : g2.1 ≤ g2.2) (n : ℕ) (hn : 0 < n) (noise : List ℕ)
    (hl : noise.length = n) (hnp : d.np2 = true → ∀ x ∈ noise, n + x ≤ 256) (σ : ℝ) (hσ : 0 < σ) (t : τ) (k : ℝ)
    (hk : ∀ f, blurFactor g1 g2 (.d1 n f) = some k) :
    ∃ occ lead, blur.noiseFunction (grid1 F L g1 g2 n) g1 g2 gen true (some σ, t) = (.ok (.d1 n occ, .d1 n lead), (some σ, t)) ∧
      d.noiseFunction (.d1 n occ, .d1 n lead) g1 g2 (behindBlur blur gen) true (⟨some true, some noise⟩, (some σ, t)) =
        (.ok (.d1 n fun p => blurredRow (blur.kernel (σ * k)) (fun q => shifted1d d.axis F g1 g2 n (noise.getD p 0) q) p,
          .d1 n fun p => shifted1d d.axis L g1 g2 n (noise.getD p 0) p), (⟨some true, some noise⟩, (some σ, t))) := by
  let V : ℕ → ℕ → ℝ × ℝ := fun e p => if hp : p < n then
    blurredRow (blur.kernel (σ * k)) (fun q : Fin n => shifted1d d.axis F g1 g2 n e q) ⟨p, hp⟩ else (0, 0)
  have hV : ∀ e (p : Fin n), V e p = blurredRow (blur.kernel (σ * k)) (fun q : Fin n => shifted1d d.axis F g1 g2 n e q) p := by
    intro e p
    simp only [V, p.2, dite_true]
  have happ : ∀ e, blur.apply (grid1 F L (shiftedLims d.axis g1 g2 (borderStep g1 n) e).1 (shiftedLims d.axis g1 g2 (borderStep g1 n) e).2 n)
      (shiftedLims d.axis g1 g2 (borderStep g1 n) e).1 (shiftedLims d.axis g1 g2 (borderStep g1 n) e).2 σ =
      .ok (.d1 n fun p => V e p, .d1 n fun p => shifted1d d.axis L g1 g2 n e p) := by
    intro e
    unfold Blur.apply grid1
    rw [if_pos hσ]
    simp only
    rw [blurFactor_shift (f' := fun _ => (0, 0)), hk]
    simp only [blurScan, shifted_sample, hV]
    rfl
  have h0 : shiftedLims d.axis g1 g2 (borderStep g1 n) 0 = (g1, g2) := by
    unfold shiftedLims
    cases d.axis <;> simp
  refine ⟨fun p => V 0 p, fun p => shifted1d d.axis L g1 g2 n 0 p, ?_, ?_⟩
  · rw [(C34_blur_frozen blur _ g1 g2 gen t).1]
    have := happ 0
    rw [h0] at this
    simp only at this
    rw [this]
  · have hne : noise ≠ [] := by rintro rfl; simp at hl; omega
    obtain ⟨m, hmax, hm⟩ := maxJump_spec noise hne
    rw [frozen_1d]
    unfold DotJumps.run1d
    rw [if_neg (by rintro (h | h) <;> unfold Desc at h <;> linarith)]
    rw [sortLim_asc h1, sortLim_asc h2, M.bind_run,
      apply1d_of d.axis d.np2 d.nan n g1 g2 V (fun e p => shifted1d d.axis L g1 g2 n e p) none (by simp) noise (by omega) m hmax hm
        (fun e _ => hnp e m (maxJump_mem hmax)) _ (fun e _ => behindBlur_run blur (h.one _ _ _ _) (happ e) _)]
    simp only [M.pure_run, hV]

/-- The hypotheses of `C84_line_partial` hold for a sweep of gate 1 over one volt with five pixels and a jump of two pixels. -/
example (d : DotJumps (Option ℝ × Unit)) (F : ℝ → ℝ → ℝ × ℝ) := C84_line_partial (gaussBlur (pure 1)) d (sampleGen_sampled _ F fun _ _ => 0) (0, 1) (0, 0)
  (by norm_num) (by norm_num) 5 (by norm_num) [0, 2, 2, 0, 0] rfl (by simp) 1 one_pos () 5
  (fun f => by
    unfold blurFactor
    dsimp only
    rw [if_neg (by norm_num), if_pos rfl, pxPerVolt_lt (by norm_num)]
    norm_num)

/-! ### Images -/

/-- C84, exact behaviour for images and jumps along gate 1 with a largest jump `m` of at least two pixels (ascending sweeps): a pixel with data from
outside the image is blurred with a width of `sigma * rows / ((m - 1) * step)` pixels instead of `sigma * rows / range`, which is larger by the
factor `cols / (m - 1)`. -/
theorem C84_axis1_actual {τ : Type} (blur : Blur τ) (d : DotJumps (Option ℝ × τ)) (hd : d.axis = .g1) {gen : Gen (Option ℝ × τ)}
    {F : ℝ → ℝ → ℝ × ℝ} {L : ℝ → ℝ → ℕ} (h : SampledBy gen F L) (g1 g2 : ℝ × ℝ) (h1 : g1.1 < g1.2) (h2 : g2.1 ≤ g2.2) (rows cols : ℕ)
    (hr : 2 ≤ rows) (hc : 2 ≤ cols) (noise : List ℕ) (hl : noise.length = cols) (m : ℕ) (hmax : maxJump noise = .ok m) (h1m : 1 < m)
    (σ : ℝ) (hσ : 0 < σ) (t : τ) :
    ∃ occ lead, blur.noiseFunction (grid2 F L g1 g2 rows cols) g1 g2 gen true (some σ, t) = (.ok (.d2 rows cols occ, .d2 rows cols lead), (some σ, t)) ∧
      occ = blurredImage (blur.kernel (σ * (rows / (g1.2 - g1.1)))) F g1 g2 rows cols ∧
      ∃ out, d.noiseFunction (.d2 rows cols occ, .d2 rows cols lead) g1 g2 (behindBlur blur gen) true (⟨some true, some noise⟩, (some σ, t)) =
        (.ok (.d2 rows cols out, .d2 rows cols fun i j => L (jumpVolt g1 cols (noise.getD j 0) j) (sweepVolt g2 rows i)),
          (⟨some true, some noise⟩, (some σ, t))) ∧
      ∀ (i : Fin rows) (j : Fin cols), (∀ _ : noise.getD j 0 ≤ j, out i j = occ i ⟨j - noise.getD j 0, by omega⟩) ∧
        (j < noise.getD j 0 → ∃ p : Fin m, (p : ℕ) = m + j - noise.getD j 0 ∧
          out i j = blurredRow (blur.kernel (σ * (rows / ((m - 1) * ((g1.2 - g1.1) / cols)))))
            (fun q : Fin m => F (g1.1 - ((m : ℝ) - q) * ((g1.2 - g1.1) / cols)) (sweepVolt g2 rows i)) p) := by
  have hm : ∀ j, noise.getD j 0 ≤ m := by
    obtain ⟨m', e, hm⟩ := maxJump_spec noise (by rintro rfl; simp at hl; omega)
    rw [e] at hmax
    cases hmax
    exact hm
  have hst := borderStep_pos h1 (show 0 < cols by omega)
  have hm1 : (1 : ℝ) < m := by exact_mod_cast h1m
  set s := borderStep g1 cols with hs
  have hlt : g1.1 - m * s < g1.1 - s := by nlinarith
  refine ⟨_, _, by rw [(C34_blur_frozen blur _ g1 g2 gen t).1, apply_image blur F L h1 rows cols hσ], rfl, ?_⟩
  let Bv : Fin m → ℕ → ℝ × ℝ := fun p i => blurredRow (blur.kernel (σ * (rows / (g1.1 - s - (g1.1 - m * s)))))
    (fun q : Fin m => F (sweepVolt (g1.1 - m * s, g1.1 - s) m q) (sweepVolt g2 rows i)) p
  have hcall : border2d .g1 (behindBlur blur gen) g1 g2 rows cols m (⟨some true, some noise⟩, (some σ, t)) =
      (.ok (toImg fun (i : Fin rows) (p : Fin m) => Bv p i, toImg fun (i : Fin rows) (p : Fin m) =>
        L (sweepVolt (g1.1 - m * s, g1.1 - s) m p) (sweepVolt g2 rows i)), (⟨some true, some noise⟩, (some σ, t))) := by
    unfold border2d borderCall
    rw [if_neg (by omega)]
    simp only [gt_iff_lt, h1m, if_true]
    rw [M.bind_eq (behindBlur_run blur (h.two _ _ _ _ _ h1m hr) (apply_image blur F L hlt rows m hσ) _)]
    simp only
    rw [M.bind_eq ((ofPy_run _ _).trans (by rw [reshape2_self])), M.bind_eq ((ofPy_run _ _).trans (by rw [reshape2_self]))]
    rfl
  have hlead : ∀ (i : Fin rows) (j : Fin cols), (if noise.getD j 0 ≤ j then L (sweepVolt g1 cols ((j - noise.getD j 0 : ℕ))) (sweepVolt g2 rows i)
      else L (sweepVolt (g1.1 - m * s, g1.1 - s) m (m + j - noise.getD j 0)) (sweepVolt g2 rows i)) =
      L (jumpVolt g1 cols (noise.getD j 0) j) (sweepVolt g2 rows i) := by
    intro i j
    have := hm j
    unfold jumpVolt
    split_ifs with hj
    · rfl
    · rw [border_volt _ _ m h1m, Nat.cast_sub (by omega)]
      push_cast
      congr 1
      rw [hs]
      unfold borderStep
      ring
  have key := frozen_g1_of d hd rows cols (blurredImage (blur.kernel (σ * (rows / (g1.2 - g1.1)))) F g1 g2 rows cols)
      (fun i j => L (sweepVolt g1 cols j) (sweepVolt g2 rows i)) g1 g2 h1.le h2 _ noise (by omega) m hmax hm _ _ _ hcall
      (fun i k => if hj : k < m then Bv ⟨k, hj⟩ i else (0, 0)) (fun i k => L (sweepVolt (g1.1 - m * s, g1.1 - s) m k) (sweepVolt g2 rows i))
      (fun i hi k hk => by dsimp only; rw [toImg_some _ hi hk, dif_pos hk]) (fun i hi k hk => by dsimp only; rw [toImg_some _ hi hk])
  simp only [hlead] at key
  refine ⟨_, key, ?_⟩
  · intro i j
    have := hm j
    refine ⟨fun hj => by rw [if_pos hj], fun hj => ⟨⟨m + j - noise.getD j 0, by omega⟩, rfl, ?_⟩⟩
    rw [if_neg (by omega), dif_pos (by omega)]
    simp only [Bv]
    rw [show g1.1 - s - (g1.1 - m * s) = ((m : ℝ) - 1) * s by ring]
    simp only [border_volt _ _ m h1m]
    rfl

/-- The hypotheses of `C84_axis1_actual` hold for an image of 3 × 4 pixels with jumps of three pixels. -/
example (d : DotJumps (Option ℝ × Unit)) (hd : d.axis = .g1) (F : ℝ → ℝ → ℝ × ℝ) := C84_axis1_actual (gaussBlur (pure 1)) d hd
  (sampleGen_sampled _ F fun _ _ => 0) (0, 1) (0, 2) (by norm_num) (by norm_num) 3 4 (by norm_num) (by norm_num) [0, 3, 3, 0] rfl 3 rfl (by norm_num)
  1 one_pos ()

/-- C84, exact behaviour for images and jumps along gate 1 with a largest jump of one pixel (ascending sweeps): the column from outside the image is
blurred along gate 2 with a width of `sigma * rows / range of gate 2` pixels. -/
theorem C84_axis1_one_actual {τ : Type} (blur : Blur τ) (d : DotJumps (Option ℝ × τ)) (hd : d.axis = .g1) {gen : Gen (Option ℝ × τ)}
    {F : ℝ → ℝ → ℝ × ℝ} {L : ℝ → ℝ → ℕ} (h : SampledBy gen F L) (g1 g2 : ℝ × ℝ) (h1 : g1.1 < g1.2) (h2 : g2.1 < g2.2) (rows cols : ℕ)
    (hr : 2 ≤ rows) (hc : 2 ≤ cols) (noise : List ℕ) (hl : noise.length = cols) (hmax : maxJump noise = .ok 1)
    (σ : ℝ) (hσ : 0 < σ) (t : τ) :
    ∃ occ lead, blur.noiseFunction (grid2 F L g1 g2 rows cols) g1 g2 gen true (some σ, t) = (.ok (.d2 rows cols occ, .d2 rows cols lead), (some σ, t)) ∧
      occ = blurredImage (blur.kernel (σ * (rows / (g1.2 - g1.1)))) F g1 g2 rows cols ∧
      ∃ out, d.noiseFunction (.d2 rows cols occ, .d2 rows cols lead) g1 g2 (behindBlur blur gen) true (⟨some true, some noise⟩, (some σ, t)) =
        (.ok (.d2 rows cols out, .d2 rows cols fun i j => L (jumpVolt g1 cols (noise.getD j 0) j) (sweepVolt g2 rows i)),
          (⟨some true, some noise⟩, (some σ, t))) ∧
      ∀ (i : Fin rows) (j : Fin cols), (∀ _ : noise.getD j 0 ≤ j, out i j = occ i ⟨j - noise.getD j 0, by omega⟩) ∧
        (j < noise.getD j 0 → out i j = blurredRow (blur.kernel (σ * (rows / (g2.2 - g2.1))))
            (fun q : Fin rows => F (g1.1 - (g1.2 - g1.1) / cols) (sweepVolt g2 rows q)) i) := by
  have hm : ∀ j, noise.getD j 0 ≤ 1 := by
    obtain ⟨m', e, hm⟩ := maxJump_spec noise (by rintro rfl; simp at hl; omega)
    rw [e] at hmax
    cases hmax
    exact hm
  set s := borderStep g1 cols with hs
  refine ⟨_, _, by rw [(C34_blur_frozen blur _ g1 g2 gen t).1, apply_image blur F L h1 rows cols hσ], rfl, ?_⟩
  let B : ℕ → ℕ → ℝ × ℝ := fun p _ => if hp : p < rows then blurredRow (blur.kernel (σ * (rows / (g2.2 - g2.1))))
    (fun q : Fin rows => F (g1.1 - s) (sweepVolt g2 rows q)) ⟨p, hp⟩ else (0, 0)
  let BL : ℕ → ℕ → ℕ := fun p _ => L (g1.1 - s) (sweepVolt g2 rows p)
  have hcall : ∃ b, border2d .g1 (behindBlur blur gen) g1 g2 rows cols 1 (⟨some true, some noise⟩, (some σ, t)) =
      (.ok b, (⟨some true, some noise⟩, (some σ, t))) ∧ (∀ i < rows, ∀ k < 1, b.1 i k = some (B i k)) ∧ ∀ i < rows, ∀ k < 1, b.2 i k = some (BL i k) := by
    unfold border2d borderCall
    have hk : ∀ f, blurFactor (g1.1 - ((1 : ℕ) : ℝ) * s, g1.1 - s) g2 (.d1 rows f) = some (rows / (g2.2 - g2.1)) := by
      intro f
      unfold blurFactor
      dsimp only
      rw [if_pos (by simp), pxPerVolt_lt h2]
    simp only [one_ne_zero, gt_iff_lt, lt_irrefl, if_false]
    rw [M.bind_eq (behindBlur_run blur (h.one _ _ _ _) (apply_line blur F L _ g2 rows hσ hk) _)]
    simp only [reshape2, true_and, dite_true]
    refine ⟨_, rfl, fun i hi k hk => ?_, fun i hi k hk => ?_⟩
    · dsimp only
      rw [toImg_some _ hi hk]
      simp [B, hi, sweepVolt_const]
    · dsimp only
      rw [toImg_some _ hi hk]
      simp [BL, sweepVolt_const]
  obtain ⟨b, hb, hB, hBL⟩ := hcall
  have key := frozen_g1_of d hd rows cols (blurredImage (blur.kernel (σ * (rows / (g1.2 - g1.1)))) F g1 g2 rows cols)
      (fun i j => L (sweepVolt g1 cols j) (sweepVolt g2 rows i)) g1 g2 h1.le h2.le _ noise (by omega) 1 hmax hm _ _ _ hb B BL hB hBL
  have hlead : ∀ (i : Fin rows) (j : Fin cols), (if noise.getD j 0 ≤ j then L (sweepVolt g1 cols ((j - noise.getD j 0 : ℕ))) (sweepVolt g2 rows i)
      else BL i (1 + j - noise.getD j 0)) = L (jumpVolt g1 cols (noise.getD j 0) j) (sweepVolt g2 rows i) := by
    intro i j
    have := hm j
    unfold jumpVolt
    split_ifs with hj
    · rfl
    · have h3 : noise.getD j 0 = 1 := by omega
      have h4 : (j : ℕ) = 0 := by omega
      rw [h3, h4]
      simp only [BL, hs]
      unfold borderStep
      norm_num
  simp only [hlead] at key
  refine ⟨_, key, ?_⟩
  intro i j
  refine ⟨fun hj => by rw [if_pos hj], fun hj => ?_⟩
  rw [if_neg (by omega)]
  simp only [B, i.2, dite_true, hs]
  rfl

/-- The hypotheses of `C84_axis1_one_actual` hold for an image of 3 × 4 pixels with a jump of one pixel. -/
example (d : DotJumps (Option ℝ × Unit)) (hd : d.axis = .g1) (F : ℝ → ℝ → ℝ × ℝ) := C84_axis1_one_actual (gaussBlur (pure 1)) d hd
  (sampleGen_sampled _ F fun _ _ => 0) (0, 1) (0, 2) (by norm_num) (by norm_num) 3 4 (by norm_num) (by norm_num) [1, 1, 0, 0] rfl rfl 1 one_pos ()

/-- C84, exact behaviour for images and jumps along gate 2 (ascending sweeps): each pixel shows the row at the voltage `jumpVolt` of gate 2, blurred along
gate 1.  Rows from outside the image are blurred with a width of `sigma * m / range` pixels for a largest jump `m` of at least two pixels
and of `sigma * cols / range` pixels for a largest jump of one pixel, instead of `sigma * rows / range`. -/
theorem C84_axis0_actual {τ : Type} (blur : Blur τ) (d : DotJumps (Option ℝ × τ)) (hd : d.axis = .g2) {gen : Gen (Option ℝ × τ)}
    {F : ℝ → ℝ → ℝ × ℝ} {L : ℝ → ℝ → ℕ} (h : SampledBy gen F L) (g1 g2 : ℝ × ℝ) (h1 : g1.1 < g1.2) (h2 : g2.1 ≤ g2.2) (rows cols : ℕ)
    (hr : 2 ≤ rows) (hc : 2 ≤ cols) (noise : List ℕ) (hl : noise.length = rows) (m : ℕ) (hmax : maxJump noise = .ok m)
    (σ : ℝ) (hσ : 0 < σ) (t : τ) :
    ∃ occ lead, blur.noiseFunction (grid2 F L g1 g2 rows cols) g1 g2 gen true (some σ, t) = (.ok (.d2 rows cols occ, .d2 rows cols lead), (some σ, t)) ∧
      occ = blurredImage (blur.kernel (σ * (rows / (g1.2 - g1.1)))) F g1 g2 rows cols ∧
      d.noiseFunction (.d2 rows cols occ, .d2 rows cols lead) g1 g2 (behindBlur blur gen) true (⟨some true, some noise⟩, (some σ, t)) =
        (.ok (.d2 rows cols fun i j => blurredRow (blur.kernel (σ * ((if noise.getD i 0 ≤ i then (rows : ℝ) else if m = 1 then (cols : ℝ) else (m : ℝ)) / (g1.2 - g1.1))))
            (fun q : Fin cols => F (sweepVolt g1 cols q) (jumpVolt g2 rows (noise.getD i 0) i)) j,
          .d2 rows cols fun i j => L (sweepVolt g1 cols j) (jumpVolt g2 rows (noise.getD i 0) i)),
          (⟨some true, some noise⟩, (some σ, t))) := by
  have hm : ∀ j, noise.getD j 0 ≤ m := by
    obtain ⟨m', e, hm⟩ := maxJump_spec noise (by rintro rfl; simp at hl; omega)
    rw [e] at hmax
    cases hmax
    exact hm
  set s := borderStep g2 rows with hs
  refine ⟨_, _, by rw [(C34_blur_frozen blur _ g1 g2 gen t).1, apply_image blur F L h1 rows cols hσ], rfl, ?_⟩
  let B : ℕ → ℕ → ℝ × ℝ := fun k p => if hp : p < cols then blurredRow (blur.kernel (σ * ((if m = 1 then (cols : ℝ) else (m : ℝ)) / (g1.2 - g1.1))))
    (fun q : Fin cols => F (sweepVolt g1 cols q) (g2.1 - ((m : ℝ) - k) * s)) ⟨p, hp⟩ else (0, 0)
  let BL : ℕ → ℕ → ℕ := fun k p => L (sweepVolt g1 cols p) (g2.1 - ((m : ℝ) - k) * s)
  have hcall : ∃ b, border2d .g2 (behindBlur blur gen) g1 g2 rows cols m (⟨some true, some noise⟩, (some σ, t)) =
      (.ok b, (⟨some true, some noise⟩, (some σ, t))) ∧ (∀ k < m, ∀ j < cols, b.1 k j = some (B k j)) ∧ ∀ k < m, ∀ j < cols, b.2 k j = some (BL k j) := by
    unfold border2d borderCall
    by_cases hm0 : m = 0
    · rw [if_pos hm0]
      exact ⟨_, rfl, fun k hk => by omega, fun k hk => by omega⟩
    rw [if_neg hm0]
    by_cases h1m : 1 < m
    · simp only [gt_iff_lt, h1m, if_true]
      rw [M.bind_eq (behindBlur_run blur (h.two _ _ _ _ _ hc h1m) (apply_image blur F L h1 m cols hσ) _)]
      simp only
      rw [M.bind_eq ((ofPy_run _ _).trans (by rw [reshape2_self])), M.bind_eq ((ofPy_run _ _).trans (by rw [reshape2_self]))]
      refine ⟨_, rfl, fun k hk j hj => ?_, fun k hk j hj => ?_⟩
      · dsimp only
        rw [toImg_some _ hk hj]
        simp only [B, hj, dite_true, if_neg (show m ≠ 1 by omega), blurredImage, ← border_volt _ _ m h1m, hs]
      · dsimp only
        rw [toImg_some _ hk hj]
        simp only [BL, ← border_volt _ _ m h1m, hs]
    · have : m = 1 := by omega
      subst this
      have hk : ∀ f, blurFactor g1 (g2.1 - ((1 : ℕ) : ℝ) * s, g2.1 - s) (.d1 cols f) = some (cols / (g1.2 - g1.1)) := by
        intro f
        unfold blurFactor
        dsimp only
        rw [if_neg h1.ne, if_pos (by simp), pxPerVolt_lt h1]
      simp only [gt_iff_lt, lt_irrefl, if_false]
      rw [M.bind_eq (behindBlur_run blur (h.one _ _ _ _) (apply_line blur F L g1 _ cols hσ hk) _)]
      have hc' : ¬ (1 = cols ∧ cols = 1) := by omega
      simp only [reshape2, hc', dite_false, and_true, dite_true]
      refine ⟨_, rfl, fun k hk j hj => ?_, fun k hk j hj => ?_⟩
      · dsimp only
        rw [toImg_some _ hk hj]
        have : k = 0 := by omega
        subst this
        simp [B, hj, sweepVolt_const]
      · dsimp only
        rw [toImg_some _ hk hj]
        have : k = 0 := by omega
        subst this
        simp [BL, sweepVolt_const]
  obtain ⟨b, hb, hB, hBL⟩ := hcall
  rw [frozen_g2_of d hd rows cols (blurredImage (blur.kernel (σ * (rows / (g1.2 - g1.1)))) F g1 g2 rows cols)
      (fun i j => L (sweepVolt g1 cols j) (sweepVolt g2 rows i)) g1 g2 h1.le h2 _ noise (by omega) m hmax hm _ _ _ hb B BL hB hBL]
  have hv : ∀ i : Fin rows, ¬ noise.getD i 0 ≤ i → g2.1 - ((m : ℝ) - (m + i - noise.getD i 0 : ℕ)) * s = jumpVolt g2 rows (noise.getD i 0) i := by
    intro i hi
    have := hm i
    unfold jumpVolt
    rw [if_neg hi, Nat.cast_sub (by omega), hs]
    unfold borderStep
    push_cast
    ring
  refine congrArg₂ (fun x y => (Except.ok (Scan.d2 rows cols x, Scan.d2 rows cols y), _)) ?_ ?_ <;> funext i j <;> by_cases hi : noise.getD i 0 ≤ i
  · simp only [if_pos hi, blurredImage, jumpVolt]
  · simp only [if_neg hi, B, hv i hi, j.2, dite_true]
  · simp only [if_pos hi, jumpVolt]
  · simp only [if_neg hi, BL, hv i hi]

/-- The hypotheses of `C84_axis0_actual` hold for an image of 3 × 4 pixels with jumps of two pixels. -/
example (d : DotJumps (Option ℝ × Unit)) (hd : d.axis = .g2) (F : ℝ → ℝ → ℝ × ℝ) := C84_axis0_actual (gaussBlur (pure 1)) d hd
  (sampleGen_sampled _ F fun _ _ => 0) (0, 1) (0, 2) (by norm_num) (by norm_num) 3 4 (by norm_num) (by norm_num) [0, 2, 2] rfl 2 rfl 1 one_pos ()

/-- C84 for jumps of at most one pixel along gate 2 in a square image: all pixels are blurred alike. -/
theorem C84_image_partial {τ : Type} (blur : Blur τ) (d : DotJumps (Option ℝ × τ)) (hd : d.axis = .g2) {gen : Gen (Option ℝ × τ)}
    {F : ℝ → ℝ → ℝ × ℝ} {L : ℝ → ℝ → ℕ} (h : SampledBy gen F L) (g1 g2 : ℝ × ℝ) (h1 : g1.1 < g1.2) (h2 : g2.1 ≤ g2.2) (n : ℕ)
    (hn : 2 ≤ n) (noise : List ℕ) (hl : noise.length = n) (hm : ∀ x ∈ noise, x ≤ 1) (σ : ℝ) (hσ : 0 < σ) (t : τ) :
    ∃ occ lead, blur.noiseFunction (grid2 F L g1 g2 n n) g1 g2 gen true (some σ, t) = (.ok (.d2 n n occ, .d2 n n lead), (some σ, t)) ∧
      occ = blurredImage (blur.kernel (σ * (n / (g1.2 - g1.1)))) F g1 g2 n n ∧
      d.noiseFunction (.d2 n n occ, .d2 n n lead) g1 g2 (behindBlur blur gen) true (⟨some true, some noise⟩, (some σ, t)) =
        (.ok (.d2 n n fun i j => blurredRow (blur.kernel (σ * (n / (g1.2 - g1.1))))
            (fun q : Fin n => F (sweepVolt g1 n q) (jumpVolt g2 n (noise.getD i 0) i)) j,
          .d2 n n fun i j => L (sweepVolt g1 n j) (jumpVolt g2 n (noise.getD i 0) i)), (⟨some true, some noise⟩, (some σ, t))) := by
  obtain ⟨m, hmax, hle⟩ := maxJump_spec noise (by rintro rfl; simp at hl; omega)
  have hm1 := hm m (maxJump_mem hmax)
  obtain ⟨occ, lead, e, ho, hrun⟩ := C84_axis0_actual blur d hd h g1 g2 h1 h2 n n hn hn noise hl m hmax σ hσ t
  refine ⟨occ, lead, e, ho, hrun.trans ?_⟩
  have hk : ∀ i : Fin n, (if noise.getD i 0 ≤ i then (n : ℝ) else if m = 1 then (n : ℝ) else (m : ℝ)) = n := by
    intro i
    have := hle i
    split_ifs with h1 h2
    · rfl
    · rfl
    · exact absurd (show noise.getD i 0 ≤ i by omega) h1
  simp only [hk]

/-- The hypotheses of `C84_image_partial` hold for an image of 3 × 3 pixels with jumps of one pixel. -/
example (d : DotJumps (Option ℝ × Unit)) (hd : d.axis = .g2) (F : ℝ → ℝ → ℝ × ℝ) := C84_image_partial (gaussBlur (pure 1)) d hd
  (sampleGen_sampled _ F fun _ _ => 0) (0, 1) (0, 2) (by norm_num) (by norm_num) 3 (by norm_num) [1, 1, 0] rfl (by simp) 1 one_pos ()

/-- C84 does not hold for images and jumps along gate 1: in an image of 2 × 2 pixels with a narrow Gaussian blurring, which leaves the image as it
is, the data from outside the image is blurred. -/
theorem C84_axis1_refuted : ∃ (F : ℝ → ℝ → ℝ × ℝ) (L : ℝ → ℝ → ℕ) (σ : ℝ), 0 < σ ∧ ∀ (d : DotJumps (Option ℝ × Unit)), d.axis = .g1 →
    ∃ occ lead out lead', (gaussBlur (pure σ)).noiseFunction (grid2 F L (0, 1) (0, 1) 2 2) (0, 1) (0, 1) (sampleGen _ F L) true (some σ, ()) =
        (.ok (.d2 2 2 occ, .d2 2 2 lead), (some σ, ())) ∧
      (∀ i j, BlurredAt (gaussKernel (σ * 2)) F (sweepVolt (0, 1) 2 (j : Fin 2)) (sweepVolt (0, 1) 2 (i : Fin 2)) (occ i j)) ∧
      d.noiseFunction (.d2 2 2 occ, .d2 2 2 lead) (0, 1) (0, 1) (behindBlur (gaussBlur (pure σ)) (sampleGen _ F L)) true
          (⟨some true, some [2, 0]⟩, (some σ, ())) =
        (.ok (.d2 2 2 out, .d2 2 2 lead'), (⟨some true, some [2, 0]⟩, (some σ, ()))) ∧
      ¬ BlurredAt (gaussKernel (σ * 2)) F (jumpVolt (0, 1) 2 2 0) (sweepVolt (0, 1) 2 0) (out 0 0) := by
  let F : ℝ → ℝ → ℝ × ℝ := fun v _ => if v < -3 / 4 then (0, 0) else (1, 0)
  have hr : (gaussKernel ((1 / 20) * 2)).radius = 0 := gauss_radius (by norm_num) (by norm_num)
  have hr1 : (gaussKernel (1 / 5)).radius = 1 := gauss_radius (by norm_num) (by norm_num)
  refine ⟨F, fun _ _ => 0, 1 / 20, by norm_num, fun d hd => ?_⟩
  obtain ⟨occ, lead, e, ho, out, hrun, hpix⟩ := C84_axis1_actual (gaussBlur (pure (1 / 20))) d hd (sampleGen_sampled _ F fun _ _ => 0) (0, 1) (0, 1)
    (by norm_num) (by norm_num) 2 2 le_rfl le_rfl [2, 0] rfl 2 rfl (by norm_num) (1 / 20) (by norm_num) ()
  refine ⟨occ, lead, out, _, e, ?_, hrun, ?_⟩
  · intro i j
    have hk : (gaussBlur (τ := Unit) (pure (1 / 20))).kernel (1 / 20 * (((2 : ℕ) : ℝ) / (((0 : ℝ), (1 : ℝ)).2 - ((0 : ℝ), (1 : ℝ)).1))) = gaussKernel ((1 / 20) * 2) := by
      unfold gaussBlur
      norm_num
    rw [ho, hk]
    unfold BlurredAt blurredImage blurredRow
    refine ⟨1, 0, 0, ?_⟩
    simp only [convolve_radius0 gaussKernel_weights hr, mul_zero, add_zero]
  · obtain ⟨p, hp, hx⟩ := (hpix 0 0).2 (by simp)
    have hk : (gaussBlur (τ := Unit) (pure (1 / 20))).kernel (1 / 20 * (((2 : ℕ) : ℝ) / ((((2 : ℕ) : ℝ) - 1) * ((((0 : ℝ), (1 : ℝ)).2 - ((0 : ℝ), (1 : ℝ)).1) / ((2 : ℕ) : ℝ))))) =
        gaussKernel (1 / 5) := by
      unfold gaussBlur
      norm_num
    rw [hk] at hx
    have hp0 : p = 0 := Fin.ext (by simpa using hp)
    subst hp0
    rintro ⟨n, step, q, hy⟩
    simp only [convolve_radius0 gaussKernel_weights hr] at hy
    rw [hx] at hy
    have h1 := congrArg Prod.fst hy
    unfold blurredRow convolve at h1
    rw [hr1, sum_radius1] at h1
    simp [F, jumpVolt, reflectIdx] at h1
    norm_num at h1
    have := gauss_pos (1 / 5) (-1)
    linarith

/-- C84 does not hold for images and jumps along gate 2: in an image of 3 × 3 pixels the rows of the image are blurred, the rows from outside the image
are not. -/
theorem C84_axis0_refuted : ∃ (F : ℝ → ℝ → ℝ × ℝ) (L : ℝ → ℝ → ℕ) (σ : ℝ), 0 < σ ∧ ∀ (d : DotJumps (Option ℝ × Unit)), d.axis = .g2 →
    ∃ occ lead out lead', (gaussBlur (pure σ)).noiseFunction (grid2 F L (0, 1) (0, 1) 3 3) (0, 1) (0, 1) (sampleGen _ F L) true (some σ, ()) =
        (.ok (.d2 3 3 occ, .d2 3 3 lead), (some σ, ())) ∧
      (occ = blurredImage (gaussKernel (σ * 3)) F (0, 1) (0, 1) 3 3) ∧
      d.noiseFunction (.d2 3 3 occ, .d2 3 3 lead) (0, 1) (0, 1) (behindBlur (gaussBlur (pure σ)) (sampleGen _ F L)) true
          (⟨some true, some [2, 0, 0]⟩, (some σ, ())) =
        (.ok (.d2 3 3 out, .d2 3 3 lead'), (⟨some true, some [2, 0, 0]⟩, (some σ, ()))) ∧
      out 0 1 ≠ blurredRow (gaussKernel (σ * 3)) (fun q : Fin 3 => F (sweepVolt (0, 1) 3 q) (jumpVolt (0, 1) 3 2 0)) 1 := by
  let F : ℝ → ℝ → ℝ × ℝ := fun v _ => if v < 1 / 4 then (0, 0) else (1, 0)
  have hr : (gaussKernel ((1 / 20) * 3)).radius = 1 := gauss_radius (by norm_num) (by norm_num)
  have hr1 : (gaussKernel (1 / 10)).radius = 0 := gauss_radius (by norm_num) (by norm_num)
  refine ⟨F, fun _ _ => 0, 1 / 20, by norm_num, fun d hd => ?_⟩
  obtain ⟨occ, lead, e, ho, hrun⟩ := C84_axis0_actual (gaussBlur (pure (1 / 20))) d hd (sampleGen_sampled _ F fun _ _ => 0) (0, 1) (0, 1)
    (by norm_num) (by norm_num) 3 3 (by norm_num) (by norm_num) [2, 0, 0] rfl 2 rfl (1 / 20) (by norm_num) ()
  refine ⟨occ, lead, _, _, e, ?_, hrun, ?_⟩
  · rw [ho]
    unfold gaussBlur
    norm_num
  · have hk : (gaussBlur (τ := Unit) (pure (1 / 20))).kernel (1 / 20 * ((if [2, 0, 0].getD ((0 : Fin 3) : ℕ) 0 ≤ ((0 : Fin 3) : ℕ) then ((3 : ℕ) : ℝ)
        else if 2 = 1 then ((3 : ℕ) : ℝ) else ((2 : ℕ) : ℝ)) / (((0 : ℝ), (1 : ℝ)).2 - ((0 : ℝ), (1 : ℝ)).1))) = gaussKernel (1 / 10) := by
      unfold gaussBlur
      norm_num
    rw [hk]
    intro hy
    have h1 := congrArg Prod.fst hy
    unfold blurredRow at h1
    simp only at h1
    rw [convolve_radius0 gaussKernel_weights hr1] at h1
    have hw := (gaussKernel_weights (σ := 1 / 20 * 3)).sum
    unfold convolve at h1
    rw [hr, sum_radius1] at h1
    rw [hr, sum_radius1] at hw
    have := gauss_pos (1 / 20 * 3) 1
    simp [F, sweepVolt, reflectIdx] at h1
    norm_num at h1 hw
    linarith

end SimCATS
