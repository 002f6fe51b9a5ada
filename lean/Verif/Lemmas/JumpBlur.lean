import Verif.Spec.JumpBlur
import Verif.Props.Blur
import Verif.Props.DotJumpsScan
import Verif.Lemmas.DefaultNoise

/-! Dot jumps with an arbitrary generator for the data outside the scan. -/

namespace SimCATS

open Spec

/-- The stacked image of a 1D scan for a generator that gives the scans `V d`, `W d` for the shifted ranges. -/
theorem border1d_of {σ : Type} {gen : Gen σ} (axis : Axis) (g1 g2 : ℝ × ℝ) (n : ℕ) (V : ℕ → ℕ → ℝ × ℝ) (W : ℕ → ℕ → ℕ) (s : σ)
    (h : ∀ d, 0 < d → gen (shiftedLims axis g1 g2 (borderStep g1 n) d).1 (shiftedLims axis g1 g2 (borderStep g1 n) d).2 (.int n) s =
      (.ok (.d1 n fun p => V d p, .d1 n fun p => W d p), s)) :
    ∀ (todo i : ℕ) (o : ℕ → ℕ → Option (ℝ × ℝ)) (l : ℕ → ℕ → Option ℕ), Stacked axis n i V o → Stacked axis n i W l →
      ∃ b, border1d axis gen g1 g2 n todo i o l s = (.ok b, s) ∧ Stacked axis n (i + todo) V b.1 ∧
        Stacked axis n (i + todo) W b.2 := by
  intro todo
  induction todo with
  | zero => intro i o l ho hl; exact ⟨_, rfl, ho, hl⟩
  | succ todo ih =>
    intro i o l ho hl
    have e : i + (todo + 1) = (i + 1) + todo := by omega
    rw [e]
    unfold border1d
    have hd := h (i + 1) (by omega)
    unfold shiftedLims at hd
    push_cast at hd
    cases axis <;> simp only at hd ⊢ <;> rw [M.bind_run, hd] <;> simp only <;> rw [M.bind_run, ofPy_run] <;>
      simp only [as1d, dite_true] <;> rw [M.bind_run, ofPy_run] <;> simp only <;> apply ih
    · exact ⟨ho.1.step _ fun p => rfl, ho.2.step _⟩
    · exact ⟨hl.1.step _ fun p => rfl, hl.2.step _⟩
    · exact ⟨ho.1.step _ fun p => rfl, ho.2.step _⟩
    · exact ⟨hl.1.step _ fun p => rfl, hl.2.step _⟩

theorem diag_stack {α : Type} (axis : Axis) (n : ℕ) (V : ℕ → ℕ → α) : Stacked axis n 0 V (diagImg fun p : Fin n => V 0 p) := by
  refine ⟨?_, .diag axis _⟩
  intro p hp d hd
  have : d = 0 := by omega
  subst this
  cases axis <;> simp [diagImg, hp]

/-- Result of `apply1d` for a generator that gives the scans `V d`, `W d` for the shifted ranges. -/
theorem apply1d_of {σ : Type} {gen : Gen σ} (axis : Axis) (np2 : Bool) (nan : ℝ) (n : ℕ) (g1 g2 : ℝ × ℝ) (V : ℕ → ℕ → ℝ × ℝ) (W : ℕ → ℕ → ℕ)
    (scale : Option ℝ) (hs : scale ≠ some 0) (noise : List ℕ) (hn : n ≤ noise.length) (m : ℕ) (hmax : maxJump noise = .ok m)
    (hm : ∀ j, noise.getD j 0 ≤ m) (hnp : np2 = true → m > 0 → n + m ≤ 256) (s : σ)
    (h : ∀ d, 0 < d → gen (shiftedLims axis g1 g2 (borderStep g1 n) d).1 (shiftedLims axis g1 g2 (borderStep g1 n) d).2 (.int n) s =
      (.ok (.d1 n fun p => V d p, .d1 n fun p => W d p), s)) :
    apply1d axis np2 nan n (fun p : Fin n => V 0 p) (fun p : Fin n => W 0 p) g1 g2 gen scale noise s =
      (.ok (fun p => V (noise.getD p 0) p, fun p => W (noise.getD p 0) p), s) := by
  obtain ⟨b, hb, hb1, hb2⟩ := border1d_of axis g1 g2 n V W s h m 0 _ _ (diag_stack axis n V) (diag_stack axis n W)
  rw [Nat.zero_add] at hb1 hb2
  obtain ⟨s1, r1, e1, f1, v1⟩ := readDiag_shift axis np2 n m scale hs _ _ hb1.1.chan1 noise hn hm hnp
  obtain ⟨s2, r2, e2, f2, v2⟩ := readDiag_shift axis np2 n m scale hs _ _ hb1.1.chan2 noise hn hm hnp
  obtain ⟨s3, r3, e3, f3, v3⟩ := readDiag_shift axis false n m scale hs _ _ hb2.1 noise hn hm (by simp)
  unfold apply1d
  rw [M.bind_run, ofPy_run, hmax]; simp only
  rw [M.bind_run, hb]; simp only
  rw [M.bind_run, ofPy_run, e1]; simp only
  rw [M.bind_run, ofPy_run, e2]; simp only
  rw [M.bind_run, ofPy_run, f1]; simp only
  rw [M.bind_run, ofPy_run, f2]; simp only
  rw [M.bind_run, ofPy_run, e3]; simp only
  rw [M.bind_run, ofPy_run, f3]; simp only
  rw [M.pure_run]
  refine congrArg (fun x => (Except.ok x, s)) (Prod.ext ?_ ?_)
  · funext p
    simp [v1, v2]
  · funext p
    simp [v3]

theorem maxJump_mem {noise : List ℕ} {m : ℕ} (h : maxJump noise = .ok m) : m ∈ noise := by
  cases noise with
  | nil => exact nomatch h
  | cons x xs =>
    cases h
    induction xs generalizing x with
    | nil => simp
    | cons y ys ih =>
      have := ih (max x y)
      simp only [List.foldl_cons, List.mem_cons] at this ⊢
      rcases this with h | h
      · rcases max_choice x y with e | e <;> rw [e] at h ⊢ <;> simp [h]
      · exact .inr (.inr h)

/-- A scan behind the blurring. -/
theorem behindBlur_run {τ : Type} (blur : Blur τ) {gen : Gen (Option ℝ × τ)} {v1 v2 : ℝ × ℝ} {res : Resolution} {σ : ℝ} {t : τ} {data out : CsdData}
    (h : gen v1 v2 res (some σ, t) = (.ok data, (some σ, t))) (hb : blur.apply data v1 v2 σ = .ok out) (q : DotState) :
    behindBlur blur gen v1 v2 res (q, (some σ, t)) = (.ok out, (q, (some σ, t))) := by
  unfold behindBlur
  refine onRest_eq ?_ q
  unfold withNoise
  rw [M.bind_run, h]
  simp only
  rw [(C34_blur_frozen blur data v1 v2 gen t).1, hb]

theorem pxPerVolt_shift (n : ℕ) (g : ℝ × ℝ) (x : ℝ) : pxPerVolt n (g.1 - x, g.2 - x) = pxPerVolt n g := by
  unfold pxPerVolt
  simp only [max_sub_sub_right, min_sub_sub_right, sub_sub_sub_cancel_right]

theorem pxPerVolt_lt {n : ℕ} {g : ℝ × ℝ} (h : g.1 < g.2) : pxPerVolt n g = some (n / (g.2 - g.1)) := by
  unfold pxPerVolt
  rw [max_eq_right h.le, min_eq_left h.le, if_neg (by linarith)]

theorem blurFactor_shift (axis : Axis) (g1 g2 : ℝ × ℝ) (step : ℝ) (d n : ℕ) (f f' : Fin n → ℝ × ℝ) :
    blurFactor (shiftedLims axis g1 g2 step d).1 (shiftedLims axis g1 g2 step d).2 (.d1 n f) = blurFactor g1 g2 (.d1 n f') := by
  unfold blurFactor shiftedLims
  cases axis <;> simp only [pxPerVolt_shift, sub_left_inj]

theorem shifted_sample {α : Type} (axis : Axis) (F : ℝ → ℝ → α) (g1 g2 : ℝ × ℝ) (n d p : ℕ) :
    F (sweepVolt (shiftedLims axis g1 g2 (borderStep g1 n) d).1 n p) (sweepVolt (shiftedLims axis g1 g2 (borderStep g1 n) d).2 n p) =
      shifted1d axis F g1 g2 n d p := by
  unfold shiftedLims shifted1d
  cases axis <;> simp only [sweepVolt_sub]

theorem apply_image {τ : Type} (blur : Blur τ) (F : ℝ → ℝ → ℝ × ℝ) (L : ℝ → ℝ → ℕ) {g1 g2 : ℝ × ℝ} (h1 : g1.1 < g1.2) (r c : ℕ) {σ : ℝ}
    (hσ : 0 < σ) : blur.apply (grid2 F L g1 g2 r c) g1 g2 σ =
      .ok (.d2 r c (blurredImage (blur.kernel (σ * (r / (g1.2 - g1.1)))) F g1 g2 r c),
        .d2 r c fun i j => L (sweepVolt g1 c j) (sweepVolt g2 r i)) := by
  unfold Blur.apply grid2
  rw [if_pos hσ]
  simp only [blurFactor, pxPerVolt_lt h1]
  rfl

theorem apply_line {τ : Type} (blur : Blur τ) (F : ℝ → ℝ → ℝ × ℝ) (L : ℝ → ℝ → ℕ) (g1 g2 : ℝ × ℝ) (n : ℕ) {σ k : ℝ} (hσ : 0 < σ)
    (hk : ∀ f, blurFactor g1 g2 (.d1 n f) = some k) : blur.apply (grid1 F L g1 g2 n) g1 g2 σ =
      .ok (.d1 n fun p => blurredRow (blur.kernel (σ * k)) (fun q : Fin n => F (sweepVolt g1 n q) (sweepVolt g2 n q)) p,
        .d1 n fun p => L (sweepVolt g1 n p) (sweepVolt g2 n p)) := by
  unfold Blur.apply grid1
  rw [if_pos hσ]
  simp only [hk]
  rfl

/-- The voltages of the border. -/
theorem border_volt (a s : ℝ) (m : ℕ) (hm : 1 < m) (k : ℕ) : sweepVolt (a - m * s, a - s) m k = a - ((m : ℝ) - k) * s := by
  have hm' : (m : ℝ) - 1 ≠ 0 := by
    have : (1 : ℝ) < m := by exact_mod_cast hm
    linarith
  unfold sweepVolt
  rw [if_neg (by omega)]
  field_simp
  ring

theorem borderStep_pos {g : ℝ × ℝ} {n : ℕ} (h : g.1 < g.2) (hn : 0 < n) : 0 < borderStep g n := by
  unfold borderStep
  have : (0 : ℝ) < n := by exact_mod_cast hn
  exact div_pos (by linarith) this

/-- A frozen distortion with jumps along gate 1 in an image, given the border `B`, `BL`. -/
theorem frozen_g1_of {τ : Type} (d : DotJumps τ) (hd : d.axis = .g1) (rows cols : ℕ) (occ : Fin rows → Fin cols → ℝ × ℝ)
    (lead : Fin rows → Fin cols → ℕ) (g1 g2 : ℝ × ℝ) (h1 : g1.1 ≤ g1.2) (h2 : g2.1 ≤ g2.2) (gen : Gen (DotState × τ)) (noise : List ℕ)
    (hl : cols ≤ noise.length) (m : ℕ) (hmax : maxJump noise = .ok m) (hm : ∀ j, noise.getD j 0 ≤ m) (t t' : τ)
    (b : (ℕ → ℕ → Option (ℝ × ℝ)) × (ℕ → ℕ → Option ℕ))
    (hb : border2d .g1 gen g1 g2 rows cols m (⟨some true, some noise⟩, t) = (.ok b, (⟨some true, some noise⟩, t')))
    (B : ℕ → ℕ → ℝ × ℝ) (BL : ℕ → ℕ → ℕ) (hB : ∀ i < rows, ∀ k < m, b.1 i k = some (B i k))
    (hBL : ∀ i < rows, ∀ k < m, b.2 i k = some (BL i k)) :
    d.noiseFunction (.d2 rows cols occ, .d2 rows cols lead) g1 g2 gen true (⟨some true, some noise⟩, t) =
      (.ok (.d2 rows cols fun i j => if noise.getD j 0 ≤ j then occ i ⟨j - noise.getD j 0, by omega⟩ else B i (m + j - noise.getD j 0),
        .d2 rows cols fun i j => if noise.getD j 0 ≤ j then lead i ⟨j - noise.getD j 0, by omega⟩ else BL i (m + j - noise.getD j 0)),
        (⟨some true, some noise⟩, t')) := by
  rw [frozen_2d]
  unfold DotJumps.run2d
  simp only [flip2d_asc (not_lt.mpr h1) (not_lt.mpr h2), sortLim_asc h1, sortLim_asc h2]
  rw [hd, M.bind_run, apply2d_g1 _ _ _ _ _ _ _ _ _ (by simp) _ hl m hmax hm _ _ _ hb B BL hB hBL]
  rfl

/-- A frozen distortion with jumps along gate 2 in an image, given the border `B`, `BL`. -/
theorem frozen_g2_of {τ : Type} (d : DotJumps τ) (hd : d.axis = .g2) (rows cols : ℕ) (occ : Fin rows → Fin cols → ℝ × ℝ)
    (lead : Fin rows → Fin cols → ℕ) (g1 g2 : ℝ × ℝ) (h1 : g1.1 ≤ g1.2) (h2 : g2.1 ≤ g2.2) (gen : Gen (DotState × τ)) (noise : List ℕ)
    (hl : rows ≤ noise.length) (m : ℕ) (hmax : maxJump noise = .ok m) (hm : ∀ j, noise.getD j 0 ≤ m) (t t' : τ)
    (b : (ℕ → ℕ → Option (ℝ × ℝ)) × (ℕ → ℕ → Option ℕ))
    (hb : border2d .g2 gen g1 g2 rows cols m (⟨some true, some noise⟩, t) = (.ok b, (⟨some true, some noise⟩, t')))
    (B : ℕ → ℕ → ℝ × ℝ) (BL : ℕ → ℕ → ℕ) (hB : ∀ k < m, ∀ j < cols, b.1 k j = some (B k j))
    (hBL : ∀ k < m, ∀ j < cols, b.2 k j = some (BL k j)) :
    d.noiseFunction (.d2 rows cols occ, .d2 rows cols lead) g1 g2 gen true (⟨some true, some noise⟩, t) =
      (.ok (.d2 rows cols fun i j => if noise.getD i 0 ≤ i then occ ⟨i - noise.getD i 0, by omega⟩ j else B (m + i - noise.getD i 0) j,
        .d2 rows cols fun i j => if noise.getD i 0 ≤ i then lead ⟨i - noise.getD i 0, by omega⟩ j else BL (m + i - noise.getD i 0) j),
        (⟨some true, some noise⟩, t')) := by
  rw [frozen_2d]
  unfold DotJumps.run2d
  simp only [flip2d_asc (not_lt.mpr h1) (not_lt.mpr h2), sortLim_asc h1, sortLim_asc h2]
  rw [hd, M.bind_run, apply2d_g2 _ _ _ _ _ _ _ _ _ (by simp) _ hl m hmax hm _ _ _ hb B BL hB hBL]
  rfl

theorem gauss_radius {s : ℝ} {r : ℕ} (h1 : r ≤ 4 * s + 1 / 2) (h2 : 4 * s + 1 / 2 < r + 1) : (gaussKernel s).radius = r := by
  unfold gaussKernel normalized
  simp only
  have : ⌊4 * s + 1 / 2⌋ = (r : ℤ) := by
    rw [Int.floor_eq_iff]
    push_cast
    exact ⟨h1, h2⟩
  rw [this]
  rfl

theorem convolve_radius0 {n : ℕ} {K : Kernel} (hK : K.Weights) (h : K.radius = 0) (f : Fin n → ℝ) (p : Fin n) : convolve K f p = f p := by
  have h1 := hK.sum
  unfold convolve
  rw [h] at h1 ⊢
  simp only [Nat.cast_zero, neg_zero, Finset.Icc_self, Finset.sum_singleton, sub_zero] at h1 ⊢
  rw [h1, one_mul]
  congr 1
  exact Fin.ext (reflectIdx_self p.2)

theorem gauss_pos (s : ℝ) (k : ℤ) : 0 < (gaussKernel s).w k := by
  unfold gaussKernel normalized
  simp only
  refine div_pos (Real.exp_pos _) (Finset.sum_pos (fun _ _ => Real.exp_pos _) ⟨0, by simp⟩)

theorem sum_radius1 (f : ℤ → ℝ) : ∑ k ∈ Finset.Icc (-((1 : ℕ) : ℤ)) ((1 : ℕ) : ℤ), f k = f (-1) + f 0 + f 1 := by
  rw [show Finset.Icc (-((1 : ℕ) : ℤ)) ((1 : ℕ) : ℤ) = {-1, 0, 1} by decide]
  rw [Finset.sum_insert (by decide), Finset.sum_insert (by decide), Finset.sum_singleton]
  ring

end SimCATS
