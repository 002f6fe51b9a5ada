import Verif.Spec.JumpScans
import Verif.Lemmas.JumpBlur
import Verif.Lemmas.ExtendedConfig

/-! Dot jumps in 1D scans of any direction. -/

namespace SimCATS

open Spec

theorem reflectIdx_rev {n : ℕ} (hn : 0 < n) (k : ℤ) : reflectIdx n ((n : ℤ) - 1 - k) = n - 1 - reflectIdx n k := by
  have h1 := Int.emod_nonneg k (show (2 * n : ℤ) ≠ 0 by omega)
  have h2 := Int.emod_lt_of_pos k (show (0 : ℤ) < 2 * n by omega)
  have h3 := Int.emod_add_mul_ediv k (2 * n)
  set r := k % (2 * (n : ℤ)) with hr
  have key : ((n : ℤ) - 1 - k) % (2 * n) = if r < n then (n : ℤ) - 1 - r else 3 * n - 1 - r := by
    split_ifs with h
    · rw [← h3, show (n : ℤ) - 1 - (r + 2 * n * (k / (2 * n))) = (n - 1 - r) + 2 * n * (-(k / (2 * n))) by ring,
        Int.add_mul_emod_self_left, Int.emod_eq_of_lt (by omega) (by omega)]
    · rw [← h3, show (n : ℤ) - 1 - (r + 2 * n * (k / (2 * n))) = (3 * n - 1 - r) + 2 * n * (-(k / (2 * n)) - 1) by ring,
        Int.add_mul_emod_self_left, Int.emod_eq_of_lt (by omega) (by omega)]
  unfold reflectIdx
  simp only
  rw [key, ← hr]
  split_ifs <;> omega

/-- The filter with a mirrored kernel commutes with the reversal of the row. -/
theorem convolve_rev {n : ℕ} {K : Kernel} (hK : Mirrored K) (f : Fin n → ℝ) (p : Fin n) :
    convolve K (fun q => f q.rev) p = convolve K f p.rev := by
  unfold convolve
  refine Finset.sum_nbij' (fun k => -k) (fun k => -k) ?_ ?_ ?_ ?_ ?_
  · intro k hk
    simp only [Finset.mem_Icc] at hk ⊢
    omega
  · intro k hk
    simp only [Finset.mem_Icc] at hk ⊢
    omega
  · simp
  · simp
  · intro k _
    rw [hK]
    dsimp only
    congr 2
    apply Fin.ext
    have h := reflectIdx_rev p.pos ((p : ℤ) - k)
    simp only [Fin.val_rev]
    have hp := p.2
    have hlt := reflectIdx_lt p.pos ((p : ℤ) - k)
    have e : (((n - (p + 1) : ℕ) : ℤ) - -k) = (n : ℤ) - 1 - ((p : ℤ) - k) := by omega
    rw [e, h]
    omega

theorem blurredRow_rev {n : ℕ} {K : Kernel} (hK : Mirrored K) (f : Fin n → ℝ × ℝ) (p : Fin n) :
    blurredRow K (fun q => f q.rev) p = blurredRow K f p.rev := by
  unfold blurredRow
  rw [convolve_rev hK (fun q => (f q).1), convolve_rev hK (fun q => (f q).2)]

theorem normalized_mirrored (r : ℕ) (v : ℤ → ℝ) (h : ∀ k, v (-k) = v k) : Mirrored (normalized r v) := by
  intro k
  unfold normalized
  simp only [h]

theorem gauss_mirrored (σ : ℝ) : Mirrored (gaussKernel σ) := normalized_mirrored _ _ fun k => by push_cast; rw [neg_sq]

theorem fermi_mirrored (σ : ℝ) : Mirrored (fermiKernel σ) := normalized_mirrored _ _ fun k => by
  unfold fermiDeriv
  push_cast
  rw [neg_div, Real.cosh_neg]

theorem sortLim_desc {g : ℝ × ℝ} (h : g.2 ≤ g.1) : sortLim g = g.swap := by
  unfold sortLim
  rw [min_eq_right h, max_eq_left h]
  rfl

theorem shifted_lowered_asc {α : Type} (axis : Axis) (F : ℝ → ℝ → α) {g1 g2 : ℝ × ℝ} (h1 : g1.1 ≤ g1.2) (n e p : ℕ) :
    shifted1d axis F g1 g2 n e p = lowered axis F g1 g2 n e p := by
  unfold shifted1d lowered borderStep
  rw [abs_of_nonneg (by linarith)]
  cases axis <;> rfl

theorem shifted_lowered_desc {α : Type} (axis : Axis) (F : ℝ → ℝ → α) {g1 g2 : ℝ × ℝ} (h1 : g1.2 ≤ g1.1) {n : ℕ} (hn : 2 ≤ n) (e : ℕ) (p : Fin n) :
    shifted1d axis F g1.swap g2.swap n e p = lowered axis F g1 g2 n e p.rev := by
  unfold shifted1d lowered borderStep
  rw [abs_of_nonpos (by linarith), sweepVolt_swap _ hn, sweepVolt_swap _ hn]
  simp only [Prod.fst_swap, Prod.snd_swap, neg_sub]
  cases axis <;> rfl

/-- A 1D call with new jumps does the same as a frozen call with these jumps. -/
theorem fresh_1d {τ : Type} (d : DotJumps τ) (n : ℕ) (occ : Fin n → ℝ × ℝ) (lead : Fin n → ℕ) (g1 g2 : ℝ × ℝ)
    (gen : Gen (DotState × τ)) (st : DotState) (t t1 t2 t3 t4 : τ) (sc la k : ℝ) (noise : List ℕ)
    (hb : d.rng.binomial d.ratio t = (.ok true, t1)) (h1 : d.scale t1 = (.ok sc, t2)) (h2 : d.lam t2 = (.ok la, t3))
    (hk : jumpFactor d.axis g1 g2 (.d1 n occ) = some k)
    (hn : generateJumps d.rng n (max 1 (sc * k)) (la * k) t3 = (.ok noise, t4)) :
    d.noiseFunction (.d1 n occ, .d1 n lead) g1 g2 gen false (st, t) =
      d.noiseFunction (.d1 n occ, .d1 n lead) g1 g2 gen true (⟨some true, some noise⟩, t4) := by
  rw [frozen_1d]
  have hp : pixelParams (some k) sc la = some (max 1 (sc * k), la * k) := by
    unfold pixelParams
    simp only [Option.map_some, Option.some.injEq, Prod.mk.injEq, and_true]
    split_ifs with h
    · rw [max_eq_left h.le]
    · rw [max_eq_right (by linarith)]
  unfold DotJumps.noiseFunction
  rw [M.bind_run, getOwn_run]
  simp only [Bool.false_eq_true, if_false]
  rw [M.bind_run, onRest_eq hb]
  simp only
  rw [M.bind_run, setOwn_run]
  simp only [Bool.true_eq_false, if_false]
  unfold DotJumps.active
  simp only
  rw [M.bind_run, ofPy_run, as1d_self]
  simp only
  have hnoise : d.noise g1 g2 (.d1 n occ) n false (⟨some true, st.prev⟩, t1) =
      (.ok (noise, some (max 1 (sc * k))), (⟨some true, some noise⟩, t4)) := by
    unfold DotJumps.noise
    simp only [Bool.false_eq_true, if_false]
    rw [M.bind_run, onRest_eq h1]
    simp only
    rw [M.bind_run, onRest_eq h2]
    simp only [hk, hp]
    rw [M.bind_run, onRest_eq hn]
    simp only
    rw [M.bind_run, setOwn_run]
    rfl
  rw [M.bind_run, hnoise]
  simp only
  rw [run1d_scale]
  have : (1 : ℝ) ≤ max 1 (sc * k) := le_max_left _ _
  simp only [ne_eq, Option.some.injEq]
  linarith

/-- Frozen 1D call in a scan in which a gate descends, for a generator that gives the scans `V e`, `W e` for the shifted ranges. -/
theorem frozen_desc_of {τ : Type} (d : DotJumps τ) {gen : Gen (DotState × τ)} (g1 g2 : ℝ × ℝ) (hd : g1.2 < g1.1 ∨ g2.2 < g2.1) (n : ℕ) (hn : 0 < n)
    (noise : List ℕ) (hl : noise.length = n) (hnp : d.np2 = true → ∀ x ∈ noise, n + x ≤ 256) (t : τ) (V : ℕ → ℕ → ℝ × ℝ) (W : ℕ → ℕ → ℕ)
    (h : ∀ e, 0 < e → gen (shiftedLims d.axis (sortLim g1) (sortLim g2) (borderStep (sortLim g1) n) e).1
      (shiftedLims d.axis (sortLim g1) (sortLim g2) (borderStep (sortLim g1) n) e).2 (.int n) (⟨some true, some noise⟩, t) =
      (.ok (.d1 n fun p => V e p, .d1 n fun p => W e p), (⟨some true, some noise⟩, t)))
    (occ : Fin n → ℝ × ℝ) (lead : Fin n → ℕ) (ho : ∀ p, occ p = V 0 p.rev) (hle : ∀ p, lead p = W 0 p.rev) :
    d.noiseFunction (.d1 n occ, .d1 n lead) g1 g2 gen true (⟨some true, some noise⟩, t) =
      (.ok (.d1 n fun p => V (noise.getD p.rev 0) p.rev, .d1 n fun p => W (noise.getD p.rev 0) p.rev), (⟨some true, some noise⟩, t)) := by
  have hne : noise ≠ [] := by rintro rfl; simp at hl; omega
  obtain ⟨m, hmax, hm⟩ := maxJump_spec noise hne
  rw [frozen_1d]
  unfold DotJumps.run1d
  rw [if_pos (by unfold Desc; exact hd.symm), M.bind_run]
  have e1 : (fun i : Fin n => occ i.rev) = fun p : Fin n => V 0 p := by funext p; rw [ho, Fin.rev_rev]
  have e2 : (fun i : Fin n => lead i.rev) = fun p : Fin n => W 0 p := by funext p; rw [hle, Fin.rev_rev]
  rw [e1, e2, apply1d_of d.axis d.np2 d.nan n (sortLim g1) (sortLim g2) V W none (by simp) noise (by omega) m hmax hm
    (fun e _ => hnp e m (maxJump_mem hmax)) _ h]
  rfl

/-- A generator that samples fields, shifted. -/
theorem sampled_shifted {σ : Type} {gen : Gen σ} {F : ℝ → ℝ → ℝ × ℝ} {L : ℝ → ℝ → ℕ} (h : SampledBy gen F L) (axis : Axis) (g1 g2 : ℝ × ℝ) (n e : ℕ)
    (s : σ) : gen (shiftedLims axis g1 g2 (borderStep g1 n) e).1 (shiftedLims axis g1 g2 (borderStep g1 n) e).2 (.int n) s =
      (.ok (.d1 n fun p => shifted1d axis F g1 g2 n e p, .d1 n fun p => shifted1d axis L g1 g2 n e p), s) := by
  rw [h.one]
  simp only [shifted_sample]

/-- Dot jumps without randomness: blocks of one pixel and jumps of one pixel. -/
noncomputable def steadyJumps (τ : Type) : DotJumps τ :=
  ⟨pure 1, pure 1, .g1, 1, ⟨fun _ => pure true, fun _ _ => pure fun _ => 1, fun _ => pure 1, fun _ _ => pure 0⟩, false, 0⟩

theorem steady_noise {τ : Type} (scale : ℝ) (h : scale ≠ 0) (lam : ℝ) (t : τ) :
    generateJumps (steadyJumps τ).rng 5 scale lam t = (.ok [0, 1, 0, 1, 0], t) := by
  unfold generateJumps
  rw [if_neg h]
  rfl

end SimCATS
