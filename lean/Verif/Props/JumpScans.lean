import Verif.Lemmas.JumpScans
import Verif.Props.JumpBlur

/-! Dot jumps in 1D scans of any direction, with and without blurring, and with new noise. -/

namespace SimCATS

open Spec

/-! ### C55 -/

/-- C55: a scan with new jumps shows exactly what a frozen repetition with these jumps shows. -/
theorem C55_new_noise {τ : Type} (d : DotJumps τ) (n : ℕ) (occ : Fin n → ℝ × ℝ) (lead : Fin n → ℕ) (g1 g2 : ℝ × ℝ)
    (gen : Gen (DotState × τ)) (st : DotState) (t t1 t2 t3 t4 : τ) (sc la k : ℝ) (noise : List ℕ)
    (hb : d.rng.binomial d.ratio t = (.ok true, t1)) (h1 : d.scale t1 = (.ok sc, t2)) (h2 : d.lam t2 = (.ok la, t3))
    (hk : jumpFactor d.axis g1 g2 (.d1 n occ) = some k)
    (hn : generateJumps d.rng n (max 1 (sc * k)) (la * k) t3 = (.ok noise, t4)) :
    d.noiseFunction (.d1 n occ, .d1 n lead) g1 g2 gen false (st, t) =
      d.noiseFunction (.d1 n occ, .d1 n lead) g1 g2 gen true (⟨some true, some noise⟩, t4) :=
  fresh_1d d n occ lead g1 g2 gen st t t1 t2 t3 t4 sc la k noise hb h1 h2 hk hn

/-- C55 for scans in which no gates are swept in opposite directions (numpy 1, or no index above 255): with jumps along gate 1, every pixel
shows the field at a voltage of gate 1 that is lowered by its jump times the range of gate 1 divided by the number of pixels.  In downward
sweeps the jumps are counted from the end of the scan. -/
theorem C55_directions_partial {τ : Type} (d : DotJumps τ) {gen : Gen (DotState × τ)} {F : ℝ → ℝ → ℝ × ℝ} {L : ℝ → ℝ → ℕ}
    (h : SampledBy gen F L) (g1 g2 : ℝ × ℝ) (hg : SameDirection g1 g2) (n : ℕ) (hn : 2 ≤ n) (noise : List ℕ)
    (hl : noise.length = n) (hnp : d.np2 = true → ∀ x ∈ noise, n + x ≤ 256) (t : τ) :
    d.noiseFunction (grid1 F L g1 g2 n) g1 g2 gen true (⟨some true, some noise⟩, t) =
      (.ok (.d1 n fun p => lowered d.axis F g1 g2 n (jumpAt g1 g2 noise p) p,
        .d1 n fun p => lowered d.axis L g1 g2 n (jumpAt g1 g2 noise p) p), (⟨some true, some noise⟩, t)) := by
  by_cases hd : g1.2 < g1.1 ∨ g2.2 < g2.1
  · have hge : g1.2 ≤ g1.1 ∧ g2.2 ≤ g2.1 := by
      rcases hg with ⟨a, b⟩ | hg
      · rcases hd with hd | hd <;> exfalso <;> linarith
      · exact hg
    unfold grid1
    rw [frozen_desc_of d g1 g2 hd n (by omega) noise hl hnp t (fun e p => shifted1d d.axis F (sortLim g1) (sortLim g2) n e p)
      (fun e p => shifted1d d.axis L (sortLim g1) (sortLim g2) n e p) (fun e _ => sampled_shifted h _ _ _ _ _ _)]
    · unfold jumpAt
      simp only [if_pos hd, sortLim_desc hge.1, sortLim_desc hge.2, shifted_lowered_desc _ _ hge.1 hn, Fin.rev_rev]
    all_goals
      intro p
      rw [sortLim_desc hge.1, sortLim_desc hge.2, shifted_lowered_desc _ _ hge.1 hn, Fin.rev_rev]
      unfold lowered
      cases d.axis <;> simp
  · have hle : g1.1 ≤ g1.2 ∧ g2.1 ≤ g2.2 := by
      push Not at hd
      exact hd
    rw [C55_actual d h g1 g2 hle.1 hle.2 n (by omega) noise hl hnp]
    unfold jumpAt
    simp only [if_neg hd, shifted_lowered_asc _ _ hle.1]

/-- The hypotheses hold for a downward sweep of gate 1 with a jump of two pixels. -/
example := C55_directions_partial (plainJumps .g1) (sampleGen_sampled _ (fun v w => (v, w)) fun _ _ => 0)
  (1, 0) (2, 2) (.inr ⟨by norm_num, le_refl _⟩) 5 (by norm_num) [0, 2, 2, 0, 0] rfl (fun h => by simp [plainJumps] at h) ()

/-- In this sweep the pixels 2 and 3 are shifted to lower voltages of gate 1. -/
example : lowered .g1 (fun v w => (v, w)) (1, 0) (2, 2) 5 (jumpAt (1, 0) (2, 2) [0, 2, 2, 0, 0] (2 : Fin 5)) 2 = (1 / 2 - 2 / 5, (2 : ℝ)) := by
  norm_num [lowered, jumpAt, sweepVolt, Fin.rev]

/-- What happens if gate 1 is swept upwards and gate 2 downwards (jumps along gate 1): pixels with a jump show the scan mirrored in gate 1, at
the voltage of gate 1 of the opposite pixel, lowered by the jump. -/
theorem C55_opposite_actual {τ : Type} (d : DotJumps τ) (ha : d.axis = .g1) {gen : Gen (DotState × τ)} {F : ℝ → ℝ → ℝ × ℝ} {L : ℝ → ℝ → ℕ}
    (h : SampledBy gen F L) (g1 g2 : ℝ × ℝ) (h1 : g1.1 ≤ g1.2) (h2 : g2.2 < g2.1) (n : ℕ) (hn : 2 ≤ n) (noise : List ℕ)
    (hl : noise.length = n) (hnp : d.np2 = true → ∀ x ∈ noise, n + x ≤ 256) (t : τ) :
    ∃ out lead, d.noiseFunction (grid1 F L g1 g2 n) g1 g2 gen true (⟨some true, some noise⟩, t) =
        (.ok (.d1 n out, .d1 n lead), (⟨some true, some noise⟩, t)) ∧
      ∀ p : Fin n, (noise.getD p.rev 0 = 0 → out p = F (sweepVolt g1 n p) (sweepVolt g2 n p) ∧ lead p = L (sweepVolt g1 n p) (sweepVolt g2 n p)) ∧
        (noise.getD p.rev 0 ≠ 0 →
          out p = F (sweepVolt g1 n p.rev - noise.getD p.rev 0 * ((g1.2 - g1.1) / n)) (sweepVolt g2 n p) ∧
          lead p = L (sweepVolt g1 n p.rev - noise.getD p.rev 0 * ((g1.2 - g1.1) / n)) (sweepVolt g2 n p)) := by
  let V : {α : Type} → (ℝ → ℝ → α) → ℕ → ℕ → α := fun {α} G e p =>
    if e = 0 then G (sweepVolt g1 n (n - 1 - p)) (sweepVolt g2.swap n p) else shifted1d .g1 G g1 g2.swap n e p
  have hV : ∀ {α : Type} (G : ℝ → ℝ → α) e, 0 < e → (fun p => V G e p) = fun p => shifted1d .g1 G g1 g2.swap n e p := by
    intro α G e he
    funext p
    exact if_neg he.ne'
  have hr : ∀ p : Fin n, n - 1 - (p.rev : ℕ) = p := by
    intro p
    have := p.2
    rw [Fin.val_rev]
    omega
  unfold grid1
  refine ⟨_, _, frozen_desc_of d g1 g2 (.inr h2) n (by omega) noise hl hnp t (V F) (V L) (fun e he => ?_) _ _ ?_ ?_, fun p => ⟨fun h0 => ?_, fun h0 => ?_⟩⟩
  · rw [ha, sampled_shifted h, sortLim_asc h1, sortLim_desc h2.le]
    simp only [V, he.ne', if_false]
  · intro p
    simp only [V, if_true, hr, sweepVolt_swap _ hn, Fin.rev_rev]
  · intro p
    simp only [V, if_true, hr, sweepVolt_swap _ hn, Fin.rev_rev]
  · simp only [h0, V, if_true, hr, sweepVolt_swap _ hn, Fin.rev_rev, and_self]
  · simp only [V, if_neg h0, shifted1d, borderStep, sweepVolt_swap _ hn, Fin.rev_rev, and_self]

/-- The hypotheses hold for opposite sweeps with jumps of one pixel. -/
example := C55_opposite_actual (plainJumps .g1) rfl (sampleGen_sampled _ (fun v w => (v, w)) fun _ _ => 0)
  (0, 1) (1, 0) (by norm_num) (by norm_num) 3 (by norm_num) [1, 1, 1] rfl (fun h => by simp [plainJumps] at h) ()

/-! ### C84 -/

/-- C84 for 1D scans in which no gates are swept in opposite directions (numpy 1, or no index above 255), from the ideal data to the end of
the loop over the distortions, with a new blurring width and new jumps: a pixel with jump `e` shows the value that the same pixel has in the
scan shifted by `e` steps and blurred with the kernel of the original scan. -/
theorem C84_scan_partial {τ : Type} (blur : Blur τ) (d : DotJumps (Option ℝ × τ)) {gen : Gen (Option ℝ × τ)} {F : ℝ → ℝ → ℝ × ℝ}
    {L : ℝ → ℝ → ℕ} (h : SampledBy gen F L) (g1 g2 : ℝ × ℝ) (hg : SameDirection g1 g2) (n : ℕ) (hn : 2 ≤ n)
    (st : DotState) (σ₀ : Option ℝ) (t t1 t5 : τ) (σ : ℝ) (hσ : 0 < σ) (hsig : blur.sigma t = (.ok σ, t1))
    (k : ℝ) (hk : ∀ f, blurFactor g1 g2 (.d1 n f) = some k) (hK : Mirrored (blur.kernel (σ * k)))
    (s2 s3 s4 : Option ℝ × τ) (sc la kj : ℝ) (noise : List ℕ)
    (hb : d.rng.binomial d.ratio (some σ, t1) = (.ok true, s2)) (hsc : d.scale s2 = (.ok sc, s3)) (hla : d.lam s3 = (.ok la, s4))
    (hkj : ∀ f, jumpFactor d.axis g1 g2 (.d1 n f) = some kj)
    (hno : generateJumps d.rng n (max 1 (sc * kj)) (la * kj) s4 = (.ok noise, (some σ, t5)))
    (hl : noise.length = n) (hnp : d.np2 = true → ∀ x ∈ noise, n + x ≤ 256) :
    ∃ gen', applyOcc g1 g2 [OccDist.beside blur.noiseFunction, d.noiseFunction] (fun v1 v2 res => onRest (gen v1 v2 res))
        (grid1 F L g1 g2 n) (st, (σ₀, t)) =
      (.ok ((.d1 n fun p => blurredRow (blur.kernel (σ * k)) (fun q => lowered d.axis F g1 g2 n (jumpAt g1 g2 noise p) q) p,
          .d1 n fun p => lowered d.axis L g1 g2 n (jumpAt g1 g2 noise p) p), gen'), (⟨some true, some noise⟩, (some σ, t5))) := by
  have key : ∀ t', ∃ occ : Fin n → ℝ × ℝ, ∃ lead : Fin n → ℕ, blur.apply (grid1 F L g1 g2 n) g1 g2 σ = .ok (.d1 n occ, .d1 n lead) ∧
      d.noiseFunction (.d1 n occ, .d1 n lead) g1 g2 (behindBlur blur gen) true (⟨some true, some noise⟩, (some σ, t')) =
        (.ok (.d1 n fun p => blurredRow (blur.kernel (σ * k)) (fun q => lowered d.axis F g1 g2 n (jumpAt g1 g2 noise p) q) p,
          .d1 n fun p => lowered d.axis L g1 g2 n (jumpAt g1 g2 noise p) p), (⟨some true, some noise⟩, (some σ, t'))) := by
    intro t'
    by_cases hd : g1.2 < g1.1 ∨ g2.2 < g2.1
    · have hge : g1.2 ≤ g1.1 ∧ g2.2 ≤ g2.1 := by
        rcases hg with ⟨a, b⟩ | hg
        · rcases hd with hd | hd <;> exfalso <;> linarith
        · exact hg
      have hks : ∀ f : Fin n → ℝ × ℝ, blurFactor g1.swap g2.swap (.d1 n f) = some k := by
        intro f
        rw [← hk f]
        unfold blurFactor pxPerVolt
        simp only [Prod.fst_swap, Prod.snd_swap, max_comm g1.2, min_comm g1.2, max_comm g2.2, min_comm g2.2, eq_comm (a := g1.2), eq_comm (a := g2.2)]
      let V : ℕ → ℕ → ℝ × ℝ := fun e p => if hp : p < n then
        blurredRow (blur.kernel (σ * k)) (fun q : Fin n => shifted1d d.axis F g1.swap g2.swap n e q) ⟨p, hp⟩ else (0, 0)
      have hV : ∀ e (p : Fin n), V e p = blurredRow (blur.kernel (σ * k)) (fun q : Fin n => lowered d.axis F g1 g2 n e q) p.rev := by
        intro e p
        simp only [V, p.2, dite_true, shifted_lowered_desc _ _ hge.1 hn]
        exact blurredRow_rev hK (fun q : Fin n => lowered d.axis F g1 g2 n e q) p
      have happ : ∀ e, blur.apply (grid1 F L (shiftedLims d.axis g1.swap g2.swap (borderStep g1.swap n) e).1
          (shiftedLims d.axis g1.swap g2.swap (borderStep g1.swap n) e).2 n)
          (shiftedLims d.axis g1.swap g2.swap (borderStep g1.swap n) e).1 (shiftedLims d.axis g1.swap g2.swap (borderStep g1.swap n) e).2 σ =
          .ok (.d1 n fun p => V e p, .d1 n fun p => shifted1d d.axis L g1.swap g2.swap n e p) := by
        intro e
        unfold Blur.apply grid1
        rw [if_pos hσ]
        simp only
        rw [blurFactor_shift (f' := fun _ => (0, 0)), hks]
        simp only [blurScan, shifted_sample, V, Fin.is_lt, dite_true]
        rfl
      refine ⟨fun p => V 0 p.rev, fun p => shifted1d d.axis L g1.swap g2.swap n 0 p.rev, ?_, ?_⟩
      · unfold Blur.apply grid1
        rw [if_pos hσ]
        simp only
        rw [hk]
        simp only [blurScan, hV, Fin.rev_rev, shifted_lowered_desc _ _ hge.1 hn]
        congr 2
        · congr 1
          funext p
          unfold blurredRow lowered
          cases d.axis <;> simp
        · congr 1
          funext p
          unfold lowered
          cases d.axis <;> simp
      · rw [frozen_desc_of d g1 g2 hd n (by omega) noise hl hnp _ V (fun e p => shifted1d d.axis L g1.swap g2.swap n e p) (fun e _ => ?_) _ _
          (fun _ => rfl) (fun _ => rfl)]
        · unfold jumpAt
          simp only [if_pos hd, hV, Fin.rev_rev, shifted_lowered_desc _ _ hge.1 hn]
        · rw [sortLim_desc hge.1, sortLim_desc hge.2]
          exact behindBlur_run blur (h.one _ _ _ _) (happ e) _
    · have hle : g1.1 ≤ g1.2 ∧ g2.1 ≤ g2.2 := by
        push Not at hd
        exact hd
      obtain ⟨occ, lead, e1, e2⟩ := C84_line_partial blur d h g1 g2 hle.1 hle.2 n (by omega) noise hl hnp σ hσ t' k hk
      rw [(C34_blur_frozen blur _ g1 g2 gen t').1] at e1
      refine ⟨occ, lead, congrArg Prod.fst e1, e2.trans ?_⟩
      unfold jumpAt
      simp only [if_neg hd, shifted_lowered_asc _ _ hle.1]
  obtain ⟨occ, lead, e1, e2⟩ := key t5
  refine ⟨withNoise (behindBlur blur gen) d.noiseFunction, ?_⟩
  unfold applyOcc
  have hfirst : OccDist.beside blur.noiseFunction (grid1 F L g1 g2 n) g1 g2 (fun v1 v2 res => onRest (gen v1 v2 res)) false (st, (σ₀, t)) =
      (.ok (.d1 n occ, .d1 n lead), (st, (some σ, t1))) := by
    refine (occ_beside blur.noiseFunction _ g1 g2 gen false (st, (σ₀, t))).trans (onRest_eq ?_ st)
    rw [C34_blur_fresh blur _ g1 g2 gen σ₀ t t1 σ hsig, e1]
  rw [M.bind_eq hfirst]
  unfold applyOcc
  have hgen : withNoise (fun v1 v2 res => onRest (gen v1 v2 res)) (OccDist.beside (X := DotState) blur.noiseFunction) = behindBlur blur gen :=
    noise_beside gen blur.noiseFunction
  rw [hgen, M.bind_eq ((C55_new_noise d n occ lead g1 g2 _ st _ s2 s3 s4 _ sc la kj noise hb hsc hla (hkj occ) hno).trans e2)]
  rfl

/-- The hypotheses of `C84_scan_partial` hold for a downward sweep of gate 1 with jumps of one pixel in every second pixel. -/
example (F : ℝ → ℝ → ℝ × ℝ) := C84_scan_partial (gaussBlur (pure 1)) (steadyJumps (Option ℝ × Unit)) (sampleGen_sampled _ F fun _ _ => 0) (1, 0) (0, 0)
  (.inr ⟨by norm_num, le_refl _⟩) 5 (by norm_num) ⟨none, none⟩ none () () () 1 one_pos rfl 5
  (fun f => by
    unfold blurFactor pxPerVolt
    norm_num)
  (gauss_mirrored _) (some 1, ()) (some 1, ()) (some 1, ()) 1 1 5 [0, 1, 0, 1, 0] rfl rfl rfl
  (fun f => by
    unfold jumpFactor steadyJumps pxPerVolt
    norm_num)
  (steady_noise _ (by norm_num) _ _) rfl (by simp)

/-- C84 for images: what `C84_axis1_actual`, `C84_axis1_one_actual`, `C84_axis0_actual` and `C84_image_partial` state for frozen calls holds for
whole scans with a new blurring width and new jumps: if the frozen calls with the drawn width and jumps give `mid` and `out`, then the scan
gives `out`. -/
theorem C84_new_noise {τ : Type} (blur : Blur τ) (d : DotJumps (Option ℝ × τ)) (gen : Gen (Option ℝ × τ)) (g1 g2 : ℝ × ℝ) (r c : ℕ)
    (data : CsdData) (occ : Fin r → Fin c → ℝ × ℝ) (lead : Fin r → Fin c → ℕ) (out : CsdData)
    (st : DotState) (σ₀ : Option ℝ) (t t1 t5 : τ) (σ : ℝ) (hsig : blur.sigma t = (.ok σ, t1))
    (s2 s3 s4 : Option ℝ × τ) (sc la kj : ℝ) (noise : List ℕ)
    (hb : d.rng.binomial d.ratio (some σ, t1) = (.ok true, s2)) (hsc : d.scale s2 = (.ok sc, s3)) (hla : d.lam s3 = (.ok la, s4))
    (hkj : jumpFactor d.axis g1 g2 (.d2 r c occ) = some kj)
    (hno : generateJumps d.rng (d.axis.size r c) (max 1 (sc * kj)) (la * kj) s4 = (.ok noise, (some σ, t5)))
    (hmid : blur.noiseFunction data g1 g2 gen true (some σ, t5) = (.ok (.d2 r c occ, .d2 r c lead), (some σ, t5)))
    (hout : d.noiseFunction (.d2 r c occ, .d2 r c lead) g1 g2 (behindBlur blur gen) true (⟨some true, some noise⟩, (some σ, t5)) =
      (.ok out, (⟨some true, some noise⟩, (some σ, t5)))) :
    ∃ gen', applyOcc g1 g2 [OccDist.beside blur.noiseFunction, d.noiseFunction] (fun v1 v2 res => onRest (gen v1 v2 res)) data (st, (σ₀, t)) =
      (.ok (out, gen'), (⟨some true, some noise⟩, (some σ, t5))) := by
  refine ⟨withNoise (behindBlur blur gen) d.noiseFunction, ?_⟩
  rw [(C34_blur_frozen blur _ g1 g2 gen t5).1] at hmid
  unfold applyOcc
  have hfirst : OccDist.beside blur.noiseFunction data g1 g2 (fun v1 v2 res => onRest (gen v1 v2 res)) false (st, (σ₀, t)) =
      (.ok (.d2 r c occ, .d2 r c lead), (st, (some σ, t1))) := by
    refine (occ_beside blur.noiseFunction _ g1 g2 gen false (st, (σ₀, t))).trans (onRest_eq ?_ st)
    have hm : blur.apply data g1 g2 σ = .ok (.d2 r c occ, .d2 r c lead) := congrArg Prod.fst hmid
    rw [C34_blur_fresh blur _ g1 g2 gen σ₀ t t1 σ hsig, hm]
  rw [M.bind_eq hfirst]
  unfold applyOcc
  have hgen : withNoise (fun v1 v2 res => onRest (gen v1 v2 res)) (OccDist.beside (X := DotState) blur.noiseFunction) = behindBlur blur gen :=
    noise_beside gen blur.noiseFunction
  rw [hgen, M.bind_eq ((C36_dots_call d r c occ lead g1 g2 _ st _ s2 s3 s4 _ sc la kj noise hb hsc hla hkj hno).trans hout)]
  rfl

/-- The hypotheses of `C84_new_noise` hold for an image with 5 x 5 pixels over 1 V and jumps of one pixel in every second column. -/
example (F : ℝ → ℝ → ℝ × ℝ) : ∃ out lead gen', applyOcc (0, 1) (0, 1) [OccDist.beside (gaussBlur (pure 1)).noiseFunction, (steadyJumps (Option ℝ × Unit)).noiseFunction]
    (fun v1 v2 res => onRest (sampleGen _ F (fun _ _ => 0) v1 v2 res)) (grid2 F (fun _ _ => 0) (0, 1) (0, 1) 5 5) (⟨none, none⟩, (none, ())) =
      (.ok ((.d2 5 5 out, .d2 5 5 lead), gen'), (⟨some true, some [0, 1, 0, 1, 0]⟩, (some 1, ()))) := by
  obtain ⟨occ, lead, e, _, out, hrun, _⟩ := C84_axis1_one_actual (gaussBlur (pure 1)) (steadyJumps (Option ℝ × Unit)) rfl
    (sampleGen_sampled _ F fun _ _ => 0) (0, 1) (0, 1) (by norm_num) (by norm_num) 5 5 (by norm_num) (by norm_num) [0, 1, 0, 1, 0] rfl rfl 1 one_pos ()
  obtain ⟨gen', h⟩ := C84_new_noise (gaussBlur (pure 1)) (steadyJumps (Option ℝ × Unit)) (sampleGen _ F fun _ _ => 0) (0, 1) (0, 1) 5 5 _ occ lead _
    ⟨none, none⟩ none () () () 1 rfl (some 1, ()) (some 1, ()) (some 1, ()) 1 1 5 [0, 1, 0, 1, 0] rfl rfl rfl
    (by unfold jumpFactor steadyJumps pxPerVolt; norm_num) (steady_noise _ (by norm_num) _ _) e hrun
  exact ⟨out, _, gen', h⟩

end SimCATS
