import Verif.Spec.SumNoise
import Verif.Lemmas.WhiteNoiseLaw

/-!
Several white noises as last distortions of the response.
-/

namespace SimCATS

open Spec MeasureTheory ProbabilityTheory

variable {τ ω α : Type}

/-- Each of the noises adds its numbers. -/
theorem whites_path {F : List (SigObject τ) → M (SimState τ) (Scan ℝ × α)} {D : List (SigObject τ) → Prop} {O : (τ → ω) → Prop}
    (hlast : ∀ pre i sigma noise, F (pre ++ [.additive i sigma noise]) = F pre >>= fun out => whiteCall i sigma noise out.1 >>= fun y => pure (y, out.2))
    (hD : ∀ a b, D (a ++ b) → D a)
    (hkeep : ∀ own pre, D pre → O own → (∀ o ∈ pre, SigUntouched own o) → ∀ s out s0, F pre s = (.ok out, s0) → own s0.2.gens = own s.2.gens)
    {pre : List (SigObject τ)} {s s0 : SimState τ} {y0 : Scan ℝ} {a : α} (h0 : F pre s = (.ok (y0, a), s0)) : ∀ {m : ℕ} (i : Fin m → ℕ)
    (v : Fin m → ℝ) (noise : Fin m → ℝ → ℕ → M τ (List ℝ)) (own : Fin m → τ → ω) (X : Fin m → ℕ → ω → ℝ), (∀ j, 0 ≤ v j) → (∀ j, O (own j)) →
    D (pre ++ List.ofFn fun j => .additive (i j) (pure (v j)) (noise j)) → (∀ j, ∀ o ∈ pre, SigUntouched (own j) o) →
    (∀ j l, j ≠ l → ∀ v n, Spec.Untouched (own j) (noise l v n)) → (∀ j, ScaledDraws (own j) (noise j) (X j)) →
    ∃ y s', F (pre ++ List.ofFn fun j => .additive (i j) (pure (v j)) (noise j)) s = (.ok (y, a), s') ∧ y.size = y0.size ∧
      ∀ k < y0.size, pixelAt y k = pixelAt y0 k + ∑ j, v j * X j k (own j s.2.gens)
  | 0, i, v, noise, own, X, _, _, _, _, _, _ => ⟨y0, s0, by rwa [List.ofFn_zero, List.append_nil], rfl, fun k _ => by simp⟩
  | m + 1, i, v, noise, own, X, hv, hO, hd, hpre, hown, hX => by
    rw [List.ofFn_succ', List.concat_eq_append, ← List.append_assoc] at hd ⊢
    obtain ⟨y1, s1, h1, hy1, hk1⟩ := whites_path hlast hD hkeep h0 (fun j => i j.castSucc) (fun j => v j.castSucc) (fun j => noise j.castSucc)
      (fun j => own j.castSucc) (fun j => X j.castSucc) (fun j => hv _) (fun j => hO _) (hD _ _ hd) (fun j => hpre _)
      (fun j l hj => hown _ _ fun h => hj (Fin.castSucc_injective _ h)) fun j => hX _
    have hu : ∀ o ∈ pre ++ List.ofFn (fun j : Fin m => SigObject.additive (i j.castSucc) (pure (v j.castSucc)) (noise j.castSucc)),
        SigUntouched (own (Fin.last m)) o := by
      intro o ho
      rcases List.mem_append.1 ho with ho | ho
      · exact hpre _ o ho
      · obtain ⟨j, rfl⟩ := List.mem_ofFn.1 ho
        exact ⟨fun _ => rfl, fun v n => hown _ _ (Fin.castSucc_lt_last j).ne' v n⟩
    obtain ⟨y, s', h', hp, -⟩ := after_ok (i := i (Fin.last m)) (sigma := pure (v (Fin.last m))) (hX (Fin.last m)) (fun _ => rfl) h1
      (hkeep _ _ (hD _ _ hd) (hO _) hu _ _ _ h1) rfl (hv (Fin.last m))
    refine ⟨y, s', by rw [hlast]; exact h', (plus_size hp).trans hy1, fun k hk => ?_⟩
    rw [pixelAt_plus hp (hy1 ▸ hk), hk1 k hk, Fin.sum_univ_castSucc, add_assoc]

/-- The sum of independent normal numbers. -/
theorem normal_sum [MeasurableSpace τ] {P : Measure τ} [IsProbabilityMeasure P] {ι : Type} [DecidableEq ι] {Y : ι → τ → ℝ} (hm : ∀ j, Measurable (Y j))
    (hi : iIndepFun Y P) {c : ι → NNReal} (hc : ∀ j, P.map (Y j) = gaussianReal 0 (c j)) (t : Finset ι) :
    P.map (∑ j ∈ t, Y j) = gaussianReal 0 (∑ j ∈ t, c j) := by
  induction t using Finset.induction_on with
  | empty =>
    rw [Finset.sum_empty, Finset.sum_empty, gaussianReal_zero_var]
    exact (Measure.map_const P (0 : ℝ)).trans (by rw [measure_univ, one_smul])
  | insert j t hj ih =>
    rw [Finset.sum_insert hj, Finset.sum_insert hj]
    have := gaussianReal_add_gaussianReal_of_indepFun (hi.indepFun_finset_sum_of_notMem hm hj).symm (hc j) ih
    rwa [add_zero] at this

/-- The sums of the numbers of all generators. -/
theorem sums_law [MeasurableSpace τ] {P : Measure τ} [IsProbabilityMeasure P] {m : ℕ} {own : Fin m → τ → ω} {X : Fin m → ℕ → ω → ℝ}
    (hN : IndependentNormal P own X) (v : Fin m → ℝ) :
    (∀ k, Measurable fun g => ∑ j, v j * X j k (own j g)) ∧ iIndepFun (fun k g => ∑ j, v j * X j k (own j g)) P ∧
      ∀ k, P.map (fun g => ∑ j, v j * X j k (own j g)) = gaussianReal 0 (Real.toNNReal (∑ j, v j ^ 2)) := by
  have hm : ∀ j k, Measurable fun g => X j k (own j g) := fun j k => (hN.normal j).measurable k
  have hi : iIndepFun (fun (p : Fin m × ℕ) g => X p.1 p.2 (own p.1 g)) P :=
    iIndepFun_uncurry' (X := fun j k g => X j k (own j g)) hm hN.independent fun j => (hN.normal j).independent
  have hs : iIndepFun (fun (p : ℕ × Fin m) g => X p.2 p.1 (own p.2 g)) P := hi.precomp (g := Prod.swap) Prod.swap_injective
  refine ⟨fun k => Finset.measurable_sum _ fun j _ => (hm j k).const_mul _, ?_, fun k => ?_⟩
  · have hr : iIndepFun (fun k g (j : Fin m) => X j k (own j g)) P := by
      have h1 := hs.map_fun_eq_infinitePi_map fun p : ℕ × Fin m => hm p.2 p.1
      have h2 : ∀ p : ℕ × Fin m, P.map (fun g => X p.2 p.1 (own p.2 g)) = gaussianReal 0 1 := fun p => (hN.normal p.2).law p.1
      simp only [h2] at h1
      have h3 := Measure.infinitePi_map_curry (ι := ℕ) (κ := Fin m) (fun _ _ => gaussianReal 0 1)
      rw [← h1, Measure.map_map (by fun_prop) (measurable_pi_iff.2 fun p : ℕ × Fin m => hm p.2 p.1)] at h3
      rw [iIndepFun_iff_map_fun_eq_infinitePi_map fun k => measurable_pi_iff.2 fun j => hm j k]
      refine h3.trans ?_
      congr 1
      funext k
      have h4 : iIndepFun (fun (j : Fin m) g => X j k (own j g)) P := hs.precomp (g := fun j => (k, j)) fun _ _ h => (Prod.ext_iff.1 h).2
      rw [h4.map_fun_eq_infinitePi_map fun j => hm j k]
      congr 1
      funext j
      exact ((hN.normal j).law k).symm
    exact hr.comp (fun _ x => ∑ j, v j * x j) fun _ => by fun_prop
  · have h4 : iIndepFun (fun (j : Fin m) g => v j * X j k (own j g)) P :=
      iIndepFun.comp (hs.precomp (g := fun j => (k, j)) fun _ _ h => (Prod.ext_iff.1 h).2) (fun j x => v j * x) fun j => measurable_const_mul _
    have h5 := normal_sum (fun j => (hm j k).const_mul (v j)) h4 (c := fun j => Real.toNNReal (v j ^ 2)) (fun j => by
      have e : P.map (fun g => v j * X j k (own j g)) = (P.map fun g => X j k (own j g)).map (v j * ·) :=
        (Measure.map_map (measurable_const_mul _) (hm j k)).symm
      rw [e, (hN.normal j).law k, gaussianReal_map_const_mul, mul_zero, mul_one]
      congr 1
      exact (Real.toNNReal_of_nonneg (sq_nonneg (v j))).symm) Finset.univ
    rw [← Real.toNNReal_sum_of_nonneg fun j _ => sq_nonneg (v j)] at h5
    rw [← h5]
    congr 1
    funext g
    simp

/-- The distribution of the differences. -/
theorem sums_differ [MeasurableSpace τ] {P : Measure τ} [IsProbabilityMeasure P] {Z : ℕ → τ → ℝ} {V : NNReal} (hm : ∀ k, Measurable (Z k))
    (hi : iIndepFun Z P) (hl : ∀ k, P.map (Z k) = gaussianReal 0 V) {x x0 : M (SimState τ) (Scan ℝ × α)} {s : SimState τ} {n : ℕ}
    (hn : ∀ᵐ g ∂P, g ∈ HasPixels x0 s n) (hx : ∀ g y0 a s0, x0 (withGenerators s g) = (.ok (y0, a), s0) →
      ∃ y s', x (withGenerators s g) = (.ok (y, a), s') ∧ ∀ k < y0.size, pixelAt y k = pixelAt y0 k + Z k g) {B : ℕ → Set ℝ}
    (hB : ∀ k < n, MeasurableSet (B k)) : P.real (Differ x x0 s n B) = ∏ k ∈ Finset.range n, (gaussianReal 0 V).real (B k) := by
  have e : P.real (Differ x x0 s n B) = P.real (⋂ k ∈ Finset.range n, Z k ⁻¹' B k) := by
    refine measureReal_congr ?_
    filter_upwards [hn] with g hg
    obtain ⟨y0, a, s0, h1, hy⟩ := hg
    obtain ⟨y, s', h2, hp⟩ := hx g y0 a s0 h1
    have hk : ∀ k < n, pixelAt y k - pixelAt y0 k = Z k g := fun k hk => by rw [hp k (hy ▸ hk), add_sub_cancel_left]
    refine propext ⟨?_, fun h => ⟨y, y0, a, s', s0, h2, h1, fun k hkn => ?_⟩⟩
    · rintro ⟨y', y0', a', t', t0, h2', h1', h⟩
      rw [h2] at h2'
      rw [h1] at h1'
      cases h2'
      cases h1'
      refine Set.mem_iInter₂.2 fun k hkn => ?_
      have := h k (Finset.mem_range.1 hkn)
      rwa [hk k (Finset.mem_range.1 hkn)] at this
    · have := Set.mem_iInter₂.1 h k (Finset.mem_range.2 hkn)
      rw [hk k hkn]
      exact this
  rw [e, measureReal_def, hi.measure_inter_preimage_eq_mul (Finset.range n) fun k hk => hB k (Finset.mem_range.1 hk), ENNReal.toReal_prod]
  refine Finset.prod_congr rfl fun k hk => ?_
  rw [← Measure.map_apply (hm k) (hB k (Finset.mem_range.1 hk)), hl k, measureReal_def]

theorem distinct_prefix {sim : AnySim τ} (a b : List (SigObject τ)) (h : Distinct { sim with resp := some (a ++ b) }) :
    Distinct { sim with resp := some a } := by
  unfold Distinct at h ⊢
  refine h.sublist ?_
  simp only [Option.getD_some, List.map_append]
  exact List.Sublist.append_left (List.sublist_append_left _ _) _

theorem streams_independent : IndependentNormal streams (fun (k : Fin 2) (g : Streams) => g k) fun _ j f => f j :=
  ⟨fun k => stream_normal k, iIndepFun_infinitePi (P := fun _ : Fin 2 => Measure.infinitePi fun _ : ℕ => gaussianReal 0 1) (X := fun _ x => x)
    fun _ => by fun_prop⟩

theorem stream_none (lab : Labelling) (s : SimState Streams) (g : Streams) : g ∈ HasPixels ((streamSim []).measure lab countingRequest) s 10 := by
  obtain ⟨q, a, h⟩ := stream_silent lab (withGenerators s g)
  exact ⟨_, a, _, h, rfl⟩

theorem stream_scan_none (lab : Labelling) (s : SimState Streams) (g : Streams) :
    g ∈ HasPixels ((streamScanSim []).measureScan lab flipRequest) s 2 := by
  obtain ⟨q, a, s0, h⟩ := stream_scan_silent lab (withGenerators s g)
  exact ⟨_, a, _, h, rfl⟩

end SimCATS
