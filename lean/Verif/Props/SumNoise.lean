import Verif.Lemmas.SumNoise

/-! C116: several white noises act like one. -/

namespace SimCATS

open Spec MeasureTheory ProbabilityTheory

variable {τ ω : Type} [MeasurableSpace τ]

/-- C116 (`measure`): white noises with independent generators as last distortions of the response.  The deviations of the pixels from the signal of
the same measurement without these noises are independent and normally distributed with mean 0, and the variance is the sum of the squares of the
strengths. -/
theorem C116_law (P : Measure τ) [IsProbabilityMeasure P] (sim : AnySim τ) (hd : Distinct sim) (pre : List (SigObject τ)) (m : ℕ) (i : Fin m → ℕ)
    (v : Fin m → ℝ) (hv : ∀ j, 0 ≤ v j) (noise : Fin m → ℝ → ℕ → M τ (List ℝ))
    (hr : sim.resp = some (pre ++ List.ofFn fun j => .additive (i j) (pure (v j)) (noise j))) (own : Fin m → τ → ω)
    (hocc : ∀ j, ∀ o ∈ sim.occ.getD [], OccUntouched (own j) o) (hpot : ∀ j, ∀ o ∈ sim.pot.getD [], SigUntouched (own j) o)
    (hpre : ∀ j, ∀ o ∈ pre, SigUntouched (own j) o) (hown : ∀ j l, j ≠ l → ∀ v n, Spec.Untouched (own j) (noise l v n)) (X : Fin m → ℕ → ω → ℝ)
    (hX : ∀ j, ScaledDraws (own j) (noise j) (X j)) (hN : IndependentNormal P own X) (lab : Labelling) (rq : Request) (s : SimState τ) (n : ℕ)
    (hn : ∀ᵐ g ∂P, g ∈ HasPixels (AnySim.measure { sim with resp := some pre } lab rq) s n) (B : ℕ → Set ℝ) (hB : ∀ k < n, MeasurableSet (B k)) :
    P.real (Differ (sim.measure lab rq) (AnySim.measure { sim with resp := some pre } lab rq) s n B) =
      ∏ k ∈ Finset.range n, (gaussianReal 0 (Real.toNNReal (∑ j, v j ^ 2))).real (B k) := by
  obtain ⟨h1, h2, h3⟩ := sums_law hN v
  refine sums_differ h1 h2 h3 hn (fun g y0 a s0 h0 => ?_) hB
  obtain ⟨y, s', h, -, hk⟩ := whites_path (F := fun resp => AnySim.measure { sim with resp := some resp } lab rq)
    (D := fun resp => Distinct { sim with resp := some resp })
    (O := fun own => (∀ o ∈ sim.occ.getD [], OccUntouched own o) ∧ ∀ o ∈ sim.pot.getD [], SigUntouched own o)
    (fun pre i sigma noise => measure_last (sim := { sim with resp := some (pre ++ [.additive i sigma noise]) }) rfl lab rq)
    (fun a b => distinct_prefix a b) (fun own pre hd ho hp s out s0 h => measure_own hd ho.1 ho.2 hp h) h0 i v noise own X hv
    (fun j => ⟨hocc j, hpot j⟩) (by rw [← hr]; exact hd) hpre hown hX
  rw [← hr] at h
  exact ⟨y, s', h, hk⟩

/-- Two noises of strengths 0.3 and 0.4 act like one of strength 0.5. -/
example (lab : Labelling) (s : SimState Streams) (B : ℕ → Set ℝ) (hB : ∀ k, MeasurableSet (B k)) :
    streams.real (Differ ((streamSim [streamWhite 0 0 0.3, streamWhite 1 1 0.4]).measure lab countingRequest)
      ((streamSim []).measure lab countingRequest) s 10 B) = ∏ k ∈ Finset.range 10, (gaussianReal 0 (Real.toNNReal (0.5 ^ 2))).real (B k) := by
  have h := C116_law streams (streamSim [streamWhite 0 0 0.3, streamWhite 1 1 0.4]) (by simp [Distinct, streamSim, Distinct.sigName, streamWhite]) [] 2
    (fun j => j) ![0.3, 0.4] (by intro j; fin_cases j <;> norm_num) streamNoise (by simp [streamSim, streamWhite, List.ofFn_succ]) (fun k g => g k)
    (by simp [streamSim]) (by simp [streamSim]) (by simp) (fun j l h v n => stream_untouched h v n) _ (fun j => stream_draws j) streams_independent lab
    countingRequest s 10 (.of_forall fun g => stream_none lab s g) B fun k _ => hB k
  refine h.trans ?_
  norm_num [Fin.sum_univ_two]

/-- C116 (`measure_sensor_scan`): the same for sensor scans. -/
theorem C116_scan_law (P : Measure τ) [IsProbabilityMeasure P] (sim : AnySim τ) (hd : Distinct sim) (pre : List (SigObject τ)) (m : ℕ) (i : Fin m → ℕ)
    (v : Fin m → ℝ) (hv : ∀ j, 0 ≤ v j) (noise : Fin m → ℝ → ℕ → M τ (List ℝ))
    (hr : sim.resp = some (pre ++ List.ofFn fun j => .additive (i j) (pure (v j)) (noise j))) (own : Fin m → τ → ω)
    (hpot : ∀ j, ∀ o ∈ sim.pot.getD [], SigUntouched (own j) o) (hpre : ∀ j, ∀ o ∈ pre, SigUntouched (own j) o)
    (hown : ∀ j l, j ≠ l → ∀ v n, Spec.Untouched (own j) (noise l v n)) (X : Fin m → ℕ → ω → ℝ) (hX : ∀ j, ScaledDraws (own j) (noise j) (X j))
    (hN : IndependentNormal P own X) (lab : Labelling) (rq : ScanRequest) (s : SimState τ) (n : ℕ)
    (hn : ∀ᵐ g ∂P, g ∈ HasPixels (AnySim.measureScan { sim with resp := some pre } lab rq) s n) (B : ℕ → Set ℝ) (hB : ∀ k < n, MeasurableSet (B k)) :
    P.real (Differ (sim.measureScan lab rq) (AnySim.measureScan { sim with resp := some pre } lab rq) s n B) =
      ∏ k ∈ Finset.range n, (gaussianReal 0 (Real.toNNReal (∑ j, v j ^ 2))).real (B k) := by
  obtain ⟨h1, h2, h3⟩ := sums_law hN v
  refine sums_differ h1 h2 h3 hn (fun g y0 a s0 h0 => ?_) hB
  obtain ⟨y, s', h, -, hk⟩ := whites_path (F := fun resp => AnySim.measureScan { sim with resp := some resp } lab rq)
    (D := fun resp => Distinct { sim with resp := some resp }) (O := fun own => ∀ o ∈ sim.pot.getD [], SigUntouched own o)
    (fun pre i sigma noise => measureScan_last (sim := { sim with resp := some (pre ++ [.additive i sigma noise]) }) rfl lab rq)
    (fun a b => distinct_prefix a b) (fun own pre hd ho hp s out s0 h => measureScan_own hd ho hp h) h0 i v noise own X hv hpot
    (by rw [← hr]; exact hd) hpre hown hX
  rw [← hr] at h
  exact ⟨y, s', h, hk⟩

example (lab : Labelling) (s : SimState Streams) (B : ℕ → Set ℝ) (hB : ∀ k, MeasurableSet (B k)) :
    streams.real (Differ ((streamScanSim [streamWhite 0 0 0.3, streamWhite 1 1 0.4]).measureScan lab flipRequest)
      ((streamScanSim []).measureScan lab flipRequest) s 2 B) = ∏ k ∈ Finset.range 2, (gaussianReal 0 (Real.toNNReal (0.5 ^ 2))).real (B k) := by
  have h := C116_scan_law streams (streamScanSim [streamWhite 0 0 0.3, streamWhite 1 1 0.4])
    (by simp [Distinct, streamScanSim, Distinct.sigName, streamWhite]) [] 2 (fun j => j) ![0.3, 0.4] (by intro j; fin_cases j <;> norm_num) streamNoise
    (by simp [streamScanSim, streamWhite, List.ofFn_succ]) (fun k g => g k) (by simp [streamScanSim]) (by simp)
    (fun j l h v n => stream_untouched h v n) _ (fun j => stream_draws j) streams_independent lab flipRequest s 2
    (.of_forall fun g => stream_scan_none lab s g) B fun k _ => hB k
  refine h.trans ?_
  norm_num [Fin.sum_univ_two]

end SimCATS
