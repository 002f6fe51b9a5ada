import Verif.Lemmas.JumpImage

/-!
Property C111: the dot jumps that are visible in an image.
-/

namespace SimCATS

open Spec MeasureTheory ProbabilityTheory

variable {τ : Type} [MeasurableSpace τ]

/-- C111 (jumps along gate 1): the probability that the columns `k`, ..., `k + l` of an image show the CSD shifted along gate 1, all of them by the same
number of pixels, which is in `B`: the ratio, times the probability that a jump covers `k` and lasts long enough, times the Poisson probability of
`B`.  The scale and the mean are given in volts and converted with `x` pixels per volt; as in the code (C36), the number of rows counts for this.  The
occupations must determine the voltage of gate 1, so that shifted columns can be told apart. -/
theorem C111_columns (P : Measure τ) [IsProbabilityMeasure P] (d : DotJumps τ) (ha : d.axis = .g1) (sc la : ℝ) (hsc : d.scale = pure sc)
    (hla : d.lam = pure la) (hv : d.rng.Valid) (gen : Gen (DotState × τ)) (F : ℝ → ℝ → ℝ × ℝ) (L : ℝ → ℝ → ℕ) (hg : SampledBy gen F L) (hF : ∀ v, Function.Injective fun u => F u v)
    (g1 g2 : ℝ × ℝ) (h1 : g1.1 < g1.2) (h2 : g2.1 ≤ g2.2) (rows cols : ℕ) (hr : 2 ≤ rows) (x : ℝ) (hx : x = rows / (g1.2 - g1.1)) (hs : 1 ≤ sc * x)
    (hd : CoinLengthsHeights P d.rng d.ratio (1 / (sc * x)) (la * x) cols) (k l : ℕ) (hk : k + l < cols) (B : Set ℕ) (h0 : 0 ∉ B) (st : DotState)
    (hc : 2 ≤ cols) : P.real (JumpImage d (grid2 F L g1 g2 rows cols) g1 g2 gen st fun out => ∃ h ∈ B, ColumnsShow F L g1 g2 rows cols k l h out) =
      d.ratio * ((1 - 1 / (sc * x)) ^ l * ((1 - (1 - 2 / (sc * x)) ^ k) / 2) * (poissonMeasure (la * x).toNNReal).real {h | h % 256 ∈ B}) :=
  (columns_img ha hsc hla hv hg h1 h2 hr hx hs hd hk h0 st).2 hc hF

/-- C111 (jumps along gate 1, any CSD): without the assumption on the occupations this is a lower bound, since columns of the undistorted image may
look like shifted ones. -/
theorem C111_columns_ge (P : Measure τ) [IsProbabilityMeasure P] (d : DotJumps τ) (ha : d.axis = .g1) (sc la : ℝ) (hsc : d.scale = pure sc)
    (hla : d.lam = pure la) (hv : d.rng.Valid) (gen : Gen (DotState × τ)) (F : ℝ → ℝ → ℝ × ℝ) (L : ℝ → ℝ → ℕ) (hg : SampledBy gen F L)
    (g1 g2 : ℝ × ℝ) (h1 : g1.1 < g1.2) (h2 : g2.1 ≤ g2.2) (rows cols : ℕ) (hr : 2 ≤ rows) (x : ℝ) (hx : x = rows / (g1.2 - g1.1)) (hs : 1 ≤ sc * x)
    (hd : CoinLengthsHeights P d.rng d.ratio (1 / (sc * x)) (la * x) cols) (k l : ℕ) (hk : k + l < cols) (B : Set ℕ) (h0 : 0 ∉ B) (st : DotState) :
    d.ratio * ((1 - 1 / (sc * x)) ^ l * ((1 - (1 - 2 / (sc * x)) ^ k) / 2) * (poissonMeasure (la * x).toNNReal).real {h | h % 256 ∈ B}) ≤
      P.real (JumpImage d (grid2 F L g1 g2 rows cols) g1 g2 gen st fun out => ∃ h ∈ B, ColumnsShow F L g1 g2 rows cols k l h out) :=
  (columns_img ha hsc hla hv hg h1 h2 hr hx hs hd hk h0 st).1

/-- C111 (jumps along gate 2): the probability that the rows `k`, ..., `k + l` of an image show the CSD shifted along gate 2, all of them by the same
number of pixels, which is in `B`: the ratio, times the probability that a jump covers `k` and lasts long enough, times the Poisson probability of
`B`.  The scale and the mean are given in volts and converted with `x` pixels per volt; as in the code (C36), the number of columns counts for this.  The
occupations must determine the voltage of gate 2, so that shifted rows can be told apart. -/
theorem C111_rows (P : Measure τ) [IsProbabilityMeasure P] (d : DotJumps τ) (ha : d.axis = .g2) (sc la : ℝ) (hsc : d.scale = pure sc)
    (hla : d.lam = pure la) (hv : d.rng.Valid) (gen : Gen (DotState × τ)) (F : ℝ → ℝ → ℝ × ℝ) (L : ℝ → ℝ → ℕ) (hg : SampledBy gen F L) (hF : ∀ u, Function.Injective fun v => F u v)
    (g1 g2 : ℝ × ℝ) (h1 : g1.1 ≤ g1.2) (h2 : g2.1 < g2.2) (rows cols : ℕ) (hc : 2 ≤ cols) (x : ℝ) (hx : x = cols / (g2.2 - g2.1)) (hs : 1 ≤ sc * x)
    (hd : CoinLengthsHeights P d.rng d.ratio (1 / (sc * x)) (la * x) rows) (k l : ℕ) (hk : k + l < rows) (B : Set ℕ) (h0 : 0 ∉ B) (st : DotState)
    (hr : 2 ≤ rows) : P.real (JumpImage d (grid2 F L g1 g2 rows cols) g1 g2 gen st fun out => ∃ h ∈ B, RowsShow F L g1 g2 rows cols k l h out) =
      d.ratio * ((1 - 1 / (sc * x)) ^ l * ((1 - (1 - 2 / (sc * x)) ^ k) / 2) * (poissonMeasure (la * x).toNNReal).real {h | h % 256 ∈ B}) :=
  (rows_img ha hsc hla hv hg h1 h2 hc hx hs hd hk h0 st).2 hr hF

/-- C111 (jumps along gate 2, any CSD): without the assumption on the occupations this is a lower bound, since rows of the undistorted image may
look like shifted ones. -/
theorem C111_rows_ge (P : Measure τ) [IsProbabilityMeasure P] (d : DotJumps τ) (ha : d.axis = .g2) (sc la : ℝ) (hsc : d.scale = pure sc)
    (hla : d.lam = pure la) (hv : d.rng.Valid) (gen : Gen (DotState × τ)) (F : ℝ → ℝ → ℝ × ℝ) (L : ℝ → ℝ → ℕ) (hg : SampledBy gen F L)
    (g1 g2 : ℝ × ℝ) (h1 : g1.1 ≤ g1.2) (h2 : g2.1 < g2.2) (rows cols : ℕ) (hc : 2 ≤ cols) (x : ℝ) (hx : x = cols / (g2.2 - g2.1)) (hs : 1 ≤ sc * x)
    (hd : CoinLengthsHeights P d.rng d.ratio (1 / (sc * x)) (la * x) rows) (k l : ℕ) (hk : k + l < rows) (B : Set ℕ) (h0 : 0 ∉ B) (st : DotState) :
    d.ratio * ((1 - 1 / (sc * x)) ^ l * ((1 - (1 - 2 / (sc * x)) ^ k) / 2) * (poissonMeasure (la * x).toNNReal).real {h | h % 256 ∈ B}) ≤
      P.real (JumpImage d (grid2 F L g1 g2 rows cols) g1 g2 gen st fun out => ∃ h ∈ B, RowsShow F L g1 g2 rows cols k l h out) :=
  (rows_img ha hsc hla hv hg h1 h2 hc hx hs hd hk h0 st).1

/-- The columns 1 and 2 show the image shifted by the same number of 1, 2, ... pixels with probability `1/12 * Po(2) {h | h % 256 ≠ 0}`. -/
example (st : DotState) : (jumpStreams 2).real (JumpImage (imageJumps .g1) (grid2 (fun u v => (u, v)) (fun _ _ => 0) (0, 1) (0, 1) 4 4) (0, 1) (0, 1)
    (sampleGen _ (fun u v => (u, v)) (fun _ _ => 0)) st fun out => ∃ h ∈ {h | h ≠ 0}, ColumnsShow (fun u v => (u, v)) (fun _ _ => 0) (0, 1) (0, 1) 4 4 1 1 h out) =
    1 / 12 * (poissonMeasure 2).real {h | h % 256 ≠ 0} := by
  have e : ((0.5 : ℝ) * 4).toNNReal = 2 := by norm_num
  have h := C111_columns (jumpStreams ((0.5 : ℝ) * 4).toNNReal) (imageJumps .g1) rfl 0.5 0.5 rfl rfl jumpRng_valid (sampleGen _ (fun u v => (u, v)) (fun _ _ => 0))
    (fun u v => (u, v)) (fun _ _ => 0) (sampleGen_sampled _ _ _) (fun v a b h => (Prod.mk.inj h).1) (0, 1) (0, 1) (by norm_num) (by norm_num) 4 4
    (by norm_num) 4 (by norm_num) (by norm_num) (jump_draws (by norm_num [imageJumps]) (by norm_num [imageJumps]) (by norm_num) (by norm_num) 4) 1 1 (by norm_num)
    {h | h ≠ 0} (by simp) st (by norm_num)
  rw [e] at h
  refine h.trans ?_
  simp only [imageJumps, Set.mem_ofPred_eq]
  norm_num
  ring

/-- Row 3 shows the image shifted by two pixels with probability `1/6 * Po(2) {2, 258, ...}`. -/
example (st : DotState) : (jumpStreams 2).real (JumpImage (imageJumps .g2) (grid2 (fun u v => (u, v)) (fun _ _ => 0) (0, 1) (0, 1) 4 4) (0, 1) (0, 1)
    (sampleGen _ (fun u v => (u, v)) (fun _ _ => 0)) st fun out => ∃ h ∈ ({2} : Set ℕ), RowsShow (fun u v => (u, v)) (fun _ _ => 0) (0, 1) (0, 1) 4 4 3 0 h out) =
    1 / 6 * (poissonMeasure 2).real {h | h % 256 = 2} := by
  have e : ((0.5 : ℝ) * 4).toNNReal = 2 := by norm_num
  have h := C111_rows (jumpStreams ((0.5 : ℝ) * 4).toNNReal) (imageJumps .g2) rfl 0.5 0.5 rfl rfl jumpRng_valid (sampleGen _ (fun u v => (u, v)) (fun _ _ => 0))
    (fun u v => (u, v)) (fun _ _ => 0) (sampleGen_sampled _ _ _) (fun v a b h => (Prod.mk.inj h).2) (0, 1) (0, 1) (by norm_num) (by norm_num) 4 4
    (by norm_num) 4 (by norm_num) (by norm_num) (jump_draws (by norm_num [imageJumps]) (by norm_num [imageJumps]) (by norm_num) (by norm_num) 4) 3 0 (by norm_num)
    {2} (by simp) st (by norm_num)
  rw [e] at h
  refine h.trans ?_
  simp only [imageJumps, Set.mem_singleton_iff]
  norm_num
  ring

end SimCATS
