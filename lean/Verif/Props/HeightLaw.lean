import Verif.Lemmas.HeightLaw

/-!
Property C110: the heights of dot jumps and telegraph noise.
-/

namespace SimCATS

open Spec MeasureTheory ProbabilityTheory

/-- C110: the jump heights that `OccupationDotJumps` generates.  For a set `B` of heights without 0, the positions `k`, ..., `k + l`
are in a common jump with a height in `B` with probability `(1 - 1 / scale) ^ l` (the jump is long enough) times
`(1 - (1 - 2 / scale) ^ k) / 2` (position `k` is in a jump) times the probability of `B` under the Poisson distribution, taken modulo 256
because the heights are stored as unsigned bytes. -/
theorem C110_jump {τ : Type} [MeasurableSpace τ] (P : Measure τ) [IsProbabilityMeasure P] (rng : Rng τ) (hv : rng.Valid) (size : ℕ)
    (scale lam : ℝ) (hs : 1 ≤ scale) (hd : LengthsThenHeights P rng (1 / scale) size (rng.poisson lam) (poissonMeasure lam.toNNReal))
    (k l : ℕ) (hk : k + l < size) (B : Set ℕ) (hB : 0 ∉ B) :
    P.real (Returns (generateJumps rng size scale lam) fun out => Plateau (fun i => out.getD i 0) k l B) =
      (1 - 1 / scale) ^ l * ((1 - (1 - 2 / scale) ^ k) / 2) * (poissonMeasure lam.toNNReal).real {h | h % 256 ∈ B} := by
  obtain ⟨W, H, hW, hWm, hHm, hi, hWH, hg, hQ⟩ := hd
  have h1 : ∀ i s, 1 ≤ W i s := lengths_pos hv hs fun s => by
    obtain ⟨w, s', e, hw, -⟩ := hW s
    exact ⟨w, s', e, hw⟩
  choose out s' ho hl v hsig hov using fun s => jumps_signal (lam := lam) hv hs s (hW s)
  have hmod : Measurable fun h : ℕ => h % 256 := measurable_of_countable _
  have hlaw := plateau_law (P := P) (H := fun b s => H b s % 256) (Q := (poissonMeasure lam.toNNReal).map fun h => h % 256) (zero := 0)
    (v := fun s i => v s i % 256) hWm h1 hi hg (fun b => hmod.comp (hHm b))
    (hWH.comp measurable_id (measurable_pi_iff.2 fun b => hmod.comp (measurable_pi_apply b)))
    (fun b => by rw [← hQ b, Measure.map_map hmod (hHm b)]; rfl)
    (fun s => heightSignal_map (fun h => h % 256) (hsig s)) hk MeasurableSet.of_discrete hB
  rw [map_measureReal_apply hmod MeasurableSet.of_discrete, show 2 * (1 / scale) = 2 / scale by ring] at hlaw
  rw [show ({h | h % 256 ∈ B} : Set ℕ) = (fun h => h % 256) ⁻¹' B from rfl, ← hlaw]
  congr 1
  ext s
  constructor
  · rintro ⟨o, t, e, h⟩
    rw [ho s] at e
    cases e
    simp only [hov] at h
    exact h
  · intro h
    exact ⟨out s, s' s, ho s, by simp only [hov]; exact h⟩

/-- C110: a jump of height 1, 2, ... (at most 255) that covers the positions `k`, ..., `k + l` has the Poisson probability of that height
as its share, up to heights that differ by multiples of 256. -/
theorem C110_jump_height {τ : Type} [MeasurableSpace τ] (P : Measure τ) [IsProbabilityMeasure P] (rng : Rng τ) (hv : rng.Valid) (size : ℕ)
    (scale lam : ℝ) (hs : 1 ≤ scale) (hd : LengthsThenHeights P rng (1 / scale) size (rng.poisson lam) (poissonMeasure lam.toNNReal))
    (k : ℕ) (hk : k < size) (h : ℕ) (h0 : 0 < h) :
    P.real (Returns (generateJumps rng size scale lam) fun out => out.getD k 0 = h) =
      (1 - (1 - 2 / scale) ^ k) / 2 * (poissonMeasure lam.toNNReal).real {j | j % 256 = h} := by
  have := C110_jump P rng hv size scale lam hs hd k 0 hk {h} (fun e => by simp at e; omega)
  rw [pow_zero, one_mul] at this
  simp only [Set.mem_singleton_iff] at this
  rw [← this]
  congr 1
  ext s
  refine exists_congr fun o => exists_congr fun t => and_congr_right fun _ => ⟨fun e => ⟨e, fun j hj => ?_⟩, fun e => e.1⟩
  rw [Nat.le_zero.1 hj]
  rfl

/-- C110: the heights of telegraph noise.  For a set `B` of heights without 0, the pixels `k`, ..., `k + l` are in a common burst with
a height in `B` with probability `(1 - 1 / scale) ^ l` times `(1 - (1 - 2 / scale) ^ k) / 2` times the probability of `B` under
the normal distribution with mean `height` and standard deviation `std`. -/
theorem C110_burst {τ : Type} [MeasurableSpace τ] (P : Measure τ) [IsProbabilityMeasure P] (rng : Rng τ) (hv : rng.Valid) (x : Scan ℝ)
    (scale std height : ℝ) (hs : 1 ≤ scale)
    (hd : LengthsThenHeights P rng (1 / scale) x.size (rng.normal height std) (gaussianReal height (std ^ 2).toNNReal))
    (k l : ℕ) (hk : k + l < x.size) (B : Set ℝ) (hB : MeasurableSet B) (h0 : 0 ∉ B) :
    P.real (Returns (telegraphNoise rng x (some scale) std height) fun y => Plateau (fun i => pixelAt y i - pixelAt x i) k l B) =
      (1 - 1 / scale) ^ l * ((1 - (1 - 2 / scale) ^ k) / 2) * (gaussianReal height (std ^ 2).toNNReal).real B := by
  obtain ⟨W, H, hW, hWm, hHm, hi, hWH, hg, hQ⟩ := hd
  have h1 : ∀ i s, 1 ≤ W i s := lengths_pos hv hs fun s => by
    obtain ⟨w, s', e, hw, -⟩ := hW s
    exact ⟨w, s', e, hw⟩
  choose y s' hy hsig using fun s => telegraph_signal (x := x) hv hs s (hW s)
  have hlaw := plateau_law (P := P) (v := fun s i => pixelAt (y s) i - pixelAt x i) hWm h1 hi hg hHm hWH hQ hsig hk hB h0
  rw [show 2 * (1 / scale) = 2 / scale by ring] at hlaw
  rw [← hlaw]
  congr 1
  ext s
  constructor
  · rintro ⟨o, t, e, h⟩
    rw [hy s] at e
    cases e
    exact h
  · intro h
    exact ⟨y s, s' s, hy s, h⟩

/-- A generator with independent lengths and heights, mean height 2 and scale 4: position 1 of three positions is in a jump of height 1
with probability `1/4 * Po(2) {1, 257, ...}`. -/
example : (heightStreams 2).real (Returns (generateJumps heightRng 3 4 2) fun out => out.getD 1 0 = 1) =
    1 / 4 * (poissonMeasure 2).real {j | j % 256 = 1} := by
  have e : (2 : ℝ).toNNReal = 2 := by simp
  have := C110_jump_height (heightStreams 2) heightRng heightRng_valid 3 4 2 (by norm_num)
    (by rw [e]; exact poisson_draws 2 (by norm_num) (by norm_num) 3 2) 1 (by norm_num) 1 (by norm_num)
  rw [this, e]
  norm_num

/-- All three of the last positions of four are in a jump of any positive height. -/
example : (heightStreams 2).real (Returns (generateJumps heightRng 4 4 2) fun out => Plateau (fun i => out.getD i 0) 1 2 {h | h ≠ 0}) =
    9 / 64 * (poissonMeasure 2).real {j | j % 256 ≠ 0} := by
  have e : (2 : ℝ).toNNReal = 2 := by simp
  have := C110_jump (heightStreams 2) heightRng heightRng_valid 4 4 2 (by norm_num)
    (by rw [e]; exact poisson_draws 2 (by norm_num) (by norm_num) 4 2) 1 2 (by norm_num) {h | h ≠ 0} (by simp)
  rw [this, e]
  simp only [Set.mem_ofPred_eq]
  norm_num

/-- Pixels 1 and 2 of an image of 2 x 3 pixels are in a common burst with a height between 1 and 2, for the mean height 1.5 and the
standard deviation 0.1. -/
example : (heightStreams 2).real (Returns (telegraphNoise heightRng (.d2 2 3 fun _ _ => 1) (some 4) 0.1 1.5) fun y =>
    Plateau (fun i => pixelAt y i - pixelAt (.d2 2 3 fun _ _ => 1) i) 1 1 (Set.Icc 1 2)) =
    3 / 16 * (gaussianReal 1.5 (0.1 ^ 2 : ℝ).toNNReal).real (Set.Icc 1 2) := by
  rw [C110_burst (heightStreams 2) heightRng heightRng_valid (.d2 2 3 fun _ _ => 1) 4 0.1 1.5 (by norm_num)
    (normal_draws 2 (by norm_num) (by norm_num) _ _ _) 1 1 (by simp [Scan.size]) (Set.Icc 1 2) measurableSet_Icc (by norm_num)]
  norm_num

end SimCATS
