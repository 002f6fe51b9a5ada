import Verif.Lemmas.TelegraphLaw

/-!
Property C105: the distribution of telegraph noise.
-/

namespace SimCATS

open Spec MeasureTheory ProbabilityTheory

/-- C105: the joint distribution of the pixels that telegraph noise changes.  The first pixel is never changed; after each pixel the
noise switches between "no burst" and "burst" with probability `1 / scale`, independently of everything before.  So the probability that
the first `k + 1` pixels have a given pattern `c` is the product of the probabilities of the switches in it. -/
theorem C105_pattern {τ : Type} [MeasurableSpace τ] (P : Measure τ) [IsProbabilityMeasure P] (rng : Rng τ) (hv : rng.Valid) (x : Scan ℝ)
    (scale std height : ℝ) (hs : 1 ≤ scale) (hg : GeometricDraws P rng (1 / scale) x.size)
    (hn : ∀ s, ∃ a s', rng.normal height std s = (.ok a, s') ∧ a ≠ 0) (c : ℕ → Bool) (k : ℕ) (hk : k < x.size) :
    P.real (Returns (telegraphNoise rng x (some scale) std height) fun y => ∀ j ≤ k, (Disturbed x y j ↔ c j = true)) =
      if c 0 = true then 0 else ∏ j ∈ Finset.range k, if c (j + 1) = c j then 1 - 1 / scale else 1 / scale := by
  obtain ⟨W, hW, hm, hi, hl⟩ := hg
  have hch := colour_chain hm (lengths_pos hv hs hW) hi hl
  rw [← hch.2 c k hk]
  congr 1
  refine returns_colour (telegraph_colour hv hs hn hW) _ _ fun s y hy => forall₂_congr fun j hj => ?_
  rw [hy j (by omega)]
  exact Bool.eq_iff_iff.symm

/-- C105: pixel `k` is changed with probability `(1 - (1 - 2 / scale) ^ k) / 2`: never for the first pixel, and for about half of the
pixels far from it. -/
theorem C105_pixel {τ : Type} [MeasurableSpace τ] (P : Measure τ) [IsProbabilityMeasure P] (rng : Rng τ) (hv : rng.Valid) (x : Scan ℝ)
    (scale std height : ℝ) (hs : 1 ≤ scale) (hg : GeometricDraws P rng (1 / scale) x.size)
    (hn : ∀ s, ∃ a s', rng.normal height std s = (.ok a, s') ∧ a ≠ 0) (k : ℕ) (hk : k < x.size) :
    P.real (Returns (telegraphNoise rng x (some scale) std height) fun y => Disturbed x y k) = (1 - (1 - 2 / scale) ^ k) / 2 := by
  obtain ⟨W, hW, hm, hi, hl⟩ := hg
  have hch := colour_chain hm (lengths_pos hv hs hW) hi hl
  have := hch.state k hk
  rw [show 2 * (1 / scale) = 2 / scale by ring] at this
  rw [← this]
  congr 1
  exact returns_colour (telegraph_colour hv hs hn hW) _ _ fun s y hy => hy k hk

/-- C105: the length of a burst.  Whatever the first pixels look like, if a burst begins at pixel `k + 1` then it has at least `m + 1`
pixels with probability `(1 - 1 / scale) ^ m` (as long as these pixels are in the image), so its expected length in an
image without an end would be `scale`. -/
theorem C105_burst {τ : Type} [MeasurableSpace τ] (P : Measure τ) [IsProbabilityMeasure P] (rng : Rng τ) (hv : rng.Valid) (x : Scan ℝ)
    (scale std height : ℝ) (hs : 1 ≤ scale) (hg : GeometricDraws P rng (1 / scale) x.size)
    (hn : ∀ s, ∃ a s', rng.normal height std s = (.ok a, s') ∧ a ≠ 0) (k m : ℕ) (hk : k + 1 + m < x.size) :
    P.real (Returns (telegraphNoise rng x (some scale) std height) fun y =>
        ¬ Disturbed x y k ∧ ∀ j ≤ m, Disturbed x y (k + 1 + j)) =
      (1 - 1 / scale) ^ m *
        P.real (Returns (telegraphNoise rng x (some scale) std height) fun y => ¬ Disturbed x y k ∧ Disturbed x y (k + 1)) := by
  obtain ⟨W, hW, hm, hi, hl⟩ := hg
  have hch := colour_chain hm (lengths_pos hv hs hW) hi hl
  have := hch.stays (k + 1) m hk {c | c ⟨k, by omega⟩ = false ∧ c ⟨k + 1, by omega⟩ = true}
  simp only [Set.mem_ofPred_eq] at this
  have e1 : Returns (telegraphNoise rng x (some scale) std height) (fun y => ¬ Disturbed x y k ∧ ∀ j ≤ m, Disturbed x y (k + 1 + j)) =
      {s | (colour W k s = false ∧ colour W (k + 1) s = true) ∧ ∀ j ≤ m, colour W (k + 1 + j) s = colour W (k + 1) s} := by
    refine returns_colour (telegraph_colour hv hs hn hW) _ _ fun s y hy => ?_
    rw [hy k (by omega), Bool.not_eq_true]
    constructor
    · rintro ⟨h1, h2⟩
      have h3 : ∀ j ≤ m, colour W (k + 1 + j) s = true := fun j hj => (hy _ (by omega)).1 (h2 j hj)
      exact ⟨⟨h1, h3 0 (by omega)⟩, fun j hj => by rw [h3 j hj]; exact (h3 0 (by omega)).symm⟩
    · rintro ⟨⟨h1, h2⟩, h3⟩
      exact ⟨h1, fun j hj => (hy _ (by omega)).2 (by rw [h3 j hj, h2])⟩
  have e2 : Returns (telegraphNoise rng x (some scale) std height) (fun y => ¬ Disturbed x y k ∧ Disturbed x y (k + 1)) =
      {s | colour W k s = false ∧ colour W (k + 1) s = true} := by
    refine returns_colour (telegraph_colour hv hs hn hW) _ _ fun s y hy => ?_
    rw [hy k (by omega), hy (k + 1) (by omega), Bool.not_eq_true]
  rw [e1, e2, this]

/-- A generator with independent lengths; an image of 2 x 3 pixels and a scale of 4 pixels: the last pixel is changed with probability
31/64. -/
example : lengthStreams.real (Returns (telegraphNoise lengthRng (.d2 2 3 fun _ _ => 1) (some 4) 0 5) fun y =>
    Disturbed (.d2 2 3 fun _ _ => 1) y 5) = 31 / 64 := by
  rw [C105_pixel lengthStreams lengthRng lengthRng_valid _ 4 0 5 (by norm_num) (lengthRng_draws (by norm_num) (by norm_num) _)
    (fun s => ⟨5, s, rfl, by norm_num⟩) 5 (by simp [Scan.size])]
  norm_num

/-- Exactly the second and the third pixel of four pixels are changed with probability 3/64. -/
example : lengthStreams.real (Returns (telegraphNoise lengthRng (.d1 4 fun _ => 1) (some 4) 0 5) fun y =>
    ∀ j ≤ 3, (Disturbed (.d1 4 fun _ => 1) y j ↔ (decide (j = 1 ∨ j = 2)) = true)) = 3 / 64 := by
  rw [C105_pattern lengthStreams lengthRng lengthRng_valid _ 4 0 5 (by norm_num) (lengthRng_draws (by norm_num) (by norm_num) _)
    (fun s => ⟨5, s, rfl, by norm_num⟩) (fun j => decide (j = 1 ∨ j = 2)) 3 (by simp [Scan.size])]
  simp [Finset.prod_range_succ]
  norm_num

end SimCATS
