import Verif.Lemmas.TwoScales

/-! Property C101 of the telegraph noise with separate scales for regions with and without bursts. -/

namespace SimCATS

open Spec

theorem addNoise_iff {x y : Scan ℝ} {noise : List ℝ} : addNoise x noise = .ok y ↔ Added x noise y := by
  refine ⟨addNoise_ok, ?_⟩
  rintro ⟨h1, h2⟩
  unfold addNoise
  rw [if_neg (not_not.mpr h1)]
  cases x <;> exact congrArg Except.ok h2.symm

/-- C101: for every outcome of the generator, the call returns the image `y` exactly if `y` is the given image plus, in
row-major order, the first values of regions without and with a burst in turn: the first region has no burst, the
lengths are drawn with the scale of the region, every burst has one drawn height, regions without burst change nothing,
and no more regions are drawn than are needed to cover the image. -/
theorem C101_regions {τ : Type} (rng : Rng τ) (hv : rng.Valid) (x y : Scan ℝ) (burst no std height : ℝ) (hb : burst ≠ 0)
    (s s' : τ) : telegraphTwoScales rng x burst no std height s = (.ok y, s') ↔
      ∃ l, Regions rng burst no std height 0 l s s' ∧ JustEnough x.size l ∧ Added x ((pixels l).take x.size) y := by
  have loop := fun out => twoScaleLoop_iff rng hv burst no std height x.size x.size 0 false [] s s' out (by simp) (by simp)
    (by rcases Nat.eq_zero_or_pos x.size with h | h
        · exact Or.inl h
        · exact Or.inr h)
  simp only [List.nil_append, List.length_nil, Nat.zero_add] at loop
  unfold telegraphTwoScales
  rw [if_neg hb]
  constructor
  · intro h
    obtain ⟨out, t, h1, h⟩ := M.bind_ok.1 h
    rw [ofPy_run] at h
    obtain ⟨hy, rfl⟩ := Prod.mk.inj h
    obtain ⟨l, hl, rfl, h2, h3⟩ := (loop out).1 h1
    exact ⟨l, hl, ⟨h2, h3⟩, addNoise_ok hy⟩
  · rintro ⟨l, hl, ⟨h2, h3⟩, h⟩
    refine M.bind_ok.2 ⟨_, _, (loop _).2 ⟨l, hl, rfl, h2, h3⟩, ?_⟩
    rw [ofPy_run, addNoise_iff.2 h]

/-- C101: with scales of at least one pixel the noise can be applied to every image, for every outcome of the generator. -/
theorem C101_total {τ : Type} (rng : Rng τ) (hv : rng.Valid) (x : Scan ℝ) (burst no std height : ℝ) (hb : 1 ≤ burst) (hn : 1 ≤ no)
    (hnorm : ∀ s, ∃ a s', rng.normal height std s = (.ok a, s')) (s : τ) :
    ∃ y s', telegraphTwoScales rng x burst no std height s = (.ok y, s') := by
  obtain ⟨out, s', h⟩ := twoScaleLoop_total rng hv burst no std height hb hn hnorm x.size x.size false [] s
  obtain ⟨l, -, hout, h2, -⟩ := (twoScaleLoop_iff rng hv burst no std height x.size x.size 0 false [] s s' out (by simp)
    (by simp) (by rcases Nat.eq_zero_or_pos x.size with h | h
                  · exact Or.inl h
                  · exact Or.inr h)).1 h
  obtain ⟨y, hy⟩ := addNoise_total x (out.take x.size) (by rw [List.length_take]; omega)
  refine ⟨y, s', ?_⟩
  unfold telegraphTwoScales
  rw [if_neg (by linarith)]
  refine M.bind_ok.2 ⟨_, _, h, ?_⟩
  rw [ofPy_run, hy]

/-- An image of four pixels with blocks of one pixel: every second pixel is raised by the height. -/
example : telegraphTwoScales plainRng (.d2 2 2 fun _ _ => 1) 3 2 0 5 () =
    (.ok (.d2 2 2 fun _ j => if j = 0 then 1 else 6), ()) := by
  rw [C101_regions plainRng plainRng_valid _ _ _ _ _ _ (by norm_num)]
  have g : ∀ p : ℝ, 0 < p → p ≤ 1 → plainRng.geometric p 1 () = (.ok fun _ => 1, ()) := by
    intro p h1 h2
    unfold plainRng
    dsimp only
    rw [if_pos ⟨h1, h2⟩]
  refine ⟨[(1, 0), (1, 5), (1, 0), (1, 5)], ?_, ⟨by simp [pixels, Scan.size], ?_⟩, ?_⟩
  · exact .quiet (w := fun _ => 1) (by decide) (by norm_num) (g _ (by norm_num) (by norm_num))
      (.loud (w := fun _ => 1) (by decide) (by norm_num) (g _ (by norm_num) (by norm_num)) rfl
        (.quiet (w := fun _ => 1) (by decide) (by norm_num) (g _ (by norm_num) (by norm_num))
          (.loud (w := fun _ => 1) (by decide) (by norm_num) (g _ (by norm_num) (by norm_num)) rfl .done)))
  · intro k hk
    have : k < 4 := hk
    obtain rfl | rfl | rfl | rfl : k = 0 ∨ k = 1 ∨ k = 2 ∨ k = 3 := by omega
    all_goals simp [pixels, Scan.size]
  · refine ⟨by simp [pixels, Scan.size], ?_⟩
    dsimp only
    congr 1
    funext i j
    fin_cases i <;> fin_cases j <;> norm_num [pixels, Scan.size]

/-- C101: a burst scale of zero means no noise and no random numbers. -/
theorem C101_scale_zero {τ : Type} (rng : Rng τ) (x : Scan ℝ) (no std height : ℝ) (s : τ) :
    telegraphTwoScales rng x 0 no std height s = (.ok x, s) := by
  unfold telegraphTwoScales
  rw [if_pos rfl]
  rfl

/-- C101: the scale of the regions without burst is checked for every image with pixels: zero raises a
`ZeroDivisionError`, other values below one pixel raise a `ValueError`. -/
theorem C101_quiet_scale {τ : Type} (rng : Rng τ) (hv : rng.Valid) (x : Scan ℝ) (hx : 0 < x.size) (burst no std height : ℝ)
    (hb : burst ≠ 0) (hn : no < 1) (s : τ) :
    telegraphTwoScales rng x burst no std height s = (.error (if no = 0 then .zeroDivisionError else .valueError), s) := by
  obtain ⟨m, hm⟩ : ∃ m, x.size = m + 1 := ⟨x.size - 1, by omega⟩
  unfold telegraphTwoScales
  rw [if_neg hb, M.bind_run, hm]
  unfold twoScaleLoop
  rw [M.bind_run, ofPy_run]
  unfold invScale
  by_cases h0 : no = 0
  · rw [if_pos h0, if_pos h0]
  · rw [if_neg h0, if_neg h0]
    dsimp only
    rw [M.bind_run, hv.geometric_error]
    rintro ⟨h1, h2⟩
    rw [one_div_pos] at h1
    rw [div_le_one h1] at h2
    linarith

/-- The hypotheses are met. -/
example : telegraphTwoScales plainRng (.d1 3 fun _ => 1) 2 0 0 5 () = (.error .zeroDivisionError, ()) := by
  rw [C101_quiet_scale plainRng plainRng_valid _ (by simp [Scan.size]) 2 0 0 5 (by norm_num) (by norm_num), if_pos rfl]

/-- C101, what happens for burst scales below one pixel: the call returns the image without noise if the first region
happens to cover all pixels, and raises a `ValueError` otherwise. -/
theorem C101_burst_scale_actual {τ : Type} (rng : Rng τ) (hv : rng.Valid) (x : Scan ℝ) (hx : 0 < x.size) (burst no std height : ℝ)
    (hb : burst ≠ 0) (hb1 : burst < 1) (hn : 1 ≤ no) (s : τ) :
    ∃ w t, rng.geometric (1 / no) 1 s = (.ok w, t) ∧ telegraphTwoScales rng x burst no std height s =
      (if x.size ≤ w 0 then .ok x else .error .valueError, t) := by
  obtain ⟨w, t, hw, h1⟩ := hv.geometric_ok (1 / no) 1 s (by positivity) (by rw [div_le_one (by linarith)]; exact hn)
  refine ⟨w, t, hw, ?_⟩
  obtain ⟨m, hm⟩ : ∃ m, x.size = m + 1 := ⟨x.size - 1, by omega⟩
  have hg : ∀ u, rng.geometric (1 / burst) 1 u = (.error .valueError, u) := by
    intro u
    refine hv.geometric_error _ _ _ ?_
    rintro ⟨h1, h2⟩
    rw [one_div_pos] at h1
    rw [div_le_one h1] at h2
    linarith
  by_cases hc : x.size ≤ w 0
  · rw [if_pos hc]
    rw [C101_regions rng hv x x burst no std height hb]
    refine ⟨[(w 0, 0)], .quiet (by decide) (by linarith) hw .done, ⟨by simpa [pixels] using hc, ?_⟩, ?_, ?_⟩
    · intro k hk
      obtain rfl : k = 0 := by simpa using hk
      simpa [pixels] using hx
    · simp only [pixels, List.flatMap_cons, List.flatMap_nil, List.append_nil, List.length_take, List.length_replicate]
      omega
    · have z : ∀ i, ((pixels [(w 0, 0)]).take x.size).getD i 0 = 0 := by
        intro i
        simp only [pixels, List.flatMap_cons, List.flatMap_nil, List.append_nil, List.take_replicate]
        rw [List.getD_eq_getElem?_getD, List.getElem?_replicate]
        split <;> rfl
      cases x with
      | d0 v => dsimp only; rw [z, add_zero]
      | d1 n f => dsimp only; congr 1; funext i; rw [z, add_zero]
      | d2 r c f => dsimp only; congr 1; funext i j; rw [z, add_zero]
  · rw [if_neg hc]
    cases m with
    | zero => exact absurd (h1 0 (by omega)) (by omega)
    | succ m =>
      unfold telegraphTwoScales
      rw [if_neg hb, M.bind_run, hm]
      unfold twoScaleLoop
      rw [M.bind_run, (invScale_ok (s := s)).2 ⟨show no ≠ 0 by linarith, rfl, rfl⟩]
      dsimp only
      rw [M.bind_run, hw]
      dsimp only
      rw [if_neg (by rw [List.nil_append, List.length_replicate]; omega)]
      unfold twoScaleLoop
      rw [M.bind_run, (invScale_ok (s := t)).2 ⟨hb, rfl, rfl⟩]
      dsimp only
      rw [M.bind_run, hg]

/-- With blocks of one pixel a burst scale of one half is rejected for an image of two pixels and accepted for one pixel. -/
example : (telegraphTwoScales plainRng (.d1 2 fun _ => 1) (1 / 2) 2 0 5 ()).1 = .error .valueError ∧
    (telegraphTwoScales plainRng (.d1 1 fun _ => 1) (1 / 2) 2 0 5 ()).1 = .ok (.d1 1 fun _ => 1) := by
  have g : ∀ w t, plainRng.geometric (1 / 2) 1 () = (.ok w, t) → w 0 = 1 := by
    intro w t h
    unfold plainRng at h
    dsimp only at h
    rw [if_pos ⟨by norm_num, by norm_num⟩] at h
    cases h
    rfl
  constructor
  · obtain ⟨w, t, hw, h⟩ := C101_burst_scale_actual plainRng plainRng_valid (.d1 2 fun _ => 1) (by simp [Scan.size]) (1 / 2) 2 0 5
      (by norm_num) (by norm_num) (by norm_num) ()
    rw [h, if_neg (by rw [g w t hw]; simp [Scan.size])]
  · obtain ⟨w, t, hw, h⟩ := C101_burst_scale_actual plainRng plainRng_valid (.d1 1 fun _ => 1) (by simp [Scan.size]) (1 / 2) 2 0 5
      (by norm_num) (by norm_num) (by norm_num) ()
    rw [h, if_pos (by rw [g w t hw]; simp [Scan.size])]

end SimCATS
