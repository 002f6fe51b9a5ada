import Verif.Props.Occupation

/-! Properties C13 and C14: lead transition masks. -/

namespace SimCATS

/-! ### C14 -/

theorem leadStep1d_fold (total : ℕ → ℝ) (l : List ℕ) (res : ℕ → ℕ) (i : ℕ)
    (hl : ∀ id ∈ l, total id ≠ total (id + 1)) :
    (l.foldl (leadStep1d total) res) i =
      open Classical in
      if (∃ id ∈ l, (i = id + 1 ∧ total id < total i) ∨ (i = id ∧ total (id + 1) < total i)) then toUint8 (total i)
      else res i := by
  induction l generalizing res with
  | nil => simp
  | cons a l ih =>
    rw [List.foldl_cons, ih _ fun id hid => hl id (List.mem_cons_of_mem _ hid)]
    have ha := hl a (by simp)
    by_cases h1 : ∃ id ∈ l, (i = id + 1 ∧ total id < total i) ∨ (i = id ∧ total (id + 1) < total i)
    · rw [if_pos h1, if_pos]
      obtain ⟨id, hid, h⟩ := h1
      exact ⟨id, List.mem_cons_of_mem _ hid, h⟩
    · rw [if_neg h1]
      have hiff : (∃ id ∈ a :: l, (i = id + 1 ∧ total id < total i) ∨ (i = id ∧ total (id + 1) < total i)) ↔
          (i = a + 1 ∧ total a < total i) ∨ (i = a ∧ total (a + 1) < total i) := by
        constructor
        · rintro ⟨id, hid, h⟩
          rcases List.mem_cons.1 hid with rfl | hid
          · exact h
          · exact absurd ⟨id, hid, h⟩ h1
        · intro h; exact ⟨a, by simp, h⟩
      simp only [hiff]
      unfold leadStep1d
      by_cases hlt : total a < total (a + 1)
      · rw [if_pos hlt]
        by_cases hi : i = a + 1
        · subst hi; simp [hlt]
        · rw [Function.update_of_ne hi, if_neg]
          rintro (⟨h, -⟩ | ⟨rfl, h⟩)
          · exact hi h
          · exact lt_asymm h hlt
      · rw [if_neg hlt]
        have hgt : total (a + 1) < total a := lt_of_le_of_ne (not_lt.1 hlt) (Ne.symm ha)
        by_cases hi : i = a
        · subst hi; simp [hgt]
        · rw [Function.update_of_ne hi, if_neg]
          rintro (⟨rfl, h⟩ | ⟨h, -⟩)
          · exact hlt h
          · exact hi h

/-- A neighbouring pixel of pixel `i` in a scan of `n` pixels. -/
def Neighbour (n i j : ℕ) : Prop := i < n ∧ j < n ∧ (i = j + 1 ∨ j = i + 1)

/-- C14, general form (any float totals): a pixel is labelled (with its own total, stored as `uint8`) exactly if a
neighbouring pixel has a smaller total; all other pixels are 0. -/
theorem C14_mask_general (n : ℕ) (total : ℕ → ℝ) (i : ℕ) (hi : i < n) :
    leadMask1d n total i =
      open Classical in if (∃ j, Neighbour n i j ∧ total j < total i) then toUint8 (total i) else 0 := by
  unfold leadMask1d
  rw [leadStep1d_fold]
  · have : (∃ id ∈ (List.range (n - 1)).filter (open Classical in fun id => decide (total id ≠ total (id + 1))),
        (i = id + 1 ∧ total id < total i) ∨ (i = id ∧ total (id + 1) < total i)) ↔
        ∃ j, Neighbour n i j ∧ total j < total i := by
      constructor
      · rintro ⟨id, hid, h⟩
        rw [List.mem_filter, List.mem_range] at hid
        rcases h with ⟨h, h'⟩ | ⟨h, h'⟩
        · exact ⟨id, ⟨hi, by omega, Or.inl h⟩, h'⟩
        · exact ⟨id + 1, ⟨hi, by omega, Or.inr (by omega)⟩, h'⟩
      · rintro ⟨j, ⟨-, hj, h | h⟩, h'⟩
        · subst h
          refine ⟨j, ?_, Or.inl ⟨rfl, h'⟩⟩
          rw [List.mem_filter, List.mem_range]
          exact ⟨by omega, by simpa using h'.ne⟩
        · subst h
          refine ⟨i, ?_, Or.inr ⟨rfl, h'⟩⟩
          rw [List.mem_filter, List.mem_range]
          exact ⟨by omega, by simpa using h'.ne'⟩
    classical
    exact if_congr this rfl rfl
  · intro id hid
    rw [List.mem_filter] at hid
    simpa using hid.2

/-- C14: for every sequence of (at most 255) electrons in total, a pixel is labelled exactly if a neighbouring pixel has
fewer electrons, the label is its own total electron number, all other pixels are 0. -/
theorem C14_mask_1d_partial (n : ℕ) (electrons : ℕ → ℕ) (hmax : ∀ i, electrons i ≤ 255) (i : ℕ) (hi : i < n) :
    leadMask1d n (fun k => (electrons k : ℝ)) i =
      open Classical in if (∃ j, Neighbour n i j ∧ electrons j < electrons i) then electrons i else 0 := by
  rw [C14_mask_general _ _ _ hi]
  have : toUint8 (electrons i : ℝ) = electrons i := by
    unfold toUint8
    rw [Nat.floor_natCast]
    exact Nat.mod_eq_of_lt (by have := hmax i; omega)
  classical
  refine if_congr ?_ this rfl
  simp only [Nat.cast_lt]

/-- Non-vacuity: in 0 1 1 0 the two middle pixels are labelled. -/
example : leadMask1d 4 (fun k => (((if k = 1 ∨ k = 2 then 1 else 0 : ℕ)) : ℝ)) 2 = 1 := by
  rw [C14_mask_1d_partial 4 (fun k => if k = 1 ∨ k = 2 then 1 else 0) (fun i => by split_ifs <;> omega) 2 (by omega)]
  rw [if_pos]
  · simp
  · exact ⟨3, ⟨by omega, by omega, Or.inr rfl⟩, by simp⟩

/-- C14 is violated for more than 255 electrons: the labels are stored as unsigned 8-bit integers, and a pixel with 256
electrons beside one with 255 electrons has the label 0. -/
theorem C14_refuted : ∃ electrons : ℕ → ℕ, ∃ i < 2, (∃ j, Neighbour 2 i j ∧ electrons j < electrons i) ∧
    electrons i = 256 ∧ leadMask1d 2 (fun k => (electrons k : ℝ)) i = 0 := by
  refine ⟨fun k => 255 + k, 1, by norm_num, ⟨0, ?_, by norm_num⟩, rfl, ?_⟩
  · simp [Neighbour]
  · rw [C14_mask_general _ _ _ (by norm_num)]
    have h : toUint8 (((255 + 1 : ℕ)) : ℝ) = 0 := by
      unfold toUint8
      rw [Nat.floor_natCast]
    split_ifs
    · exact h
    · rfl

/-! ### C13 -/

theorem pixId_mem {lo hi step c : ℝ} {res : ℕ} (hres : 2 ≤ res) (hlt : lo < hi) (hs : step = pixStep (lo, hi) res)
    (h1 : c > lo - 0.5 * step) (h2 : c < hi + 0.5 * step) :
    0 ≤ pixId lo step c ∧ pixId lo step c < res := by
  have hres' : (0 : ℝ) < (res : ℝ) - 1 := by
    have : (2 : ℝ) ≤ res := by exact_mod_cast hres
    linarith
  have hpos : 0 < step := by rw [hs]; exact div_pos (sub_pos.2 hlt) hres'
  have hmul : step * ((res : ℝ) - 1) = hi - lo := by rw [hs, pixStep, div_mul_cancel₀ _ hres'.ne']
  unfold pixId
  constructor
  · rw [Int.le_floor, Int.cast_zero]
    exact div_nonneg (by linarith) hpos.le
  · rw [Int.floor_lt, div_lt_iff₀ hpos]
    push_cast
    linarith

/-- The pixel index of a coordinate is the pixel whose voltage is within half a step. -/
theorem pixId_eq_iff {lo step c : ℝ} (hs : 0 < step) (k : ℤ) :
    pixId lo step c = k ↔ (lo + k * step) - step / 2 ≤ c ∧ c < (lo + k * step) + step / 2 := by
  unfold pixId
  rw [Int.floor_eq_iff, le_div_iff₀ hs, div_lt_iff₀ hs]
  constructor <;> rintro ⟨h1, h2⟩ <;> constructor <;> linarith

/-- Voltage of pixel `k` on an axis with `n` pixels and limits `lim` (`n ≥ 2`). -/
noncomputable def axisVolt (lim : ℝ × ℝ) (n : ℕ) (k : ℕ) : ℝ := lim.1 + k * ((lim.2 - lim.1) / (n - 1))

/-- The point lies within half a pixel of pixel (row `i`, column `j`): half-open boxes around the pixel voltages. -/
def NearPixel (xl yl : ℝ × ℝ) (xRes yRes : ℕ) (i j : ℕ) (p : ℝ × ℝ) : Prop :=
  let sx := (xl.2 - xl.1) / (xRes - 1)
  let sy := (yl.2 - yl.1) / (yRes - 1)
  axisVolt xl xRes j - sx / 2 ≤ p.1 ∧ p.1 < axisVolt xl xRes j + sx / 2 ∧
    axisVolt yl yRes i - sy / 2 ≤ p.2 ∧ p.2 < axisVolt yl yRes i + sy / 2

theorem writePixels_ok {xRes yRes v : ℕ} :
    ∀ (l : List (ℤ × ℤ)) (img : ℤ × ℤ → ℕ),
      (∀ id ∈ l, 0 ≤ id.1 ∧ id.1 < yRes ∧ 0 ≤ id.2 ∧ id.2 < xRes) →
      ∃ img', writePixels xRes yRes v l img = .ok img' ∧
        ∀ q, img' q = open Classical in if q ∈ l then v else img q
  | [], img, _ => ⟨img, rfl, by simp⟩
  | id :: l, img, h => by
    obtain ⟨a, b, c, d⟩ := h id (by simp)
    have hw : writePixel xRes yRes img id v = .ok (Function.update img id v) := by
      unfold writePixel
      simp only [not_lt.2 a, not_lt.2 c, if_false]
      rw [if_neg]
      rintro (h | h | h | h)
      · exact h
      · exact absurd h (not_le.2 b)
      · exact h
      · exact absurd h (not_le.2 d)
    obtain ⟨img', h1, h2⟩ := writePixels_ok l (Function.update img id v) fun q hq => h q (List.mem_cons_of_mem _ hq)
    refine ⟨img', ?_, fun q => ?_⟩
    · rw [writePixels, hw]; exact h1
    · rw [h2]
      by_cases hq : q ∈ l
      · simp [hq]
      · by_cases he : q = id
        · subst he; simp
        · simp [hq, he]

section
variable {xl yl : ℝ × ℝ} {xRes yRes : ℕ}

theorem tctPixels_mem (hx : 2 ≤ xRes) (hy : 2 ≤ yRes) (hxl : xl.1 < xl.2) (hyl : yl.1 < yl.2) (pts : List (ℝ × ℝ)) :
    ∀ id ∈ tctPixels xl yl xRes yRes pts, 0 ≤ id.1 ∧ id.1 < yRes ∧ 0 ≤ id.2 ∧ id.2 < xRes := by
  intro id hid
  unfold tctPixels at hid
  simp only [List.mem_map, List.mem_filter, decide_eq_true_eq] at hid
  obtain ⟨p, ⟨-, h1, h2, h3, h4⟩, rfl⟩ := hid
  obtain ⟨a, b⟩ := pixId_mem hy hyl rfl h3 h4
  obtain ⟨c, d⟩ := pixId_mem hx hxl rfl h1 h2
  exact ⟨a, b, c, d⟩

theorem pixStep_pos {lim : ℝ × ℝ} {n : ℕ} (hn : 2 ≤ n) (h : lim.1 < lim.2) : 0 < pixStep lim n := by
  have : (2 : ℝ) ≤ n := by exact_mod_cast hn
  exact div_pos (sub_pos.2 h) (by linarith)

/-- Pixel (i, j) of the image is written for a transition exactly if one of the sampled points strictly inside the
bounds is near it. -/
theorem mem_tctPixels (hx : 2 ≤ xRes) (hy : 2 ≤ yRes) (hxl : xl.1 < xl.2) (hyl : yl.1 < yl.2) (pts : List (ℝ × ℝ))
    (i j : ℕ) (hi : i < yRes) (hj : j < xRes) :
    ((i : ℤ), (j : ℤ)) ∈ tctPixels xl yl xRes yRes pts ↔
      ∃ p ∈ pts, NearPixel xl yl xRes yRes i j p ∧ xl.1 - pixStep xl xRes / 2 ≠ p.1 ∧ yl.1 - pixStep yl yRes / 2 ≠ p.2 := by
  have hsx := pixStep_pos hx hxl
  have hsy := pixStep_pos hy hyl
  unfold tctPixels
  simp only [List.mem_map, List.mem_filter, decide_eq_true_eq, Prod.mk.injEq]
  have hmx : pixStep xl xRes * ((xRes : ℝ) - 1) = xl.2 - xl.1 := by
    have : (2 : ℝ) ≤ xRes := by exact_mod_cast hx
    rw [pixStep, div_mul_cancel₀ _ (by linarith)]
  have hmy : pixStep yl yRes * ((yRes : ℝ) - 1) = yl.2 - yl.1 := by
    have : (2 : ℝ) ≤ yRes := by exact_mod_cast hy
    rw [pixStep, div_mul_cancel₀ _ (by linarith)]
  constructor
  · rintro ⟨p, ⟨hp, h1, h2, h3, h4⟩, e1, e2⟩
    rw [pixId_eq_iff hsy] at e1
    rw [pixId_eq_iff hsx] at e2
    refine ⟨p, hp, ⟨?_, ?_, ?_, ?_⟩, by intro hh; linarith, by intro hh; linarith⟩
    · simpa [axisVolt, pixStep] using e2.1
    · simpa [axisVolt, pixStep] using e2.2
    · simpa [axisVolt, pixStep] using e1.1
    · simpa [axisVolt, pixStep] using e1.2
  · rintro ⟨p, hp, ⟨a, b, c, d⟩, n1, n2⟩
    have a' : xl.1 + (j : ℝ) * pixStep xl xRes - pixStep xl xRes / 2 ≤ p.1 := a
    have b' : p.1 < xl.1 + (j : ℝ) * pixStep xl xRes + pixStep xl xRes / 2 := b
    have c' : yl.1 + (i : ℝ) * pixStep yl yRes - pixStep yl yRes / 2 ≤ p.2 := c
    have d' : p.2 < yl.1 + (i : ℝ) * pixStep yl yRes + pixStep yl yRes / 2 := d
    have hj0 : (0 : ℝ) ≤ j := Nat.cast_nonneg _
    have hi0 : (0 : ℝ) ≤ i := Nat.cast_nonneg _
    have hj1 : (j : ℝ) ≤ (xRes : ℝ) - 1 := by
      have : ((j + 1 : ℕ) : ℝ) ≤ (xRes : ℝ) := by exact_mod_cast hj
      push_cast at this; linarith
    have hi1 : (i : ℝ) ≤ (yRes : ℝ) - 1 := by
      have : ((i + 1 : ℕ) : ℝ) ≤ (yRes : ℝ) := by exact_mod_cast hi
      push_cast at this; linarith
    have jx0 := mul_nonneg hj0 hsx.le
    have iy0 := mul_nonneg hi0 hsy.le
    have jx1 := mul_le_mul_of_nonneg_right hj1 hsx.le
    have iy1 := mul_le_mul_of_nonneg_right hi1 hsy.le
    refine ⟨p, ⟨hp, ?_, by linarith, ?_, by linarith⟩, ?_, ?_⟩
    · have := lt_of_le_of_ne (by linarith : xl.1 - pixStep xl xRes / 2 ≤ p.1) n1
      linarith
    · have := lt_of_le_of_ne (by linarith : yl.1 - pixStep yl yRes / 2 ≤ p.2) n2
      linarith
    · rw [pixId_eq_iff hsy]; push_cast; exact ⟨c', d'⟩
    · rw [pixId_eq_iff hsx]; push_cast; exact ⟨a', b'⟩

end

/-- The label of a pixel: the last transition of the list (key, sampled points) with a sampled point near the pixel
(points exactly on the outermost lower image borders are not counted), 0 without such a transition. -/
noncomputable def lastLabel (near : ℝ × ℝ → Prop) : List (ℕ × List (ℝ × ℝ)) → ℕ
  | [] => 0
  | (k, pts) :: rest =>
    open Classical in
    if (∃ kp ∈ rest, ∃ p ∈ kp.2, near p) then lastLabel near rest else if (∃ p ∈ pts, near p) then k else 0

theorem leadLoop2d_ok {rot : ℝ} {lut : Option ℕ} {xl yl : ℝ × ℝ} {xRes yRes : ℕ} (hx : 2 ≤ xRes) (hy : 2 ≤ yRes)
    (hxl : xl.1 < xl.2) (hyl : yl.1 < yl.2) :
    ∀ (dict : List (ℕ × TctParams)) (samples : List (ℕ × List (ℝ × ℝ))) (img : ℤ × ℤ → ℕ),
      List.Forall₂ (fun kp s => kp.1 = s.1 ∧ tctSamples rot lut xl yl xRes yRes kp = .ok s.2) dict samples →
      ∃ img', leadLoop2d rot lut xl yl xRes yRes dict img = .ok img' ∧
        ∀ q, img' q = open Classical in
          if (∃ s ∈ samples, q ∈ tctPixels xl yl xRes yRes s.2) then
            lastLabel (fun p => q ∈ tctPixels xl yl xRes yRes [p]) samples
          else img q := by
  have hsingle : ∀ q pts, q ∈ tctPixels xl yl xRes yRes pts ↔ ∃ p ∈ pts, q ∈ tctPixels xl yl xRes yRes [p] := by
    intro q pts
    unfold tctPixels
    simp only [List.mem_map, List.mem_filter, decide_eq_true_eq, List.mem_singleton]
    constructor
    · rintro ⟨p, ⟨hp, h⟩, e⟩; exact ⟨p, hp, p, ⟨rfl, h⟩, e⟩
    · rintro ⟨p, hp, p', ⟨rfl, h⟩, e⟩; exact ⟨p', ⟨hp, h⟩, e⟩
  intro dict samples img h
  induction h generalizing img with
  | nil => exact ⟨img, rfl, by simp⟩
  | @cons kp s dict samples hks hrest ih =>
    obtain ⟨img1, h1, h2⟩ := writePixels_ok (v := kp.1) (tctPixels xl yl xRes yRes s.2) img
      (tctPixels_mem hx hy hxl hyl s.2)
    obtain ⟨img2, h3, h4⟩ := ih img1
    refine ⟨img2, ?_, fun q => ?_⟩
    · rw [leadLoop2d, hks.2]; simp only; rw [h1]; exact h3
    · rw [h4, h2]
      rw [lastLabel]
      by_cases hq : ∃ s ∈ samples, q ∈ tctPixels xl yl xRes yRes s.2
      · have hq' : ∃ kp ∈ samples, ∃ p ∈ kp.2, q ∈ tctPixels xl yl xRes yRes [p] := by
          obtain ⟨s, hs, h⟩ := hq
          exact ⟨s, hs, (hsingle _ _).1 h⟩
        rw [if_pos hq, if_pos, if_pos hq']
        obtain ⟨s, hs, h⟩ := hq
        exact ⟨s, List.mem_cons_of_mem _ hs, h⟩
      · have hq' : ¬ ∃ kp ∈ samples, ∃ p ∈ kp.2, q ∈ tctPixels xl yl xRes yRes [p] := by
          rintro ⟨s, hs, h⟩
          exact hq ⟨s, hs, (hsingle _ _).2 h⟩
        rw [if_neg hq, if_neg hq', hks.1]
        by_cases h' : q ∈ tctPixels xl yl xRes yRes s.2
        · rw [if_pos h', if_pos ⟨s, by simp, h'⟩, if_pos ((hsingle _ _).1 h')]
        · rw [if_neg h', if_neg]
          rintro ⟨t, ht, h⟩
          rcases List.mem_cons.1 ht with rfl | ht
          · exact h' h
          · exact hq ⟨t, ht, h⟩

/-- The sampled points of the transition in voltage space: `(x, f x)` rotated, for equidistant `x` from one pixel left of
the image to one pixel right of it (in the coordinates of the transitions). -/
noncomputable def samplePoints (cfg : IdealCfg) (xl yl : ℝ × ℝ) (xRes yRes : ℕ) (f : ℝ → ℝ) : List (ℝ × ℝ) :=
  List.ofFn fun i => rotatePoint cfg.rotation (sampleXs cfg.rotation xl yl xRes yRes i,
    f (sampleXs cfg.rotation xl yl xRes yRes i))

theorem samples_of_curves {cfg : IdealCfg} {xl yl : ℝ × ℝ} {xRes yRes : ℕ} : ∀ {k : ℕ} {ps : List TctParams}
    {fs : List (ℝ → ℝ)}, IsCurves cfg.lut k ps fs →
    List.Forall₂ (fun kp s => kp.1 = s.1 ∧ tctSamples cfg.rotation cfg.lut xl yl xRes yRes kp = .ok s.2)
      (tctDict ps k) ((fs.zipIdx k).map fun fi => (fi.2, samplePoints cfg xl yl xRes yRes fi.1))
  | _, [], [], _ => List.Forall₂.nil
  | k, p :: ps, f :: fs, h => by
    rw [tctDict_cons, List.zipIdx_cons, List.map_cons]
    refine List.Forall₂.cons ⟨rfl, ?_⟩ (samples_of_curves h.2.2)
    unfold tctSamples
    simp only
    rw [h.2.1]
    rfl
  | _, [], _ :: _, h => absurd h (by simp [IsCurves])
  | _, _ :: _, [], h => absurd h (by simp [IsCurves])

/-- `p` is near pixel (i, j) and not exactly on the outer lower border of the image. -/
def Marks (xl yl : ℝ × ℝ) (xRes yRes i j : ℕ) (p : ℝ × ℝ) : Prop :=
  NearPixel xl yl xRes yRes i j p ∧ xl.1 - (xl.2 - xl.1) / (xRes - 1) / 2 ≠ p.1 ∧
    yl.1 - (yl.2 - yl.1) / (yRes - 1) / 2 ≠ p.2

theorem lastLabel_congr {near near' : ℝ × ℝ → Prop} (h : ∀ p, near p ↔ near' p) (l : List (ℕ × List (ℝ × ℝ))) :
    lastLabel near l = lastLabel near' l := by
  have : near = near' := funext fun p => propext (h p)
  rw [this]

theorem lastLabel_zero {near : ℝ × ℝ → Prop} {l : List (ℕ × List (ℝ × ℝ))}
    (h : ¬ ∃ s ∈ l, ∃ p ∈ s.2, near p) : lastLabel near l = 0 := by
  induction l with
  | nil => rfl
  | cons a l ih =>
    rw [lastLabel, if_neg, if_neg]
    · rintro ⟨p, hp, hn⟩; exact h ⟨a, by simp, p, hp, hn⟩
    · rintro ⟨s, hs, r⟩; exact h ⟨s, List.mem_cons_of_mem _ hs, r⟩

/-- C13: for valid transitions, increasing limits and at least two pixels per axis the 2D mask is produced without an
index error, and the label of every pixel is the number of the last transition with a sampled point within half a pixel,
or 0 without such a transition. -/
theorem C13_mask_2d (cfg : IdealCfg) (curves : List (ℝ → ℝ)) (h : IsCurves cfg.lut 1 cfg.params curves)
    (xl yl : ℝ × ℝ) (xRes yRes : ℕ) (hx : 2 ≤ xRes) (hy : 2 ≤ yRes) (hxl : xl.1 < xl.2) (hyl : yl.1 < yl.2) :
    ∃ img, leadMask2d cfg xl yl xRes yRes = .ok img ∧ ∀ i j : ℕ, i < yRes → j < xRes →
      img (i, j) = lastLabel (Marks xl yl xRes yRes i j)
        ((curves.zipIdx 1).map fun fi => (fi.2, samplePoints cfg xl yl xRes yRes fi.1)) := by
  obtain ⟨img, h1, h2⟩ := leadLoop2d_ok hx hy hxl hyl _ _ (fun _ => 0)
    (samples_of_curves (xl := xl) (yl := yl) (xRes := xRes) (yRes := yRes) h)
  refine ⟨img, h1, fun i j hi hj => ?_⟩
  rw [h2]
  have hm : ∀ p, ((i : ℤ), (j : ℤ)) ∈ tctPixels xl yl xRes yRes [p] ↔ Marks xl yl xRes yRes i j p := by
    intro p
    rw [mem_tctPixels hx hy hxl hyl [p] i j hi hj]
    simp [Marks, pixStep]
  rw [lastLabel_congr hm]
  split_ifs with hc
  · rfl
  · symm
    apply lastLabel_zero
    rintro ⟨s, hs, p, hp, hn⟩
    refine hc ⟨s, hs, ?_⟩
    rw [mem_tctPixels hx hy hxl hyl _ i j hi hj]
    exact ⟨p, hp, by simpa [Marks, pixStep] using hn⟩

/-- C13: a pixel has label `k > 0` only if a sampled point of transition `k` lies within half a pixel of it. -/
theorem C13_label_near (cfg : IdealCfg) (curves : List (ℝ → ℝ)) (h : IsCurves cfg.lut 1 cfg.params curves)
    (xl yl : ℝ × ℝ) (xRes yRes : ℕ) (hx : 2 ≤ xRes) (hy : 2 ≤ yRes) (hxl : xl.1 < xl.2) (hyl : yl.1 < yl.2)
    (img : ℤ × ℤ → ℕ) (him : leadMask2d cfg xl yl xRes yRes = .ok img) (i j : ℕ) (hi : i < yRes) (hj : j < xRes)
    (hk : img (i, j) ≠ 0) :
    ∃ f, curves[img (i, j) - 1]? = some f ∧ ∃ x, NearPixel xl yl xRes yRes i j (rotatePoint cfg.rotation (x, f x)) := by
  obtain ⟨img', e, h2⟩ := C13_mask_2d cfg curves h xl yl xRes yRes hx hy hxl hyl
  rw [him] at e
  cases e
  rw [h2 i j hi hj] at hk ⊢
  have key : ∀ (l : List (ℕ × List (ℝ × ℝ))), lastLabel (Marks xl yl xRes yRes i j) l ≠ 0 →
      ∃ s ∈ l, s.1 = lastLabel (Marks xl yl xRes yRes i j) l ∧ ∃ p ∈ s.2, Marks xl yl xRes yRes i j p := by
    intro l
    induction l with
    | nil => intro h; exact absurd rfl h
    | cons a l ih =>
      intro hne
      rw [lastLabel] at hne ⊢
      by_cases h1 : ∃ kp ∈ l, ∃ p ∈ kp.2, Marks xl yl xRes yRes i j p
      · rw [if_pos h1] at hne ⊢
        obtain ⟨s, hs, r⟩ := ih hne
        exact ⟨s, List.mem_cons_of_mem _ hs, r⟩
      · rw [if_neg h1] at hne ⊢
        by_cases h2 : ∃ p ∈ a.2, Marks xl yl xRes yRes i j p
        · rw [if_pos h2]
          exact ⟨a, by simp, rfl, h2⟩
        · rw [if_neg h2] at hne
          exact absurd rfl hne
  obtain ⟨s, hs, e, p, hp, hm⟩ := key _ hk
  rw [List.mem_map] at hs
  obtain ⟨⟨f, k⟩, hfk, rfl⟩ := hs
  rw [List.mem_zipIdx_iff_le_and_getElem?_sub] at hfk
  simp only at e hp
  rw [← e]
  refine ⟨f, hfk.2, ?_⟩
  unfold samplePoints at hp
  rw [List.mem_ofFn] at hp
  obtain ⟨m, rfl⟩ := hp
  exact ⟨_, hm.1⟩

/-- C13: the sampled range of every transition covers the image: in the coordinates of the transitions, every point of the
image has an abscissa strictly between the first and the last sample. -/
theorem C13_sampling_covers (rot : ℝ) (xl yl : ℝ × ℝ) (xRes yRes : ℕ) (hx : 2 ≤ xRes) (hxl : xl.1 < xl.2)
    (hn : 2 ≤ (xRes + yRes) * 4) (X Y : ℝ) (h1 : xl.1 ≤ X) (h2 : X ≤ xl.2) (h3 : yl.1 ≤ Y) (h4 : Y ≤ yl.2) :
    sampleXs rot xl yl xRes yRes ⟨0, by omega⟩ < (rotatePoint (-rot) (X, Y)).1 ∧
      (rotatePoint (-rot) (X, Y)).1 < sampleXs rot xl yl xRes yRes ⟨(xRes + yRes) * 4 - 1, by omega⟩ := by
  have hs := pixStep_pos hx hxl
  have hn' : (((xRes + yRes) * 4 : ℕ) : ℝ) - 1 ≠ 0 := by
    have : (2 : ℝ) ≤ (((xRes + yRes) * 4 : ℕ) : ℝ) := by exact_mod_cast hn
    linarith
  have e0 : sampleXs rot xl yl xRes yRes ⟨0, by omega⟩ = listMin (cornersX rot xl yl) - pixStep xl xRes := by
    simp [sampleXs, linspace, linAt]
  have e1 : sampleXs rot xl yl xRes yRes ⟨(xRes + yRes) * 4 - 1, by omega⟩ =
      listMax (cornersX rot xl yl) + pixStep xl xRes := by
    unfold sampleXs linspace linAt
    simp only
    rw [Nat.cast_sub (by omega), Nat.cast_one, mul_div_cancel₀ _ hn']
    ring
  rw [e0, e1]
  have lin : ∀ a b : ℝ, (rotatePoint (-rot) (a, b)).1 = Real.cos rot * a + Real.sin rot * b := by
    intro a b; simp [rotatePoint]
  have emin : listMin (cornersX rot xl yl) ≤ Real.cos rot * X + Real.sin rot * Y := by
    simp only [listMin, cornersX, List.map_cons, List.map_nil, List.foldl_cons, List.foldl_nil, lin]
    rcases le_total 0 (Real.cos rot) with hc | hc <;> rcases le_total 0 (Real.sin rot) with hsn | hsn
    · refine le_trans ((min_le_left _ _).trans ((min_le_left _ _).trans (min_le_left _ _))) ?_
      nlinarith
    · refine le_trans ((min_le_left _ _).trans ((min_le_left _ _).trans (min_le_right _ _))) ?_
      nlinarith
    · refine le_trans ((min_le_left _ _).trans (min_le_right _ _)) ?_
      nlinarith
    · refine le_trans (min_le_right _ _) ?_
      nlinarith
  have emax : Real.cos rot * X + Real.sin rot * Y ≤ listMax (cornersX rot xl yl) := by
    simp only [listMax, cornersX, List.map_cons, List.map_nil, List.foldl_cons, List.foldl_nil, lin]
    rcases le_total 0 (Real.cos rot) with hc | hc <;> rcases le_total 0 (Real.sin rot) with hsn | hsn
    · refine le_trans ?_ (le_max_right _ _)
      nlinarith
    · refine le_trans ?_ ((le_max_right _ _).trans (le_max_left _ _))
      nlinarith
    · refine le_trans ?_ (((le_max_right _ _).trans (le_max_left _ _)).trans (le_max_left _ _))
      nlinarith
    · refine le_trans ?_ (((le_max_left _ _).trans (le_max_left _ _)).trans (le_max_left _ _))
      nlinarith
  rw [lin]
  constructor <;> linarith

example : ∃ curves, IsCurves sampleCfg.lut 1 sampleCfg.params curves := C05_curves_exist _ sampleCfg_ok

end SimCATS
