import Verif.Lemmas.JumpsDirect

/-!
C98: direct calls of the exported function for dot jumps.
-/

namespace SimCATS

open Spec

/-- **C98** (first image).  If `dot_jumps_blockwise` without given jumps succeeds, it returns jumps that are a two-state
signal of drawn heights (modulo 256, see C57), and the image shifted by these jumps.
Missing for the full property: success and correct shifts with numpy >= 2 (see `C98_refuted`); there it needs images of
at most 256 pixels and jumps that do not reach over the border. -/
theorem C98_first_partial {τ α : Type} (np2 : Bool) (rng : Rng τ) (hv : rng.Valid) (axis : Axis) (rows cols : ℕ)
    (orig : ℕ → ℕ → Option α) (scale lam : ℝ) (hs : scale ≠ 0) (empty : ℕ → ℕ → Option α) (s s' : τ)
    (out : (ℕ → ℕ → Option α) × JumpArr)
    (h : jumpsDirect np2 rng axis rows cols orig scale lam none empty s = (.ok out, s'))
    (hu : np2 = false ∨ InsideImage (axisLength axis rows cols) out.2.vals) :
    out.2.vals.length = axisLength axis rows cols ∧
    (∃ w amps, (∃ t, rng.geometric (1 / scale) (axisLength axis rows cols) s = (.ok w, t)) ∧
      TwoState w amps out.2.vals) ∧
    (∀ p (hp : p < out.2.vals.length), out.2.vals[p] = 0 ∨
      ∃ a t1 t2, rng.poisson lam t1 = (.ok a, t2) ∧ out.2.vals[p] = a % 256) ∧
    ShiftedImage axis rows cols orig out.2.vals out.1 := by
  rw [jumpsDirect_none _ _ _ _ _ _ _ _ hs] at h
  rcases hg : generateJumps rng (axisLength axis rows cols) scale lam s with ⟨e | l, t⟩
  · rw [hg] at h
    cases h
  · rw [hg] at h
    dsimp only at h
    obtain ⟨hlen, w, t0, amps, hw, -, htwo, hval⟩ := C33_jumps rng hv _ scale lam hs s t l hg
    have hfix : out.2 = ⟨.u8, l⟩ := by
      unfold jumpsDirect at h
      rw [if_neg hs] at h
      cases axis with
      | g1 =>
        obtain ⟨x, t1, h1, h⟩ := M.bind_ok.1 h
        cases h1
        obtain ⟨y, t2, h2, h⟩ := M.bind_ok.1 h
        cases h
        rfl
      | g2 =>
        obtain ⟨x, t1, h1, h⟩ := M.bind_ok.1 h
        cases h1
        obtain ⟨y, t2, h2, h⟩ := M.bind_ok.1 h
        cases h
        rfl
    obtain ⟨res, hres, hsh⟩ := jumpsDirect_some np2 rng axis rows cols orig scale lam hs ⟨.u8, l⟩ empty t
      (by rw [← hlen]) (Or.inr ⟨rfl, by rw [hfix] at hu; exact hu⟩)
    rw [hres] at h
    cases h
    exact ⟨hlen, ⟨w, amps, ⟨t0, hw⟩, htwo⟩, hval, hsh⟩

/-- **C98** (success).  With numpy < 2, `dot_jumps_blockwise` succeeds for every image and every scale of at least one
pixel. -/
theorem C98_total_partial {τ α : Type} (rng : Rng τ) (hv : rng.Valid) (axis : Axis) (rows cols : ℕ)
    (orig : ℕ → ℕ → Option α) (scale lam : ℝ) (hn : ∀ s, ∃ a s', rng.poisson lam s = (.ok a, s')) (hs : 1 ≤ scale)
    (empty : ℕ → ℕ → Option α) (s : τ) :
    ∃ out s', jumpsDirect false rng axis rows cols orig scale lam none empty s = (.ok out, s') := by
  have h0 : scale ≠ 0 := by
    rintro rfl
    norm_num at hs
  obtain ⟨l, t, hl⟩ := C33_jumps_total rng hv (axisLength axis rows cols) scale lam hn hs s
  have hlen := (C33_jumps rng hv _ scale lam h0 s t l hl).1
  obtain ⟨res, hres, _⟩ := jumpsDirect_some false rng axis rows cols orig scale lam h0 ⟨.u8, l⟩ empty t
    (by rw [← hlen]) (Or.inr ⟨rfl, Or.inl rfl⟩)
  refine ⟨(res, ⟨.u8, l⟩), t, ?_⟩
  rw [jumpsDirect_none _ _ _ _ _ _ _ _ h0, hl]
  exact hres

/-- A valid generator draws jumps for an image of 3 x 300 pixels. -/
example : ∃ (rng : Rng Unit) (out : (ℕ → ℕ → Option ℝ) × JumpArr), rng.Valid ∧
    jumpsDirect false rng .g1 3 300 (fun _ j => some (j : ℝ)) 2 5 none (fun _ _ => none) () = (.ok out, ()) ∧
    ShiftedImage .g1 3 300 (fun _ j => some (j : ℝ)) out.2.vals out.1 := by
  obtain ⟨out, s', h⟩ := C98_total_partial plainRng plainRng_valid .g1 3 300 (fun _ j => some (j : ℝ)) 2 5
    (fun s => ⟨_, _, rfl⟩) (by norm_num) (fun _ _ => none) ()
  exact ⟨plainRng, out, plainRng_valid, h,
    (C98_first_partial false plainRng plainRng_valid .g1 3 300 _ 2 5 (by norm_num) _ () s' out h (Or.inl rfl)).2.2.2⟩

/-- **C98** (second image).  Jumps that were returned for one image shift another image by the same jumps, without
drawing random numbers; the jumps are returned again.
Missing for the full property: `uint8` jumps with numpy >= 2 that are not inside of the image. -/
theorem C98_again_partial {τ α : Type} (np2 : Bool) (rng : Rng τ) (axis : Axis) (rows cols : ℕ)
    (orig : ℕ → ℕ → Option α) (scale lam : ℝ) (hs : scale ≠ 0) (a : JumpArr) (empty : ℕ → ℕ → Option α) (s : τ)
    (hl : axisLength axis rows cols ≤ a.vals.length) (ht : a.type ≠ .float)
    (hu : a.type = .u8 → np2 = true → InsideImage (axisLength axis rows cols) a.vals) :
    ∃ res, jumpsDirect np2 rng axis rows cols orig scale lam (some a) empty s = (.ok (res, a), s) ∧
      ShiftedImage axis rows cols orig a.vals res := by
  apply jumpsDirect_some np2 rng axis rows cols orig scale lam hs a empty s hl
  cases hty : a.type with
  | float => exact absurd hty ht
  | signed => exact Or.inl hty
  | u8 =>
    refine Or.inr ⟨hty, ?_⟩
    cases np2 with
    | false => exact Or.inl rfl
    | true => exact Or.inr (hu hty rfl)

/-- Jumps 0, 1, 1 on a row 10, 11, 12, with any version of numpy. -/
example (np2 : Bool) : ∃ res, jumpsDirect np2 plainRng .g1 1 3 (fun _ j => some (10 + j)) 2 5 (some ⟨.u8, [0, 1, 1]⟩)
    (fun _ _ => none) () = (.ok (res, ⟨.u8, [0, 1, 1]⟩), ()) ∧ res 0 0 = some 10 ∧ res 0 1 = some 10 ∧
    res 0 2 = some 11 := by
  obtain ⟨res, h, hsh⟩ := C98_again_partial np2 plainRng .g1 1 3 (fun _ j => some (10 + j)) 2 5 (by norm_num)
    ⟨.u8, [0, 1, 1]⟩ (fun _ _ => none) () (by simp [axisLength]) (by simp) (fun _ _ => by
      refine ⟨by simp [axisLength], fun i hi => ?_⟩
      simp only [axisLength] at hi
      obtain rfl | rfl | rfl : i = 0 ∨ i = 1 ∨ i = 2 := by omega
      all_goals simp)
  refine ⟨res, h, ?_, ?_, ?_⟩
  · rw [hsh 0 (by omega) 0 (by omega)]; simp
  · rw [hsh 0 (by omega) 1 (by omega)]; simp
  · rw [hsh 0 (by omega) 2 (by omega)]; simp

/-- **C98** (scale 0).  With scale 0 nothing is shifted, whatever jumps are given. -/
theorem C98_scale_zero {τ α : Type} (np2 : Bool) (rng : Rng τ) (axis : Axis) (rows cols : ℕ)
    (orig : ℕ → ℕ → Option α) (lam : ℝ) (noise : Option JumpArr) (empty : ℕ → ℕ → Option α) (s : τ) :
    ∃ a, jumpsDirect np2 rng axis rows cols orig 0 lam noise empty s = (.ok (orig, a), s) ∧
      a.vals = List.replicate (axisLength axis rows cols) 0 := by
  unfold jumpsDirect
  rw [if_pos rfl]
  cases axis <;> exact ⟨_, rfl, rfl⟩

/-- **C98** (actual behaviour, large images).  With numpy >= 2 every call for an image with more than 256 pixels along
the axis fails, even without any jump, if the jumps are generated or were generated by this function. -/
theorem C98_large_actual {τ α : Type} (rng : Rng τ) (axis : Axis) (rows cols : ℕ)
    (orig : ℕ → ℕ → Option α) (scale lam : ℝ) (hs : scale ≠ 0) (noise : Option (List ℕ)) (empty : ℕ → ℕ → Option α) (s : τ)
    (hn : 256 < axisLength axis rows cols) (h0 : 0 < axisLength axis cols rows) :
    ∃ e s', jumpsDirect true rng axis rows cols orig scale lam (noise.map fun l => ⟨.u8, l⟩) empty s = (.error e, s') := by
  have key : ∀ l t, ∃ e, jumpsDirect true rng axis rows cols orig scale lam (some ⟨.u8, l⟩) empty t = (.error e, t) :=
    fun l t => jumpsDirect_fails true rng axis rows cols orig scale lam hs ⟨.u8, l⟩ empty t fun orig empty =>
      jumpLoops_large _ _ orig l empty h0 hn
  cases noise with
  | some l =>
    obtain ⟨e, he⟩ := key l s
    exact ⟨e, s, he⟩
  | none =>
    show ∃ e s', jumpsDirect true rng axis rows cols orig scale lam none empty s = (.error e, s')
    rw [jumpsDirect_none _ _ _ _ _ _ _ _ hs]
    rcases generateJumps rng (axisLength axis rows cols) scale lam s with ⟨e | l, t⟩
    · exact ⟨e, t, rfl⟩
    · obtain ⟨e, he⟩ := key l t
      exact ⟨e, t, he⟩

/-- **C98** (actual behaviour, border).  With numpy >= 2 generated jumps that reach over the border make the call fail
(unless the image is so large that the wrapped index hits another pixel). -/
theorem C98_border_actual {τ α : Type} (rng : Rng τ) (axis : Axis) (rows cols : ℕ)
    (orig : ℕ → ℕ → Option α) (scale lam : ℝ) (hs : scale ≠ 0) (jumps : List ℕ) (empty : ℕ → ℕ → Option α) (s : τ)
    (h0 : 0 < axisLength axis cols rows) (p : ℕ) (hp : p < axisLength axis rows cols) (h1 : p < jumps.getD p 0)
    (h2 : jumps.getD p 0 ≤ 254) (h3 : axisLength axis rows cols + jumps.getD p 0 ≤ 256 + p) :
    ∃ e, jumpsDirect true rng axis rows cols orig scale lam (some ⟨.u8, jumps⟩) empty s = (.error e, s) :=
  jumpsDirect_fails true rng axis rows cols orig scale lam hs ⟨.u8, jumps⟩ empty s fun orig empty =>
    jumpLoops_border _ _ orig jumps empty h0 p hp h1 h2 h3

/-- **C98 is violated**: with numpy >= 2, `dot_jumps_blockwise` fails for an image with one row of 300 pixels although
the generator draws only jumps of height 0, and for the second image if the jumps 0, 2, 2 were drawn for the first one. -/
theorem C98_refuted : ∃ (rng : Rng Unit) (lam : ℝ), rng.Valid ∧ (∀ t, rng.poisson lam t = (.ok 0, t)) ∧
    (∀ orig empty : ℕ → ℕ → Option ℝ, ∃ e, jumpsDirect true rng .g1 1 300 orig 1 lam none empty () = (.error e, ())) ∧
    (∀ orig empty : ℕ → ℕ → Option ℝ, ∃ e, jumpsDirect true rng .g1 1 3 orig 1 lam (some ⟨.u8, [0, 2, 2]⟩) empty () =
      (.error e, ())) := by
  refine ⟨{ plainRng with poisson := fun _ => pure 0 }, 0, ⟨plainRng_valid.geometric_error, plainRng_valid.geometric_ok⟩,
    fun _ => rfl, fun orig empty => ?_, fun orig empty => ?_⟩
  · obtain ⟨e, s', h⟩ := C98_large_actual { plainRng with poisson := fun _ => pure 0 } .g1 1 300 orig 1 0 one_ne_zero none
      empty () (by simp [axisLength]) (by simp [axisLength])
    exact ⟨e, h⟩
  · exact C98_border_actual _ .g1 1 3 orig 1 0 one_ne_zero [0, 2, 2] empty () (by simp [axisLength]) 1
      (by simp [axisLength]) (by simp) (by simp) (by simp [axisLength])

/-- **C98** (pixelwise).  With numpy < 2, `dot_jumps_pixelwise` shifts every pixel along its row by its own jump; the
jumps are a two-state signal over the pixels in the order of the measurement. -/
theorem C98_pixelwise_partial {τ α : Type} (rng : Rng τ) (hv : rng.Valid) (rows cols : ℕ)
    (orig : ℕ → ℕ → α) (scale lam : ℝ) (hs : scale ≠ 0) (empty : ℕ → ℕ → Option α) (s s' : τ)
    (out : (ℕ → ℕ → Option α) × JumpArr)
    (h : jumpsPixelwise false rng rows cols orig scale lam empty s = (.ok out, s')) :
    out.2.vals.length = rows * cols ∧ (∃ w amps, TwoState w amps out.2.vals) ∧
    ∀ i < rows, ∀ j < cols, out.1 i j = some (orig i (j - out.2.vals.getD (i * cols + j) 0)) := by
  unfold jumpsPixelwise at h
  rw [if_neg hs] at h
  obtain ⟨l, t, hl, h⟩ := M.bind_ok.1 h
  obtain ⟨res, t', hr, h⟩ := M.bind_ok.1 h
  cases h
  obtain ⟨hlen, w, t0, amps, hw, -, htwo, hval⟩ := C33_jumps rng hv _ scale lam hs s t l hl
  refine ⟨hlen, ⟨w, amps, htwo⟩, fun i hi j hj => ?_⟩
  obtain ⟨out, h1, h2, _⟩ := directLanes_ok
    (fun i => directLane false cols (fun j => some (orig i j)) (fun j => l.getD (i * cols + j) 0) cols cols 0 (empty i))
    (fun i => jumpLane cols (fun j => some (orig i j)) (fun j => l.getD (i * cols + j) 0) cols 0 (empty i)) rows 0 empty
    (fun i _ _ => directLane_signed _ _ _ _ _ _ _ (by omega))
  rw [ofPy_run, h1] at hr
  cases hr
  dsimp only
  rw [h2 i (by omega) (by omega)]
  rw [jumpLane_shifted _ _ _ _ j hj, if_neg (by simp)]

/-- **C98** (pixelwise, success).  With numpy < 2, `dot_jumps_pixelwise` succeeds for every image and every scale of at
least one pixel. -/
theorem C98_pixelwise_total_partial {τ α : Type} (rng : Rng τ) (hv : rng.Valid) (rows cols : ℕ)
    (orig : ℕ → ℕ → α) (scale lam : ℝ) (hn : ∀ s, ∃ a s', rng.poisson lam s = (.ok a, s')) (hs : 1 ≤ scale)
    (empty : ℕ → ℕ → Option α) (s : τ) :
    ∃ out s', jumpsPixelwise false rng rows cols orig scale lam empty s = (.ok out, s') := by
  have h0 : scale ≠ 0 := by
    rintro rfl
    norm_num at hs
  obtain ⟨l, t, hl⟩ := C33_jumps_total rng hv (rows * cols) scale lam hn hs s
  obtain ⟨out, h1, _⟩ := directLanes_ok
    (fun i => directLane false cols (fun j => some (orig i j)) (fun j => l.getD (i * cols + j) 0) cols cols 0 (empty i))
    (fun i => jumpLane cols (fun j => some (orig i j)) (fun j => l.getD (i * cols + j) 0) cols 0 (empty i)) rows 0 empty
    (fun i _ _ => directLane_signed _ _ _ _ _ _ _ (by omega))
  refine ⟨(out, ⟨.u8, l⟩), t, ?_⟩
  unfold jumpsPixelwise
  rw [if_neg h0]
  simp only [M.bind_run, M.pure_run, ofPy_run, hl, h1]

/-- The last pixel of an image of 2 x 3 pixels is shifted by the last of the six jumps. -/
example : ∃ (out : (ℕ → ℕ → Option ℕ) × JumpArr),
    jumpsPixelwise false plainRng 2 3 (fun i j => i + j) 2 5 (fun _ _ => none) () = (.ok out, ()) ∧
    out.2.vals.length = 6 ∧
    out.1 1 2 = some (1 + (2 - out.2.vals.getD 5 0)) := by
  obtain ⟨out, s', h⟩ := C98_pixelwise_total_partial plainRng plainRng_valid 2 3 (fun i j => i + j) 2 5
    (fun s => ⟨_, _, rfl⟩) (by norm_num) (fun _ _ => none) ()
  obtain ⟨h1, -, h2⟩ := C98_pixelwise_partial plainRng plainRng_valid 2 3 _ 2 5 (by norm_num) _ () s' out h
  exact ⟨out, h, h1, h2 1 (by omega) 2 (by omega)⟩

end SimCATS
