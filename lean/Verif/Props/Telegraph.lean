import Verif.Lemmas.Telegraph
import Verif.Lemmas.Monad

/-! Properties C33, C35, C36 and C58 of telegraph, white and pink noise; C34 for telegraph noise. -/

namespace SimCATS

open Spec

namespace Spec

/-- Pixels per volt of an axis with `n` pixels swept over `g`. -/
noncomputable def density (n : ℕ) (g : ℝ × ℝ) : ℝ := n / |g.2 - g.1|

/-- `y` is `x` plus the list `noise` in row-major order. -/
def Added (x : Scan ℝ) (noise : List ℝ) (y : Scan ℝ) : Prop :=
  noise.length = x.size ∧
  match x with
  | .d0 v => y = .d0 (v + noise.getD 0 0)
  | .d1 n f => y = .d1 n fun i => f i + noise.getD i 0
  | .d2 r c f => y = .d2 r c fun i j => f i j + noise.getD (i * c + j) 0

end Spec

theorem addNoise_ok {x y : Scan ℝ} {noise : List ℝ} (h : addNoise x noise = .ok y) : Added x noise y := by
  unfold addNoise at h
  split at h
  · cases h
  · rename_i hl
    cases x <;> cases h <;> exact ⟨not_not.mp hl, rfl⟩

theorem addNoise_total (x : Scan ℝ) (noise : List ℝ) (h : noise.length = x.size) : ∃ y, addNoise x noise = .ok y := by
  unfold addNoise
  rw [if_neg (not_not.mpr h)]
  cases x <;> exact ⟨_, rfl⟩

/-- A generator without randomness: blocks of width 1, all events happen, heights at their mean. -/
noncomputable def plainRng : Rng Unit where
  binomial := fun _ => pure true
  geometric := fun p _ s => open Classical in if 0 < p ∧ p ≤ 1 then (.ok fun _ => 1, s) else (.error .valueError, s)
  poisson := fun _ => pure 1
  normal := fun h _ => pure h

theorem plainRng_valid : plainRng.Valid where
  geometric_error := by
    intro p n s h
    unfold plainRng
    simp only
    rw [if_neg h]
  geometric_ok := by
    intro p n s h1 h2
    unfold plainRng
    simp only
    rw [if_pos ⟨h1, h2⟩]
    exact ⟨_, _, rfl, fun _ _ => le_refl _⟩

/-! ### C33 -/

/-- C33: for every outcome of the generator, the result of `random_telegraph_noise` with a nonzero scale is the image plus
a two-state signal of exactly the number of pixels: it alternates between zero (first block) and constant blocks, the
block widths are the geometric draws and every nonzero value is one of the normal draws. -/
theorem C33_telegraph {τ : Type} (rng : Rng τ) (hv : rng.Valid) (x y : Scan ℝ) (scale std height : ℝ) (hs : scale ≠ 0)
    (s s' : τ) (h : telegraphNoise rng x (some scale) std height s = (.ok y, s')) :
    ∃ w t amps noise, rng.geometric (1 / scale) x.size s = (.ok w, t) ∧ (∀ i < x.size, 1 ≤ w i) ∧ Added x noise y ∧
      TwoState w amps noise ∧
      ∀ (p : ℕ) (hp : p < noise.length), noise[p] = 0 ∨ ∃ t1 t2, rng.normal height std t1 = (.ok noise[p], t2) := by
  unfold telegraphNoise at h
  simp only at h
  rw [if_neg hs] at h
  obtain ⟨w, t, hw, h⟩ := M.bind_ok.mp h
  obtain ⟨out, t', ho, h⟩ := M.bind_ok.mp h
  have hw1 : ∀ i < x.size, 1 ≤ w i := by
    by_cases hp : 0 < 1 / scale ∧ 1 / scale ≤ 1
    · obtain ⟨w', t', e, h1⟩ := hv.geometric_ok (1 / scale) x.size s hp.1 hp.2
      rw [hw] at e
      cases e
      exact h1
    · rw [hv.geometric_error _ _ _ hp] at hw
      cases hw
  obtain ⟨hl, amps, h2, h3⟩ := burst_take (fun a => ∃ t1 t2, rng.normal height std t1 = (.ok a, t2)) (rng.normal height std)
    (fun s a s' e => ⟨s, s', e⟩) x.size w hw1 t t' out ho
  have hy : addNoise x (out.take x.size) = .ok y := by
    have : ((addNoise x (out.take x.size)), t') = (.ok y, s') := h
    exact congrArg Prod.fst this
  exact ⟨w, t, amps, out.take x.size, hw, hw1, addNoise_ok hy, h2, h3⟩

/-- C33: the noise can always be applied: with a scale of at least one pixel the call succeeds for every image and every
outcome of the generator. -/
theorem C33_total {τ : Type} (rng : Rng τ) (hv : rng.Valid) (x : Scan ℝ) (scale std height : ℝ)
    (hn : ∀ s, ∃ a s', rng.normal height std s = (.ok a, s')) (hs : 1 ≤ scale) (s : τ) :
    ∃ y s', telegraphNoise rng x (some scale) std height s = (.ok y, s') := by
  have hp : 0 < 1 / scale := by positivity
  have hp1 : 1 / scale ≤ 1 := by
    rw [div_le_one (by linarith)]
    exact hs
  obtain ⟨w, t, hw, hw1⟩ := hv.geometric_ok (1 / scale) x.size s hp hp1
  obtain ⟨out, t', ho⟩ := burstLoop_total (rng.normal height std) hn x.size w x.size 0 0 [] t
  obtain ⟨hl, -⟩ := burst_take (fun _ => True) (rng.normal height std) (fun _ _ _ _ => trivial) x.size w hw1 t t' out ho
  obtain ⟨y, hy⟩ := addNoise_total x _ hl
  refine ⟨y, t', ?_⟩
  unfold telegraphNoise
  simp only
  rw [if_neg (by linarith), M.bind_run, hw]
  simp only
  rw [M.bind_run, ho]
  simp only
  rw [ofPy_run, hy]

/-- The generator `plainRng` meets the hypotheses. -/
example : ∃ y s', telegraphNoise plainRng (.d2 2 3 fun _ _ => 1) (some 2) 0 5 () = (.ok y, s') :=
  C33_total plainRng plainRng_valid _ 2 0 5 (fun s => ⟨_, _, rfl⟩) (by norm_num) ()

/-- A scale of zero pixels means no noise. -/
theorem C33_scale_zero {τ : Type} (rng : Rng τ) (x : Scan ℝ) (std height : ℝ) (s : τ) :
    telegraphNoise rng x (some 0) std height s = (.ok x, s) := by
  unfold telegraphNoise
  simp

/-! ### C34 -/

/-- C34: telegraph noise that is not activated returns its input unchanged and reports `activated = False`. -/
theorem C34_rtn_inactive {τ : Type} (d : Rtn τ) (x : Scan ℝ) (g1 g2 : ℝ × ℝ) (a : Option Bool) (t t' : τ)
    (h : d.rng.binomial d.ratio t = (.ok false, t')) :
    d.noiseFunction x g1 g2 (a, t) = (.ok x, (some false, t')) := by
  unfold Rtn.noiseFunction
  rw [M.bind_run]
  simp only [onRest, h]
  rw [M.bind_run]
  simp [setOwn]

/-- The hypothesis is met by a generator that never activates. -/
example : (⟨pure 1, pure 0, pure 1, 0, { plainRng with binomial := fun _ => pure false }⟩ : Rtn Unit).noiseFunction
    (.d1 3 fun _ => 7) (0, 1) (0, 0) (none, ()) = (.ok (.d1 3 fun _ => 7), (some false, ())) :=
  C34_rtn_inactive _ _ _ _ _ _ _ rfl

/-- C34: activated telegraph noise reports `activated = True`, whatever happens afterwards. -/
theorem C34_rtn_active {τ : Type} (d : Rtn τ) (x : Scan ℝ) (g1 g2 : ℝ × ℝ) (a : Option Bool) (t t' : τ)
    (h : d.rng.binomial d.ratio t = (.ok true, t')) :
    (d.noiseFunction x g1 g2 (a, t)).2.1 = some true := by
  have key : ∀ {α : Type} (m : M τ α) (s : Option Bool × τ), (onRest m s).2.1 = s.1 := by
    intro α m s
    unfold onRest
    rcases m s.2 with ⟨r, t⟩
    rfl
  have key2 : ∀ {α β : Type} (m : M (Option Bool × τ) α) (f : α → M (Option Bool × τ) β), (∀ s, (m s).2.1 = s.1) →
      (∀ a s, (f a s).2.1 = s.1) → ∀ s, ((m >>= f) s).2.1 = s.1 := by
    intro α β m f hm hf s
    rw [M.bind_run]
    have := hm s
    rcases hh : m s with ⟨e | a, t⟩ <;> rw [hh] at this <;> simp only
    · exact this
    · rw [hf]
      exact this
  unfold Rtn.noiseFunction
  rw [M.bind_run]
  simp only [onRest, h]
  rw [M.bind_run]
  simp only [setOwn]
  rw [if_neg (by simp)]
  exact key2 _ _ (key _) (fun _ => key2 _ _ (key _) fun _ => key2 _ _ (key _) fun _ => key _) _

example := C34_rtn_active (⟨pure 1, pure 0, pure 1, 0, { plainRng with binomial := fun _ => pure true }⟩ : Rtn Unit) (.d1 3 fun _ => 7) (0, 1)
  (0, 0) none () () rfl

/-! ### C36 -/

theorem pxPerVolt_density (n : ℕ) (g : ℝ × ℝ) (h : g.1 ≠ g.2) : pxPerVolt n g = some (density n g) := by
  unfold pxPerVolt density
  rw [max_sub_min_eq_abs, if_neg (by rw [abs_eq_zero]; intro e; exact h (by linarith))]

/-- What the conversion does in 2D: the numbers of pixels of the two axes are exchanged. -/
theorem C36_rtn_actual (r c : ℕ) (f : Fin r → Fin c → ℝ) (g1 g2 : ℝ × ℝ) (h1 : g1.1 ≠ g1.2) (h2 : g2.1 ≠ g2.2) :
    rtnFactor g1 g2 (.d2 r c f) = some (max (density r g1) (density c g2)) := by
  simp only [rtnFactor]
  rw [if_neg h1, if_neg h2, pxPerVolt_density _ _ h1, pxPerVolt_density _ _ h2]
  rfl

/-- The remaining 2D case: images along which one gate is constant. -/
theorem C36_rtn_constant_actual (r c : ℕ) (f : Fin r → Fin c → ℝ) (g : ℝ × ℝ) (v : ℝ) (h : g.1 ≠ g.2) :
    rtnFactor (v, v) g (.d2 r c f) = some (density c g) ∧ rtnFactor g (v, v) (.d2 r c f) = some (density r g) := by
  simp only [rtnFactor]
  rw [if_pos trivial, if_neg h, if_pos trivial, pxPerVolt_density _ _ h, pxPerVolt_density _ _ h]
  exact ⟨rfl, rfl⟩

/-- C36 for telegraph noise and square images: the scale is converted with the larger number of pixels per volt of the two
axes (each with its own number of pixels). -/
theorem C36_rtn_partial (n : ℕ) (f : Fin n → Fin n → ℝ) (g1 g2 : ℝ × ℝ) (h1 : g1.1 ≠ g1.2) (h2 : g2.1 ≠ g2.2) :
    rtnFactor g1 g2 (.d2 n n f) = some (max (density n g1) (density n g2)) := C36_rtn_actual n n f g1 g2 h1 h2

example (f : Fin 3 → Fin 5 → ℝ) := C36_rtn_actual 3 5 f (0, 1) (2, 4) (by norm_num) (by norm_num)

/-- C36 for telegraph noise and 1D scans of one gate. -/
theorem C36_rtn_1d (n : ℕ) (f : Fin n → ℝ) (g : ℝ × ℝ) (v : ℝ) (h : g.1 ≠ g.2) :
    rtnFactor g (v, v) (.d1 n f) = some (density n g) ∧ rtnFactor (v, v) g (.d1 n f) = some (density n g) := by
  have h0 : 0 < |g.2 - g.1| := by
    rw [abs_pos]
    intro e
    exact h (by linarith)
  simp only [rtnFactor, max_sub_min_eq_abs, sub_self, abs_zero]
  rw [max_eq_left h0.le, max_eq_right h0.le, if_neg h0.ne']
  exact ⟨rfl, rfl⟩

/-- C36 is false for telegraph noise: in an image with 10 columns (gate 1, 1 V) and 100 rows (gate 2, 2 V) the scale is
multiplied by 100 pixels per volt although no axis has more than 50. -/
theorem C36_rtn_refuted : ∃ (g1 g2 : ℝ × ℝ) (f : Fin 100 → Fin 10 → ℝ),
    rtnFactor g1 g2 (.d2 100 10 f) ≠ some (max (density 10 g1) (density 100 g2)) := by
  refine ⟨(0, 1), (0, 2), fun _ _ => 0, ?_⟩
  rw [C36_rtn_actual _ _ _ _ _ (by norm_num) (by norm_num)]
  unfold density
  norm_num

/-- C36 at the level of the distortion: the scale passed to the noise in an activated call is the scale in volts times the
factor of `rtnFactor`. -/
theorem C36_rtn_call {τ : Type} (d : Rtn τ) (x : Scan ℝ) (g1 g2 : ℝ × ℝ) (a : Option Bool) (t t1 t2 t3 t4 : τ)
    (sc sd he : ℝ) (h : d.rng.binomial d.ratio t = (.ok true, t1)) (h1 : d.scale t1 = (.ok sc, t2))
    (h2 : d.std t2 = (.ok sd, t3)) (h3 : d.height t3 = (.ok he, t4)) :
    d.noiseFunction x g1 g2 (a, t) =
      ((telegraphNoise d.rng x ((rtnFactor g1 g2 x).map fun k => sc * k) sd he t4).1,
        (some true, (telegraphNoise d.rng x ((rtnFactor g1 g2 x).map fun k => sc * k) sd he t4).2)) := by
  unfold Rtn.noiseFunction
  rw [M.bind_run, onRest_eq h]
  simp only
  rw [M.bind_run, setOwn_run]
  simp only
  rw [if_neg (by simp), M.bind_run, onRest_eq h1]
  simp only
  rw [M.bind_run, onRest_eq h2]
  simp only
  rw [M.bind_run, onRest_eq h3]
  simp only
  exact onRest_eq (Prod.mk.eta).symm _

/-! ### C35 -/

/-- C35 for scales of at least one pixel: an activated call succeeds for every outcome of the generator. -/
theorem C35_partial {τ : Type} (d : Rtn τ) (hv : d.rng.Valid) (x : Scan ℝ) (g1 g2 : ℝ × ℝ) (a : Option Bool) (t t1 t2 t3 t4 : τ)
    (sc sd he k : ℝ) (hn : ∀ s, ∃ a s', d.rng.normal he sd s = (.ok a, s'))
    (h : d.rng.binomial d.ratio t = (.ok true, t1)) (h1 : d.scale t1 = (.ok sc, t2)) (h2 : d.std t2 = (.ok sd, t3))
    (h3 : d.height t3 = (.ok he, t4)) (hk : rtnFactor g1 g2 x = some k) (hpx : 1 ≤ sc * k) :
    ∃ y s', d.noiseFunction x g1 g2 (a, t) = (.ok y, s') := by
  rw [C36_rtn_call d x g1 g2 a t t1 t2 t3 t4 sc sd he h h1 h2 h3, hk]
  obtain ⟨y, s', e⟩ := C33_total d.rng hv x (sc * k) sd he hn hpx t4
  exact ⟨y, (some true, s'), by simp only [Option.map_some, e]⟩

/-- Every activated call with a positive scale of less than one pixel fails with `ValueError`. -/
theorem C35_actual {τ : Type} (d : Rtn τ) (hv : d.rng.Valid) (x : Scan ℝ) (g1 g2 : ℝ × ℝ) (a : Option Bool)
    (t t1 t2 t3 t4 : τ) (sc sd he k : ℝ) (h : d.rng.binomial d.ratio t = (.ok true, t1)) (h1 : d.scale t1 = (.ok sc, t2))
    (h2 : d.std t2 = (.ok sd, t3)) (h3 : d.height t3 = (.ok he, t4)) (hk : rtnFactor g1 g2 x = some k) (hpos : 0 < sc * k)
    (hpx : sc * k < 1) : (d.noiseFunction x g1 g2 (a, t)).1 = .error .valueError := by
  rw [C36_rtn_call d x g1 g2 a t t1 t2 t3 t4 sc sd he h h1 h2 h3, hk]
  simp only [Option.map_some]
  unfold telegraphNoise
  simp only
  rw [if_neg hpos.ne', M.bind_run, hv.geometric_error _ _ _ ?_]
  rintro ⟨-, h⟩
  rw [div_le_one hpos] at h
  linarith

example (f : Fin 100 → ℝ) := C35_actual (⟨pure 0.001, pure 0, pure 1, 1, plainRng⟩ : Rtn Unit) plainRng_valid (.d1 100 f) (0, 1) (0, 0) none ()
  () () () () 0.001 0 1 100 rfl rfl rfl rfl (by norm_num [rtnFactor, pxPerVolt]) (by norm_num) (by norm_num)

/-- C35 is false: a scale of 1 mV and a 1D scan of 100 pixels over 1 V (0.1 pixels). -/
theorem C35_refuted : ∃ (d : Rtn Unit) (n : ℕ) (g1 g2 : ℝ × ℝ), d.rng.Valid ∧ (∃ v > 0, d.scale = pure v) ∧ g1.1 < g1.2 ∧
    0 < n ∧ ∀ (f : Fin n → ℝ) (a : Option Bool), (d.noiseFunction (.d1 n f) g1 g2 (a, ())).1 = .error .valueError := by
  refine ⟨⟨pure 0.001, pure 0, pure 1, 1, plainRng⟩, 100, (0, 1), (0, 0), plainRng_valid, ⟨0.001, by norm_num, rfl⟩,
    by norm_num, by norm_num, ?_⟩
  intro f a
  refine C35_actual _ plainRng_valid (.d1 100 f) (0, 1) (0, 0) a () () () () () 0.001 0 1 100 rfl rfl rfl rfl ?_ ?_ ?_
  · rw [(C36_rtn_1d 100 f (0, 1) 0 (by norm_num)).1]
    unfold density
    norm_num
  · norm_num
  · norm_num

/-- The hypotheses of `C35_partial` are met: 20 mV are 2 pixels. -/
example (f : Fin 100 → ℝ) : ∃ y s', (⟨pure 0.02, pure 0, pure 1, 1, plainRng⟩ : Rtn Unit).noiseFunction (.d1 100 f) (0, 1) (0, 0)
    (none, ()) = (.ok y, s') := by
  refine C35_partial _ plainRng_valid (.d1 100 f) (0, 1) (0, 0) none () () () () () 0.02 0 1 100 (fun s => ⟨_, _, rfl⟩)
    rfl rfl rfl rfl ?_ (by norm_num)
  rw [(C36_rtn_1d 100 f (0, 1) 0 (by norm_num)).1]
  unfold density
  norm_num

/-! ### C58 -/

/-- C58: white (and pink) noise adds one drawn value per pixel to the image and reports the sampled strength as
`latest_sigma`; strength and noise are drawn anew in each call, independently of the previous `latest_sigma`. -/
theorem C58_noise {τ : Type} (d : WhiteNoise τ) (x : Scan ℝ) (g1 g2 : ℝ × ℝ) (a : Option ℝ) (t t1 t2 : τ) (σ : ℝ)
    (noise : List ℝ) (h1 : d.sigma t = (.ok σ, t1)) (h2 : d.noise σ x.size t1 = (.ok noise, t2))
    (hl : noise.length = x.size) :
    ∃ y, d.noiseFunction x g1 g2 (a, t) = (.ok y, (some σ, t2)) ∧ Added x noise y := by
  obtain ⟨y, hy⟩ := addNoise_total x noise hl
  refine ⟨y, ?_, addNoise_ok hy⟩
  unfold WhiteNoise.noiseFunction
  rw [M.bind_run, onRest_eq h1]
  simp only
  rw [M.bind_run, setOwn_run]
  simp only
  rw [M.bind_run, onRest_eq h2]
  simp only
  rw [ofPy_run, hy]

/-- A concrete call. -/
example : ∃ y, (⟨pure 2, fun σ n => pure (List.replicate n σ)⟩ : WhiteNoise Unit).noiseFunction (.d1 3 fun _ => 1) (0, 1) (0, 0)
    (none, ()) = (.ok y, (some 2, ())) ∧ Added (.d1 3 fun _ => 1) [2, 2, 2] y :=
  C58_noise _ _ _ _ none () () () 2 _ rfl rfl rfl

end SimCATS
