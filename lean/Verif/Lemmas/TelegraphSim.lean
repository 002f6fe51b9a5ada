import Verif.Spec.TelegraphSim
import Verif.Lemmas.WhiteNoiseLaw
import Verif.Props.Telegraph
import Verif.Props.SensorScan

/-!
Telegraph noise as last distortion of the response.
-/

namespace SimCATS

open Spec MeasureTheory ProbabilityTheory

variable {τ ω α : Type}

theorem measureCheck_ranges {lim : Limits} {b : Bool} {rq : Request} {g1 g2 v1 v2 : ℝ × ℝ} (h1 : rq.g1 = [g1.1, g1.2]) (h2 : rq.g2 = [g2.1, g2.2])
    (h : measureCheck lim b rq = .ok (v1, v2)) : v1 = g1 ∧ v2 = g2 := by
  unfold measureCheck at h
  rw [h1, h2] at h
  dsimp only at h
  split_ifs at h
  · cases hs : sensorOutside lim rq.s1 rq.s2 with
    | error e => rw [hs] at h; exact nomatch h
    | ok t => rw [hs] at h; cases t <;> exact nomatch h
  · cases hs : sensorOutside lim rq.s1 rq.s2 with
    | error e => rw [hs] at h; exact nomatch h
    | ok t =>
      rw [hs] at h
      cases t with
      | true => exact nomatch h
      | false =>
        dsimp only at h
        cases hr : resCheck (g1.1, g1.2) (g2.1, g2.2) rq.res with
        | error e => rw [hr] at h; exact nomatch h
        | ok u =>
          rw [hr] at h
          cases h
          exact ⟨rfl, rfl⟩

theorem density_factor {g1 g2 : ℝ × ℝ} {x : Scan ℝ} {k : ℝ} (h : PixelsPerVolt g1 g2 x k) : rtnFactor g1 g2 x = some k := by
  cases x with
  | d0 v => exact h.elim
  | d1 n f =>
    obtain ⟨h0, rfl⟩ := h
    simp only [rtnFactor, max_sub_min_eq_abs]
    rw [if_neg h0.ne']
  | d2 r c f =>
    obtain ⟨h1, h2, rfl⟩ := h
    have := C36_rtn_actual r c f g1 g2 h1 h2
    rw [this]
    unfold density
    rfl

variable {own : τ → ω} {rng : Rng τ} {r p : ℝ} {n : ℕ} {scale std height : ℝ} {i : ℕ}

/-- The lengths that a call draws. -/
noncomputable def drawnLengths (rng : Rng τ) (p : ℝ) (n : ℕ) (i : Fin n) (s : τ) : ℕ :=
  match rng.geometric p n s with
  | (.ok w, _) => w i
  | (.error _, _) => 0

theorem drawing_eq {x : M τ α} {s : ObjState τ} {a : Py α} {t : τ} (h : x s.gens = (a, t)) : drawing x s = (a, { s with gens := t }) := by
  unfold drawing
  rw [h]

theorem drawing_valid (hv : rng.Valid) : rng.drawing.Valid where
  geometric_error := fun p n s h => drawing_eq (hv.geometric_error p n s.gens h)
  geometric_ok := fun p n s h0 h1 => by
    obtain ⟨w, t, e, h⟩ := hv.geometric_ok p n s.gens h0 h1
    exact ⟨w, _, drawing_eq e, h⟩

/-- The effect of the noise on a signal. -/
theorem telegraph_call (hv : rng.Valid) {x : Scan ℝ} {g1 g2 : ℝ × ℝ} {k : ℝ} (hk : PixelsPerVolt g1 g2 x k) (hs : 1 ≤ scale * k)
    (hn : ∀ s, ∃ a s', rng.normal height std s = (.ok a, s') ∧ a ≠ 0) {X : ω → Bool} {W : Fin x.size → ω → ℕ} {s : SimState τ}
    (hX : ∃ h, rng.binomial r s.2.gens = (.ok (X (own s.2.gens)), h) ∧
      ∀ h', own h' = own h → ∃ w h'', rng.geometric (1 / (scale * k)) x.size h' = (.ok w, h'') ∧ ∀ i : Fin x.size, w i = W i (own s.2.gens)) :
    ∃ y s', lastCall (.rtn i (pure scale) (pure std) (pure height) r rng) g1 g2 x s = (.ok y, s') ∧
      ∀ j < x.size, (Disturbed x y j ↔ X (own s.2.gens) = true ∧ colour W j (own s.2.gens) = true) := by
  obtain ⟨h, hb, hW⟩ := hX
  obtain ⟨q, o⟩ := s
  cases hx : X (own o.gens) with
  | false =>
    rw [hx] at hb
    refine ⟨x, _, onRest_eq (rtn_off (i := i) (scale := pure scale) (std := pure std) (height := pure height) hb x g1 g2) q, fun j _ => ?_⟩
    simp [Disturbed]
  | true =>
    rw [hx] at hb
    have hv' := drawing_valid hv
    have hn' : ∀ s : ObjState τ, ∃ a s', rng.drawing.normal height std s = (.ok a, s') ∧ a ≠ 0 := by
      intro s
      obtain ⟨a, s', e, ha⟩ := hn s.gens
      exact ⟨a, { s with gens := s' }, drawing_eq e, ha⟩
    have hg : ∀ s, ∃ w s', rng.drawing.geometric (1 / (scale * k)) x.size s = (.ok w, s') ∧
        ∀ i : Fin x.size, w i = drawnLengths rng.drawing (1 / (scale * k)) x.size i s := by
      intro s
      obtain ⟨w, s', e, -⟩ := hv'.geometric_ok (1 / (scale * k)) x.size s (by positivity) (by
        rw [div_le_one (by linarith)]
        exact hs)
      refine ⟨w, s', e, fun i => ?_⟩
      unfold drawnLengths
      rw [e]
    obtain ⟨y, t, hy, hd⟩ := telegraph_colour hv' hs hn' hg { o with gens := h }
    obtain ⟨w, h'', e, hw⟩ := hW h rfl
    have hc : ∀ j, colour (drawnLengths rng.drawing (1 / (scale * k)) x.size) j { o with gens := h } = colour W j (own o.gens) := by
      intro j
      have hl : ∀ i, drawnLengths rng.drawing (1 / (scale * k)) x.size i { o with gens := h } = W i (own o.gens) := by
        intro i
        rw [← hw i]
        unfold drawnLengths
        rw [show rng.drawing.geometric (1 / (scale * k)) x.size { o with gens := h } = (.ok w, { o with gens := h'' }) from
          drawing_eq (s := { o with gens := h }) e]
      have ha : allLengths (drawnLengths rng.drawing (1 / (scale * k)) x.size) { o with gens := h } = allLengths W (own o.gens) := by
        funext m
        unfold allLengths
        split_ifs with hm
        · exact hl ⟨m, hm⟩
        · rfl
      unfold colour
      rw [ha]
    obtain ⟨u, hu⟩ : ∃ u, (SigObject.rtn i (pure scale) (pure std) (pure height) r rng).dist x g1 g2 o = (.ok y, u) := by
      have hb' : rng.drawing.binomial r o = (.ok true, { o with gens := h }) := drawing_eq hb
      have := C36_rtn_call (⟨drawing (pure scale), drawing (pure std), drawing (pure height), r, rng.drawing⟩ : Rtn (ObjState τ)) x g1 g2
        ((activeSlot τ i).get o) o { o with gens := h } { o with gens := h } { o with gens := h } { o with gens := h } scale std height hb' rfl rfl rfl
      rw [density_factor hk, Option.map_some] at this
      dsimp only at this
      rw [hy] at this
      exact ⟨_, run_of (activeSlot τ i) this rfl⟩
    refine ⟨y, _, onRest_eq hu q, fun j hj => ?_⟩
    rw [hd j hj, hc j]
    exact ⟨fun h => ⟨rfl, h⟩, fun h => h.2⟩

variable [MeasurableSpace τ] {P : Measure τ}

/-- The event that noise with the states `D`, if it is active, has the pattern `c`. -/
theorem switched_law [IsProbabilityMeasure P] {X : τ → Bool} {W : Fin n → τ → ℕ} (hmX : Measurable X) (hm : ∀ i, Measurable (W i)) (h1 : ∀ i g, 1 ≤ W i g)
    (hi : iIndepFun W P) (hXW : IndepFun X (fun g i => W i g) P) (hr : P.real {g | X g = true} = r)
    (hl : ∀ i k, P.real {g | W i g = k + 1} = (1 - p) ^ k * p) (c : ℕ → Bool) (k : ℕ) (hk : k < n) :
    P.real {g | ∀ j ≤ k, ((X g = true ∧ colour W j g = true) ↔ c j = true)} =
      (open Classical in if ∀ j ≤ k, c j = false then 1 - r else 0) +
        r * if c 0 = true then 0 else ∏ j ∈ Finset.range k, if c (j + 1) = c j then 1 - p else p := by
  classical
  have hmW : Measurable fun g => fun i => W i g := measurable_pi_lambda _ hm
  have hch := colour_chain hm h1 hi hl
  have hset : {g | ∀ j ≤ k, colour W j g = c j} = (fun g i => W i g) ⁻¹' {v : Fin n → ℕ | ∀ j ≤ k, colour (Ω := Fin n → ℕ) (fun i v => v i) j v = c j} := rfl
  have hB : MeasurableSet {v : Fin n → ℕ | ∀ j ≤ k, colour (Ω := Fin n → ℕ) (fun i v => v i) j v = c j} := MeasurableSet.of_discrete
  have hon : P.real ({g | X g = true} ∩ {g | ∀ j ≤ k, colour W j g = c j}) =
      r * if c 0 = true then 0 else ∏ j ∈ Finset.range k, if c (j + 1) = c j then 1 - p else p := by
    rw [← hch.2 c k hk, ← hr, hset, show {g | X g = true} = X ⁻¹' {true} from rfl, measureReal_def, measureReal_def, measureReal_def,
      hXW.measure_inter_preimage_eq_mul _ _ MeasurableSet.of_discrete hB, ENNReal.toReal_mul]
  have hmeas : MeasurableSet ({g | X g = true} ∩ {g | ∀ j ≤ k, colour W j g = c j}) :=
    (hmX (MeasurableSet.of_discrete (s := {true}))).inter (hmW hB)
  rw [← hon]
  by_cases hc : ∀ j ≤ k, c j = false
  · rw [if_pos hc]
    have hmt : MeasurableSet {g | X g = true} := hmX (MeasurableSet.of_discrete (s := {true}))
    have hoff : P.real {g | X g = true}ᶜ = 1 - r := by rw [probReal_compl_eq_one_sub hmt, hr]
    rw [← hoff, ← measureReal_union _ hmeas]
    · congr 1
      ext g
      simp only [Set.mem_ofPred_eq, Set.mem_union, Set.mem_compl_iff, Set.mem_inter_iff]
      by_cases hx : X g = true
      · simp only [hx, true_and, not_true_eq_false, false_or]
        exact forall₂_congr fun j hj => Bool.eq_iff_iff.symm
      · refine ⟨fun _ => Or.inl hx, fun _ j hj => ?_⟩
        rw [hc j hj]
        exact ⟨fun h => (hx h.1).elim, nofun⟩
    · rw [Set.disjoint_left]
      exact fun g h h' => h h'.1
  · rw [if_neg hc, zero_add]
    congr 1
    ext g
    simp only [Set.mem_ofPred_eq, Set.mem_inter_iff]
    by_cases hx : X g = true
    · simp only [hx, true_and]
      exact forall₂_congr fun j hj => Bool.eq_iff_iff.symm
    · refine ⟨fun h => (hc fun j hj => ?_).elim, fun h => (hx h.1).elim⟩
      rw [← Bool.not_eq_true]
      exact fun hj' => hx ((h j hj).2 hj').1

theorem switched_state [IsProbabilityMeasure P] {X : τ → Bool} {W : Fin n → τ → ℕ} (hm : ∀ i, Measurable (W i)) (h1 : ∀ i g, 1 ≤ W i g)
    (hi : iIndepFun W P) (hXW : IndepFun X (fun g i => W i g) P) (hr : P.real {g | X g = true} = r)
    (hl : ∀ i k, P.real {g | W i g = k + 1} = (1 - p) ^ k * p) (k : ℕ) (hk : k < n) :
    P.real {g | X g = true ∧ colour W k g = true} = r * ((1 - (1 - 2 * p) ^ k) / 2) := by
  have hch := colour_chain hm h1 hi hl
  have hset : {g | colour W k g = true} = (fun g i => W i g) ⁻¹' {v : Fin n → ℕ | colour (Ω := Fin n → ℕ) (fun i v => v i) k v = true} := rfl
  rw [← hch.state k hk, ← hr, hset, show {g | X g = true ∧ colour W k g = true} = X ⁻¹' {true} ∩ {g | colour W k g = true} from rfl, hset,
    show {g | X g = true} = X ⁻¹' {true} from rfl, measureReal_def, measureReal_def, measureReal_def,
    hXW.measure_inter_preimage_eq_mul _ _ MeasurableSet.of_discrete MeasurableSet.of_discrete, ENNReal.toReal_mul]

/-- The two measurements, in terms of the draws. -/
theorem telegraph_differ (hv : rng.Valid) {x x0 : M (SimState τ) (Scan ℝ × α)} {s : SimState τ} {g1 g2 : ℝ × ℝ} {k : ℝ} (hs : 1 ≤ scale * k)
    (hn : ∀ s, ∃ a s', rng.normal height std s = (.ok a, s') ∧ a ≠ 0)
    (hx : x = x0 >>= fun out => lastCall (.rtn i (pure scale) (pure std) (pure height) r rng) g1 g2 out.1 >>= fun y => pure (y, out.2))
    (ho : ∀ g out s0, x0 (withGenerators s g) = (.ok out, s0) → own s0.2.gens = own g) {X : ω → Bool} {W : Fin n → ω → ℕ}
    (hX : ∀ g, ∃ h, rng.binomial r g = (.ok (X (own g)), h) ∧
      ∀ h', own h' = own h → ∃ w h'', rng.geometric (1 / (scale * k)) n h' = (.ok w, h'') ∧ ∀ i : Fin n, w i = W i (own g))
    {g : τ} (hg : g ∈ HasDensity x0 s g1 g2 n k) : ∃ y y0 a s' s0, x (withGenerators s g) = (.ok (y, a), s') ∧
      x0 (withGenerators s g) = (.ok (y0, a), s0) ∧ ∀ j < n, (Disturbed y0 y j ↔ X (own g) = true ∧ colour W j (own g) = true) := by
  obtain ⟨y0, a, s0, h0, rfl, hd⟩ := hg
  have hown := ho g _ _ h0
  obtain ⟨y, s', hy, hD⟩ := telegraph_call (i := i) (own := own) (X := X) (W := W) (s := s0) hv hd hs hn (hX s0.2.gens)
  rw [hown] at hD
  refine ⟨y, y0, a, s', s0, ?_, h0, hD⟩
  rw [hx]
  exact (M.step h0).trans (M.step hy)

theorem telegraph_law [IsProbabilityMeasure P] (hv : rng.Valid) {x x0 : M (SimState τ) (Scan ℝ × α)} {s : SimState τ} {g1 g2 : ℝ × ℝ} {k : ℝ} (hs : 1 ≤ scale * k)
    (hn : ∀ s, ∃ a s', rng.normal height std s = (.ok a, s') ∧ a ≠ 0)
    (hx : x = x0 >>= fun out => lastCall (.rtn i (pure scale) (pure std) (pure height) r rng) g1 g2 out.1 >>= fun y => pure (y, out.2))
    (ho : ∀ g out s0, x0 (withGenerators s g) = (.ok out, s0) → own s0.2.gens = own g) (hT : TelegraphDraws P own rng r (1 / (scale * k)) n)
    (hg : ∀ᵐ g ∂P, g ∈ HasDensity x0 s g1 g2 n k) (c : ℕ → Bool) (m : ℕ) (hm : m < n) :
    P.real (DifferAt x x0 s c m) = (open Classical in if ∀ j ≤ m, c j = false then 1 - r else 0) +
      r * (if c 0 = true then 0 else ∏ j ∈ Finset.range m, if c (j + 1) = c j then 1 - 1 / (scale * k) else 1 / (scale * k)) ∧
    P.real (DifferIn x x0 s m) = r * ((1 - (1 - 2 / (scale * k)) ^ m) / 2) := by
  obtain ⟨X, W, hX, hmX, hmW, hi, hXW, hr, hl⟩ := hT
  have h1 : ∀ i g, 1 ≤ W i (own g) := by
    intro i g
    obtain ⟨h, -, hW⟩ := hX g
    obtain ⟨w, h'', e, hw⟩ := hW h rfl
    obtain ⟨w', t, e', hp⟩ := hv.geometric_ok (1 / (scale * k)) n h (by positivity) (by
      rw [div_le_one (by linarith)]
      exact hs)
    rw [e] at e'
    cases e'
    rw [← hw i]
    exact hp i i.2
  have same : ∀ j g, colour (fun i g => W i (own g)) j g = colour W j (own g) := fun _ _ => rfl
  constructor
  · rw [← switched_law (X := fun g => X (own g)) (W := fun i g => W i (own g)) hmX hmW h1 hi hXW hr hl c m hm]
    refine measureReal_congr ?_
    filter_upwards [hg] with g hg
    obtain ⟨y, y0, a, s', s0, e, e0, hD⟩ := telegraph_differ hv hs hn hx ho hX hg
    refine propext ⟨?_, fun h => ⟨y, y0, a, s', s0, e, e0, fun j hj => (hD j (by omega)).trans (h j hj)⟩⟩
    rintro ⟨y', y0', a', t', t0, e', e0', h⟩
    rw [e] at e'
    rw [e0] at e0'
    cases e'
    cases e0'
    exact fun j hj => (hD j (by omega)).symm.trans (h j hj)
  · have := switched_state (X := fun g => X (own g)) (W := fun i g => W i (own g)) hmW h1 hi hXW hr hl m hm
    rw [show 2 * (1 / (scale * k)) = 2 / (scale * k) by ring] at this
    rw [← this]
    refine measureReal_congr ?_
    filter_upwards [hg] with g hg
    obtain ⟨y, y0, a, s', s0, e, e0, hD⟩ := telegraph_differ hv hs hn hx ho hX hg
    refine propext ⟨?_, fun h => ⟨y, y0, a, s', s0, e, e0, (hD m hm).2 h⟩⟩
    rintro ⟨y', y0', a', t', t0, e', e0', h⟩
    rw [e] at e'
    rw [e0] at e0'
    cases e'
    cases e0'
    exact (hD m hm).1 h

/-! ### A generator that reads coins and lengths from streams -/

/-- The coins and lengths that the generator will give. -/
abbrev Teles := (ℝ → Bool) × (ℕ → ℝ → ℕ)

/-- Independent coins and lengths. -/
noncomputable def teles : Measure Teles := (Measure.infinitePi coinLaw).prod lengthStreams

instance : IsProbabilityMeasure teles := by unfold teles; infer_instance

open Classical in
/-- The generator; heights are constant. -/
noncomputable def teleRng : Rng Teles where
  binomial := fun r g => (.ok (g.1 r), g)
  geometric := fun p _ g => if 0 < p ∧ p ≤ 1 then (.ok fun i => g.2 i p + 1, g) else (.error .valueError, g)
  poisson := fun _ => pure 1
  normal := fun h _ => pure h

theorem tele_valid : teleRng.Valid where
  geometric_error := fun p n s h => by unfold teleRng; simp only; rw [if_neg h]
  geometric_ok := fun p n s h1 h2 => by
    unfold teleRng
    simp only
    rw [if_pos ⟨h1, h2⟩]
    exact ⟨_, _, rfl, fun _ _ => Nat.le_add_left _ _⟩

theorem tele_draws {r p : ℝ} (hr0 : 0 ≤ r) (hr1 : r ≤ 1) (h0 : 0 < p) (h1 : p ≤ 1) (n : ℕ) : TelegraphDraws teles id teleRng r p n := by
  have e2 : teles.map Prod.snd = lengthStreams := by
    unfold teles
    rw [Measure.map_snd_prod, measure_univ, one_smul]
  have e1 : teles.map Prod.fst = Measure.infinitePi coinLaw := by
    unfold teles
    rw [Measure.map_fst_prod, measure_univ, one_smul]
  obtain ⟨W, hW, hm, hi, hl⟩ := lengthRng_draws h0 h1 n
  have hWe : ∀ (s : ℕ → ℝ → ℕ) (i : Fin n), s i p + 1 = W i s := by
    intro s i
    obtain ⟨w, s', e, hw⟩ := hW s
    rw [← hw i]
    unfold lengthRng at e
    simp only at e
    rw [if_pos ⟨h0, h1⟩] at e
    cases e
    rfl
  refine ⟨fun g => g.1 r, fun i g => W i g.2, fun g => ⟨g, rfl, ?_⟩, by simp only [id]; fun_prop, fun i => (hm i).comp measurable_snd, ?_, ?_, ?_, fun i k => ?_⟩
  · rintro h' e
    simp only [id] at e
    subst e
    refine ⟨_, _, if_pos ⟨h0, h1⟩, fun i => hWe _ _⟩
  · simp only [id]
    have hm2 : ∀ i : Fin n, Measurable fun g : Teles => W i g.2 := fun i => (hm i).comp measurable_snd
    rw [iIndepFun_iff_map_fun_eq_infinitePi_map hm2]
    rw [iIndepFun_iff_map_fun_eq_infinitePi_map hm] at hi
    rw [← e2, Measure.map_map (measurable_pi_lambda _ hm) measurable_snd] at hi
    refine hi.trans ?_
    congr 1
    funext i
    rw [Measure.map_map (hm i) measurable_snd]
    rfl
  · exact indepFun_prod (X := fun f : ℝ → Bool => f r) (Y := fun s : ℕ → ℝ → ℕ => fun i : Fin n => W i s) (by fun_prop) (measurable_pi_lambda _ hm)
  · have e3 : (Measure.infinitePi coinLaw).map (fun f => f r) = coinLaw r := Measure.infinitePi_map_eval _ r
    have e4 : teles.map (fun g => g.1 r) = coinLaw r := by
      rw [← e3, ← e1, Measure.map_map (by fun_prop) (by fun_prop)]
      rfl
    show teles.real ((fun g => g.1 r) ⁻¹' {true}) = r
    rw [← map_measureReal_apply (by fun_prop) MeasurableSet.of_discrete, e4, coinLaw, dif_pos ⟨hr0, hr1⟩,
      bernoulliMeasure_real_apply_of_mem_of_notMem _ MeasurableSet.of_discrete (by simp) (by simp)]
  · have hk : MeasurableSet {s | W i s = k + 1} := (hm i) (MeasurableSet.of_discrete (s := {k + 1}))
    rw [← hl i k, ← e2, map_measureReal_apply measurable_snd hk]
    rfl

/-- Telegraph noise with a scale of 40 mV. -/
noncomputable def teleNoise (r : ℝ) : SigObject Teles := .rtn 0 (pure 0.04) (pure 0) (pure 5) r teleRng

theorem tele_line (lab : Labelling) (s : SimState Teles) (g : Teles) :
    g ∈ HasDensity ((streamSim []).measure lab countingRequest) s (-0.2, -0.1) (-0.2, -0.1) 10 100 := by
  obtain ⟨q, a, h⟩ := stream_silent lab (withGenerators s g)
  exact ⟨_, a, _, h, rfl, by norm_num, by norm_num⟩

theorem tele_scan (lab : Labelling) (s : SimState Teles) (g : Teles) :
    g ∈ HasDensity ((streamScanSim []).measureScan lab flipRequest) s (-2, -1) (-2, -1) 2 2 := by
  obtain ⟨q, a, s', h⟩ := stream_scan_silent lab (withGenerators s g)
  exact ⟨_, a, _, h, rfl, by norm_num, by norm_num⟩

end SimCATS
