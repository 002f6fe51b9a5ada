import Verif.Spec.BurstSim
import Verif.Lemmas.JumpImage

/-!
The heights of telegraph noise as last distortion of the response.
-/

namespace SimCATS

open Spec MeasureTheory ProbabilityTheory

variable {τ ω α : Type}

theorem signal_exists {w : ℕ → ℕ} {n : ℕ} (hw : ∀ i < n, 1 ≤ w i) (h : ℕ → α) (zero : α) : ∃ v, heightSignal w h v zero n := by
  classical
  have : ∀ k, ∃ x, k < n → ∃ b < n, blockStart w b ≤ k ∧ k < blockStart w (b + 1) ∧ x = if Odd b then h b else zero := by
    intro k
    by_cases hk : k < n
    · obtain ⟨b, hb, h1, h2⟩ := blockStart_block (lt_of_lt_of_le hk (blockStart_ge w n hw n le_rfl))
      exact ⟨_, fun _ => ⟨b, hb, h1, h2, rfl⟩⟩
    · exact ⟨zero, fun h => (hk h).elim⟩
  choose v hv using this
  refine ⟨v, fun k hk => ?_⟩
  obtain ⟨b, hb, h1, h2, h3⟩ := hv k hk
  exact ⟨b, hb, h1, h2, by rw [h3]⟩

variable {own : τ → ω} {rng : Rng τ} {r : ℝ} {n : ℕ} {scale std height : ℝ} {i : ℕ}

/-- The effect of the noise on a signal. -/
theorem burst_call (hv : rng.Valid) {x : Scan ℝ} {g1 g2 : ℝ × ℝ} {k : ℝ} (hk : PixelsPerVolt g1 g2 x k) (hs : 1 ≤ scale * k)
    {X : ω → Bool} {W : Fin x.size → ω → ℕ} {H : ℕ → ω → ℝ} {s : SimState τ}
    (hX : ∃ h, rng.binomial r s.2.gens = (.ok (X (own s.2.gens)), h) ∧
      ∀ h', own h' = own h → ∃ w h'', rng.geometric (1 / (scale * k)) x.size h' = (.ok w, h'') ∧ (∀ i : Fin x.size, w i = W i (own s.2.gens)) ∧
        DrawsInTurn (rng.normal height std) h'' fun b => H b (own s.2.gens)) :
    ∃ y s', lastCall (.rtn i (pure scale) (pure std) (pure height) r rng) g1 g2 x s = (.ok y, s') ∧
      (X (own s.2.gens) = false → y = x) ∧ (X (own s.2.gens) = true →
        heightSignal (allLengths W (own s.2.gens)) (fun b => H b (own s.2.gens)) (fun j => pixelAt y j - pixelAt x j) 0 x.size) := by
  obtain ⟨h, hb, hW⟩ := hX
  obtain ⟨q, o⟩ := s
  cases hx : X (own o.gens) with
  | false =>
    rw [hx] at hb
    exact ⟨x, _, onRest_eq (rtn_off (i := i) (scale := pure scale) (std := pure std) (height := pure height) hb x g1 g2) q, fun _ => rfl, nofun⟩
  | true =>
    rw [hx] at hb
    obtain ⟨w, h'', e, hw, st, hst0, hst⟩ := hW h rfl
    obtain ⟨y, t, hy, hd⟩ := telegraph_signal (rng := rng.drawing) (x := x) (std := std) (height := height) (drawing_valid hv) hs
      (W := fun i _ => W i (own o.gens)) (H := fun b _ => H b (own o.gens)) { o with gens := h }
      ⟨w, { o with gens := h'' }, drawing_eq (s := { o with gens := h }) e, hw, fun b => { o with gens := st b }, by dsimp only; rw [hst0],
        fun b => drawing_eq (s := { o with gens := st b }) (hst b)⟩
    obtain ⟨u, hu⟩ : ∃ u, (SigObject.rtn i (pure scale) (pure std) (pure height) r rng).dist x g1 g2 o = (.ok y, u) := by
      have hb' : rng.drawing.binomial r o = (.ok true, { o with gens := h }) := drawing_eq hb
      have := C36_rtn_call (⟨drawing (pure scale), drawing (pure std), drawing (pure height), r, rng.drawing⟩ : Rtn (ObjState τ)) x g1 g2
        ((activeSlot τ i).get o) o { o with gens := h } { o with gens := h } { o with gens := h } { o with gens := h } scale std height hb' rfl rfl rfl
      rw [density_factor hk, Option.map_some] at this
      dsimp only at this
      rw [hy] at this
      exact ⟨_, run_of (activeSlot τ i) this rfl⟩
    exact ⟨y, _, onRest_eq hu q, nofun, fun _ => hd⟩

variable [MeasurableSpace τ] {P : Measure τ}

theorem burst_law [IsProbabilityMeasure P] (hv : rng.Valid) {x x0 : M (SimState τ) (Scan ℝ × α)} {s : SimState τ} {g1 g2 : ℝ × ℝ} {k : ℝ}
    (hs : 1 ≤ scale * k)
    (hx : x = x0 >>= fun out => lastCall (.rtn i (pure scale) (pure std) (pure height) r rng) g1 g2 out.1 >>= fun y => pure (y, out.2))
    (ho : ∀ g out s0, x0 (withGenerators s g) = (.ok out, s0) → own s0.2.gens = own g)
    (hT : BurstDraws P own rng r (1 / (scale * k)) height std n) (hg : ∀ᵐ g ∂P, g ∈ HasDensity x0 s g1 g2 n k) (m l : ℕ) (hm : m + l < n)
    {B : Set ℝ} (hB : MeasurableSet B) (h0 : 0 ∉ B) :
    P.real (RaisedBy x x0 s m l B) =
      r * ((1 - 1 / (scale * k)) ^ l * ((1 - (1 - 2 / (scale * k)) ^ m) / 2) * (gaussianReal height (std ^ 2).toNNReal).real B) := by
  obtain ⟨X, W, H, hX, hmX, hmW, hmH, hXY, hi, hWH, hr, hl, hQ⟩ := hT
  have h1 : ∀ i g, 1 ≤ W i (own g) := by
    intro i g
    obtain ⟨h, -, hW⟩ := hX g
    obtain ⟨w, h'', e, hw, -⟩ := hW h rfl
    obtain ⟨w', t, e', hp⟩ := hv.geometric_ok (1 / (scale * k)) n h (by positivity) (by
      rw [div_le_one (by linarith)]
      exact hs)
    rw [e] at e'
    cases e'
    rw [← hw i]
    exact hp i i.2
  have hpos : ∀ g, ∀ i < n, 1 ≤ allLengths W (own g) i := by
    intro g i hi
    rw [allLengths, dif_pos hi]
    exact h1 _ _
  choose v hsig using fun g : τ => signal_exists (hpos g) (fun b => H b (own g)) 0
  have hlaw := switched_plateau (P := P) (X := fun g => X (own g)) (W := fun i g => W i (own g)) (H := fun b g => H b (own g)) (v := v)
    hmX hmW h1 hmH hXY hi hWH hl hQ hsig hm hB h0
  rw [show 2 * (1 / (scale * k)) = 2 / (scale * k) by ring, hr] at hlaw
  rw [← hlaw]
  refine measureReal_congr ?_
  filter_upwards [hg] with g hg
  obtain ⟨y0, a, s0, e0, rfl, hd⟩ := hg
  have hown := ho g _ _ e0
  obtain ⟨y, s', hy, hoff, hon⟩ := burst_call (i := i) (own := own) (X := X) (W := W) (H := H) (s := s0) (std := std) (height := height) hv hd hs
    (hX s0.2.gens)
  rw [hown] at hoff hon
  have e : x (withGenerators s g) = (.ok (y, a), s') := by
    rw [hx]
    exact (M.step e0).trans (M.step hy)
  have key : Plateau (fun j => pixelAt y j - pixelAt y0 j) m l B ↔ X (own g) = true ∧ Plateau (v g) m l B := by
    cases hb : X (own g) with
    | false =>
      rw [hoff hb]
      refine ⟨fun h => (h0 ?_).elim, fun h => nomatch h.1⟩
      have := h.1
      simpa using this
    | true =>
      rw [plateau_iff (hpos g) (hon hb) hm h0, plateau_iff (hpos g) (hsig g) hm h0]
      exact ⟨fun h => ⟨rfl, h⟩, fun h => h.2⟩
  refine propext ⟨?_, fun h => ⟨y, y0, a, s', s0, e, e0, key.2 h⟩⟩
  rintro ⟨y', y0', a', t', t0, e', e0', h⟩
  rw [e] at e'
  rw [e0] at e0'
  cases e'
  cases e0'
  exact key.1 h

/-- The value of a pixel as a function of the draws. -/
theorem signal_value {w : ℕ → ℕ} {h v : ℕ → ℝ} {n m : ℕ} (hv : heightSignal w h v 0 n) (hm : m < n) :
    v m = ∑ b ∈ Finset.range n, open Classical in if Odd b ∧ blockStart w b ≤ m ∧ m < blockStart w (b + 1) then h b else 0 := by
  classical
  obtain ⟨b, hb, h1, h2, h3⟩ := hv m hm
  rw [Finset.sum_eq_single b]
  · rw [h3]
    by_cases ho : Odd b
    · rw [if_pos ho, if_pos ⟨ho, h1, h2⟩]
    · rw [if_neg ho, if_neg fun hc => ho hc.1]
  · intro b' _ hne
    rw [if_neg]
    rintro ⟨-, h4, h5⟩
    exact hne (block_unique h4 h5 h1 h2)
  · exact fun hc => absurd (Finset.mem_range.2 hb) hc

/-- The difference of the signals is a random number. -/
theorem difference_measurable (hv : rng.Valid) {x x0 : M (SimState τ) (Scan ℝ × α)} {s : SimState τ} {g1 g2 : ℝ × ℝ} {k : ℝ}
    (hs : 1 ≤ scale * k)
    (hx : x = x0 >>= fun out => lastCall (.rtn i (pure scale) (pure std) (pure height) r rng) g1 g2 out.1 >>= fun y => pure (y, out.2))
    (ho : ∀ g out s0, x0 (withGenerators s g) = (.ok out, s0) → own s0.2.gens = own g)
    (hT : BurstDraws P own rng r (1 / (scale * k)) height std n) (hg : ∀ᵐ g ∂P, g ∈ HasDensity x0 s g1 g2 n k) (m : ℕ) (hm : m < n) :
    AEMeasurable (signalDifference x x0 s m) P ∧ ∀ B, 0 ∉ B → RaisedBy x x0 s m 0 B =ᵐ[P] signalDifference x x0 s m ⁻¹' B := by
  classical
  obtain ⟨X, W, H, hX, hmX, hmW, hmH, -⟩ := hT
  have hWm : Measurable fun (g : τ) i => W i (own g) := measurable_pi_iff.2 hmW
  constructor
  · refine ⟨fun g => if X (own g) = true then ∑ b ∈ Finset.range n,
      (if Odd b ∧ blockStart (allLengths W (own g)) b ≤ m ∧ m < blockStart (allLengths W (own g)) (b + 1) then H b (own g) else 0) else 0, ?_, ?_⟩
    · refine Measurable.ite (hmX (measurableSet_singleton true)) (Finset.measurable_sum _ fun b _ => ?_) measurable_const
      refine Measurable.ite ?_ (hmH b) measurable_const
      exact hWm (MeasurableSet.of_discrete (s := {f : Fin n → ℕ | Odd b ∧ blockStart (fun i => if h : i < n then f ⟨i, h⟩ else 0) b ≤ m ∧
        m < blockStart (fun i => if h : i < n then f ⟨i, h⟩ else 0) (b + 1)}))
    · filter_upwards [hg] with g hg
      obtain ⟨y0, a, s0, e0, rfl, hd⟩ := hg
      have hown := ho g _ _ e0
      obtain ⟨y, s', hy, hoff, hon⟩ := burst_call (i := i) (own := own) (X := X) (W := W) (H := H) (s := s0) (std := std) (height := height) hv hd hs
        (hX s0.2.gens)
      rw [hown] at hoff hon
      have e : x (withGenerators s g) = (.ok (y, a), s') := by
        rw [hx]
        exact (M.step e0).trans (M.step hy)
      unfold signalDifference
      rw [e, e0]
      dsimp only
      cases hb : X (own g) with
      | false => rw [hoff hb, sub_self, if_neg (by simp)]
      | true =>
        rw [if_pos rfl]
        exact signal_value (hon hb) hm
  · intro B h0
    filter_upwards [hg] with g hg
    refine propext ⟨?_, fun h => ?_⟩
    · rintro ⟨y, y0, a, s', s0, e, e0, h⟩
      show signalDifference x x0 s m g ∈ B
      unfold signalDifference
      rw [e, e0]
      exact h.1
    · change signalDifference x x0 s m g ∈ B at h
      obtain ⟨y0, a, s0, e0, rfl, hd⟩ := hg
      obtain ⟨y, s', hy, -⟩ := burst_call (i := i) (own := own) (X := X) (W := W) (H := H) (s := s0) (std := std) (height := height) hv hd hs
        (hX s0.2.gens)
      have e : x (withGenerators s g) = (.ok (y, a), s') := by
        rw [hx]
        exact (M.step e0).trans (M.step hy)
      unfold signalDifference at h
      rw [e, e0] at h
      refine ⟨y, y0, a, s', s0, e, e0, h, fun j hj => ?_⟩
      rw [Nat.le_zero.1 hj]
      rfl

/-- A distribution that is known outside of 0. -/
theorem mixture_law [IsProbabilityMeasure P] {D : τ → ℝ} (hD : AEMeasurable D P) {c : ℝ} (hc0 : 0 ≤ c) (hc1 : c ≤ 1) (Q : Measure ℝ)
    [IsProbabilityMeasure Q] (h : ∀ B, MeasurableSet B → 0 ∉ B → P.real (D ⁻¹' B) = c * Q.real B) :
    P.map D = ENNReal.ofReal (1 - c) • Measure.dirac 0 + ENNReal.ofReal c • Q := by
  have hp : IsProbabilityMeasure (P.map D) := Measure.isProbabilityMeasure_map hD
  have hB : ∀ B, MeasurableSet B → 0 ∉ B → P.map D B = ENNReal.ofReal c * Q B := by
    intro B hm h0
    rw [Measure.map_apply_of_aemeasurable hD hm, ← ENNReal.ofReal_toReal (measure_ne_top P (D ⁻¹' B)), ← measureReal_def, h B hm h0,
      ENNReal.ofReal_mul hc0, measureReal_def, ENNReal.ofReal_toReal (measure_ne_top Q B)]
  ext B hm
  rw [Measure.add_apply, Measure.smul_apply, Measure.smul_apply, smul_eq_mul, smul_eq_mul, Measure.dirac_apply' _ hm]
  by_cases h0 : (0 : ℝ) ∈ B
  · have h1 := hB Bᶜ hm.compl (by simpa using h0)
    rw [prob_compl_eq_one_sub hm, prob_compl_eq_one_sub hm] at h1
    have h2 : (P.map D).real B = 1 - c * (1 - Q.real B) := by
      have := congrArg ENNReal.toReal h1
      rw [ENNReal.toReal_sub_of_le prob_le_one (by simp), ENNReal.toReal_mul, ENNReal.toReal_sub_of_le prob_le_one (by simp), ENNReal.toReal_ofReal hc0] at this
      simp only [ENNReal.toReal_one] at this
      rw [measureReal_def, measureReal_def]
      linarith
    rw [Set.indicator_of_mem h0, Pi.one_apply, mul_one, ← ENNReal.ofReal_toReal (measure_ne_top (P.map D) B), ← measureReal_def, h2,
      show 1 - c * (1 - Q.real B) = (1 - c) + c * Q.real B by ring,
      ENNReal.ofReal_add (by linarith) (mul_nonneg hc0 measureReal_nonneg), ENNReal.ofReal_mul hc0, measureReal_def,
      ENNReal.ofReal_toReal (measure_ne_top Q B)]
  · rw [Set.indicator_of_notMem h0, mul_zero, zero_add]
    exact hB B hm h0

theorem burst_mixture [IsProbabilityMeasure P] (hv : rng.Valid) {x x0 : M (SimState τ) (Scan ℝ × α)} {s : SimState τ} {g1 g2 : ℝ × ℝ} {k : ℝ}
    (hs : 1 ≤ scale * k)
    (hx : x = x0 >>= fun out => lastCall (.rtn i (pure scale) (pure std) (pure height) r rng) g1 g2 out.1 >>= fun y => pure (y, out.2))
    (ho : ∀ g out s0, x0 (withGenerators s g) = (.ok out, s0) → own s0.2.gens = own g)
    (hT : BurstDraws P own rng r (1 / (scale * k)) height std n) (hg : ∀ᵐ g ∂P, g ∈ HasDensity x0 s g1 g2 n k) (m : ℕ) (hm : m < n) {c : ℝ}
    (hc : c = r * ((1 - (1 - 2 / (scale * k)) ^ m) / 2)) :
    P.map (signalDifference x x0 s m) = ENNReal.ofReal (1 - c) • Measure.dirac 0 + ENNReal.ofReal c • gaussianReal height (std ^ 2).toNNReal ∧
      ∫ g, signalDifference x x0 s m g ∂P = c * height := by
  obtain ⟨hD, hR⟩ := difference_measurable hv hs hx ho hT hg m hm
  have hr : 0 ≤ r ∧ r ≤ 1 := by
    obtain ⟨X, -, -, -, -, -, -, -, -, -, hr, -⟩ := hT
    exact hr ▸ ⟨measureReal_nonneg, measureReal_le_one⟩
  have hq : |(1 - 2 / (scale * k)) ^ m| ≤ 1 := by
    rw [abs_pow]
    refine pow_le_one₀ (abs_nonneg _) ?_
    have h1 : 0 < 2 / (scale * k) := by positivity
    have h2 : 2 / (scale * k) ≤ 2 := by
      rw [div_le_iff₀ (by linarith)]
      linarith
    rw [abs_le]
    constructor <;> linarith
  obtain ⟨q1, q2⟩ := abs_le.1 hq
  have hc0 : 0 ≤ c := by
    rw [hc]
    exact mul_nonneg hr.1 (by linarith)
  have hc1 : c ≤ 1 := by
    rw [hc]
    exact mul_le_one₀ hr.2 (by linarith) (by linarith)
  have hmap := mixture_law hD hc0 hc1 (gaussianReal height (std ^ 2).toNNReal) fun B hB h0 => by
    rw [← measureReal_congr (hR B h0), burst_law hv hs hx ho hT hg m 0 (by omega) hB h0, hc, pow_zero, one_mul, mul_assoc]
  refine ⟨hmap, ?_⟩
  have h1 : ∫ g, signalDifference x x0 s m g ∂P = ∫ a, a ∂(P.map (signalDifference x x0 s m)) :=
    (integral_map (f := fun a : ℝ => a) hD (by fun_prop)).symm
  rw [h1, hmap, integral_add_measure, integral_smul_measure, integral_smul_measure, integral_dirac, integral_id_gaussianReal,
    ENNReal.toReal_ofReal hc0, smul_zero, zero_add, smul_eq_mul]
  · exact (integrable_dirac (by simp)).smul_measure (by simp)
  · refine Integrable.smul_measure ?_ (by simp)
    exact (memLp_id_gaussianReal 1).integrable le_rfl

/-! ### A generator with the documented distributions -/

theorem burst_draws (lam : NNReal) {r p height std : ℝ} (hr0 : 0 ≤ r) (hr1 : r ≤ 1) (h0 : 0 < p) (h1 : p ≤ 1) (n : ℕ) :
    BurstDraws (jumpStreams lam) id jumpRng r p height std n := by
  have e2 : (jumpStreams lam).map Prod.snd = heightStreams lam := by
    unfold jumpStreams
    rw [Measure.map_snd_prod, measure_univ, one_smul]
  have e1 : (jumpStreams lam).map Prod.fst = Measure.infinitePi coinLaw := by
    unfold jumpStreams
    rw [Measure.map_fst_prod, measure_univ, one_smul]
  obtain ⟨W, H, hW, hm, hmH, hi, hWH, hl, hQ⟩ := normal_draws lam h0 h1 n height std
  have hmW' : Measurable fun (s : HeightStreams) i => W i s := measurable_pi_iff.2 hm
  have hmH' : Measurable fun (s : HeightStreams) b => H b s := measurable_pi_iff.2 hmH
  have hm2 : ∀ i : Fin n, Measurable fun g : JumpStreams => W i g.2 := fun i => (hm i).comp measurable_snd
  refine ⟨fun g => g.1 r, fun i g => W i g.2, fun b g => H b g.2, fun g => ⟨g, rfl, ?_⟩, by simp only [id]; fun_prop, hm2,
    fun b => (hmH b).comp measurable_snd, ?_, ?_, ?_, ?_, fun i k => ?_, fun b => ?_⟩
  · rintro h' e
    simp only [id] at e
    subst e
    obtain ⟨w, s', e, hw, st, hst0, hst⟩ := hW h'.2
    exact ⟨w, (h'.1, s'), onRest_eq e h'.1, hw, fun b => (h'.1, st b), Prod.ext rfl hst0, fun b => onRest_eq (hst b) h'.1⟩
  · exact indepFun_prod (X := fun f : ℝ → Bool => f r) (Y := fun s : HeightStreams => ((fun i => W i s), fun b => H b s)) (by fun_prop)
      (hmW'.prodMk hmH')
  · simp only [id]
    rw [iIndepFun_iff_map_fun_eq_infinitePi_map hm2]
    rw [iIndepFun_iff_map_fun_eq_infinitePi_map hm] at hi
    rw [← e2, Measure.map_map hmW' measurable_snd] at hi
    refine hi.trans ?_
    congr 1
    funext i
    rw [Measure.map_map (hm i) measurable_snd]
    rfl
  · rw [indepFun_iff_map_prod_eq_prod_map_map hmW'.aemeasurable hmH'.aemeasurable, ← e2, Measure.map_map (hmW'.prodMk hmH') measurable_snd,
      Measure.map_map hmW' measurable_snd, Measure.map_map hmH' measurable_snd] at hWH
    exact (indepFun_iff_map_prod_eq_prod_map_map (hmW'.comp measurable_snd).aemeasurable (hmH'.comp measurable_snd).aemeasurable).2 hWH
  · have e3 : (Measure.infinitePi coinLaw).map (fun f => f r) = coinLaw r := Measure.infinitePi_map_eval _ r
    have e4 : (jumpStreams lam).map (fun g => g.1 r) = coinLaw r := by
      rw [← e3, ← e1, Measure.map_map (by fun_prop) (by fun_prop)]
      rfl
    show (jumpStreams lam).real ((fun g => g.1 r) ⁻¹' {true}) = r
    rw [← map_measureReal_apply (by fun_prop) MeasurableSet.of_discrete, e4, coinLaw, dif_pos ⟨hr0, hr1⟩,
      bernoulliMeasure_real_apply_of_mem_of_notMem _ MeasurableSet.of_discrete (by simp) (by simp)]
  · have hk : MeasurableSet {s | W i s = k + 1} := (hm i) (MeasurableSet.of_discrete (s := {k + 1}))
    rw [← hl i k, ← e2, map_measureReal_apply measurable_snd hk]
    rfl
  · rw [← hQ b, ← e2, Measure.map_map (hmH b) measurable_snd]
    rfl

/-- Telegraph noise with a scale of 40 mV, heights around 1.5. -/
noncomputable def burstNoise (r : ℝ) : SigObject JumpStreams := .rtn 0 (pure 0.04) (pure 0.1) (pure 1.5) r jumpRng

theorem burst_line (lab : Labelling) (s : SimState JumpStreams) (g : JumpStreams) :
    g ∈ HasDensity ((streamSim []).measure lab countingRequest) s (-0.2, -0.1) (-0.2, -0.1) 10 100 := by
  obtain ⟨q, a, h⟩ := stream_silent lab (withGenerators s g)
  exact ⟨_, a, _, h, rfl, by norm_num, by norm_num⟩

theorem burst_scan (lab : Labelling) (s : SimState JumpStreams) (g : JumpStreams) :
    g ∈ HasDensity ((streamScanSim []).measureScan lab flipRequest) s (-2, -1) (-2, -1) 2 2 := by
  obtain ⟨q, a, s', h⟩ := stream_scan_silent lab (withGenerators s g)
  exact ⟨_, a, _, h, rfl, by norm_num, by norm_num⟩

end SimCATS
