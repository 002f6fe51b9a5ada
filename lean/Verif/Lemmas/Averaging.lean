import Verif.Spec.Averaging
import Verif.Lemmas.WhiteNoiseLaw
import Verif.Props.History

/-!
Repeated measurements with white noise.
-/

namespace SimCATS

open Spec MeasureTheory ProbabilityTheory

variable {τ ω α : Type} {sim : AnySim τ} {pre : List (SigObject τ)} {i : ℕ} {sigma : M τ ℝ} {noise : ℝ → ℕ → M τ (List ℝ)}
  {own : τ → ω} {X : ℕ → ω → ℝ}

/-- The generator after a successful call of white noise. -/
theorem white_shift (hG : GoesOn own noise X) (hu : Spec.Untouched own sigma) {y z : Scan ℝ} {s s' : SimState τ}
    (h : whiteCall i sigma noise y s = (.ok z, s')) (k : ℕ) : X k (own s'.2.gens) = X (y.size + k) (own s.2.gens) := by
  rw [whiteCall_eq] at h
  have hu' := hu s.2.gens
  rcases hs : sigma s.2.gens with ⟨e | v, g⟩
  · rw [hs] at h
    simp at h
  · rw [hs] at h hu'
    dsimp only at h hu'
    rcases hn : noise v y.size g with ⟨e | l, u⟩
    · rw [hn] at h
      simp at h
    · rw [hn] at h
      dsimp only at h
      obtain ⟨-, rfl⟩ := Prod.mk.inj h
      rw [← hu']
      exact hG v _ g l u hn k

/-- A successful measurement with white noise at the end. -/
theorem after_shift {x0 : M (SimState τ) (Scan ℝ × α)} (hX : ScaledDraws own noise X) (hG : GoesOn own noise X) (hu : Spec.Untouched own sigma)
    {s s' : SimState τ} {y : Scan ℝ} {a : α} (ho : ∀ out s0, x0 s = (.ok out, s0) → own s0.2.gens = own s.2.gens)
    (h : (x0 >>= fun out => whiteCall i sigma noise out.1 >>= fun y => pure (y, out.2)) s = (.ok (y, a), s')) :
    ∃ y0 s0 v g, x0 s = (.ok (y0, a), s0) ∧ sigma s0.2.gens = (.ok v, g) ∧ 0 ≤ v ∧ PlusNoise y0 v (fun k => X k (own s.2.gens)) y ∧
      sigReport s' (.additive i sigma noise) = (some v, none) ∧ ∀ k, X k (own s'.2.gens) = X (y.size + k) (own s.2.gens) := by
  obtain ⟨⟨y0, a0⟩, s0, h1, h2⟩ := M.bind_ok.1 h
  obtain ⟨z, t, h3, h4⟩ := M.bind_ok.1 h2
  cases h4
  obtain ⟨v, g, hv, h0, hp, hr⟩ := white_only hX hu h3
  rw [ho _ _ h1] at hp
  refine ⟨y0, s0, v, g, h1, hv, h0, hp, hr, fun k => ?_⟩
  rw [white_shift hG hu h3, ho _ _ h1, plus_size hp]

/-- One call: the noise-free result from the same state plus the next numbers. -/
theorem call_shift (hd : Distinct sim) (hr : sim.resp = some (pre ++ [.additive i sigma noise])) (hocc : ∀ o ∈ sim.occ.getD [], OccUntouched own o)
    (hpot : ∀ o ∈ sim.pot.getD [], SigUntouched own o) (hpre : ∀ o ∈ pre, SigUntouched own o) (hs : Spec.Untouched own sigma)
    (hX : ScaledDraws own noise X) (hG : GoesOn own noise X) {lab : Labelling} {c : MeasureCall} {s s' : SimState τ} {r : MeasureResult}
    (h : sim.call lab c s = (.ok r, s')) :
    (∃ r0 s0 v, AnySim.call { sim with resp := some pre } lab c s = (.ok r0, s0) ∧ 0 ≤ v ∧ sigReport s' (.additive i sigma noise) = (some v, none) ∧
      NoiseAdded r0 v (fun k => X k (own (generators s))) r) ∧ ∀ k, X k (own (generators s')) = X ((resultSignal r).size + k) (own (generators s)) := by
  cases c with
  | csd rq =>
    obtain ⟨⟨y, a⟩, t, h1, h2⟩ := M.bind_ok.1 h
    cases h2
    rw [measure_last hr] at h1
    obtain ⟨y0, s0, v, g, h3, -, h4, h5, h6, h7⟩ := after_shift hX hG hs (fun _ _ => measure_own (distinct_pre hr hd) hocc hpot hpre) h1
    exact ⟨⟨.csd (y0, a), s0, v, M.step h3, h4, h6, h5, rfl⟩, h7⟩
  | scan rq =>
    obtain ⟨⟨y, a⟩, t, h1, h2⟩ := M.bind_ok.1 h
    cases h2
    rw [measureScan_last hr] at h1
    obtain ⟨y0, s0, v, g, h3, -, h4, h5, h6, h7⟩ := after_shift hX hG hs (fun _ _ => measureScan_own (distinct_pre hr hd) hpot hpre) h1
    exact ⟨⟨.scan (y0, a), s0, v, M.step h3, h4, h6, h5, rfl⟩, h7⟩

/-- The numbers of the series: call `j` uses those after the numbers of the calls before. -/
theorem series_shift {st : ℕ → SimState τ} {r : ℕ → MeasureResult} {N : ℕ}
    (h : ∀ j < N, ∀ k, X k (own (generators (st (j + 1)))) = X ((resultSignal (r j)).size + k) (own (generators (st j)))) :
    ∀ j ≤ N, ∀ k, X k (own (generators (st j))) = X ((∑ i ∈ Finset.range j, (resultSignal (r i)).size) + k) (own (generators (st 0)))
  | 0, _, k => by simp
  | j + 1, hj, k => by
    rw [h j hj, series_shift h j (by omega), Finset.sum_range_succ, add_assoc]

/-! ### The same measurement several times -/

/-- What `N` measurements return if the measurement without noise always returns the same. -/
theorem repeat_run {x x0 : M (SimState τ) (Scan ℝ × α)} (hX : ScaledDraws own noise X) (hG : GoesOn own noise X) {v : ℝ} (h0 : 0 ≤ v)
    (hx : x = x0 >>= fun out => whiteCall i (pure v) noise out.1 >>= fun y => pure (y, out.2)) {y0 : Scan ℝ} {a : α}
    (hs : ∀ s, ∃ s', x0 s = (.ok (y0, a), s') ∧ own s'.2.gens = own s.2.gens) :
    ∀ (N : ℕ) (s : SimState τ), ∃ l s', Repeat x N s = (.ok l, s') ∧ l.length = N ∧ (∀ o ∈ l, o.2 = a) ∧
      ∀ k < y0.size, (l.map fun o => pixelAt o.1 k) = (List.range N).map fun j => pixelAt y0 k + v * X (j * y0.size + k) (own s.2.gens)
  | 0, s => ⟨[], s, rfl, rfl, nofun, fun _ _ => rfl⟩
  | N + 1, s => by
    obtain ⟨s0, h1, ho⟩ := hs s
    obtain ⟨y, s1, h2, hp, -⟩ := after_ok (i := i) (sigma := pure v) hX (fun _ => rfl) h1 ho (v := v) rfl h0
    obtain ⟨-, -, -, -, -, -, -, -, -, hsh⟩ := after_shift (i := i) (sigma := pure v) hX hG (fun _ => rfl) (fun out t ht => by
      rw [h1] at ht
      cases ht
      exact ho) h2
    rw [← hx] at h2
    obtain ⟨l, s2, h3, h4, h5, h6⟩ := repeat_run hX hG h0 hx hs N s1
    refine ⟨(y, a) :: l, s2, (M.step h2).trans (M.step h3), by rw [List.length_cons, h4], ?_, fun k hk => ?_⟩
    · intro o ho
      rcases List.mem_cons.1 ho with rfl | ho
      · rfl
      · exact h5 o ho
    · rw [List.map_cons, h6 k hk, List.range_succ_eq_map, List.map_cons, List.map_map, pixelAt_plus hp hk]
      refine congrArg₂ _ (by simp) (List.map_congr_left fun j _ => ?_)
      show _ = pixelAt y0 k + v * X ((j + 1) * y0.size + k) _
      rw [hsh, plus_size hp]
      congr 3
      ring

/-! ### The distribution -/

/-- The numbers used by `N` measurements of `n` pixels, pixel by pixel. -/
theorem grouped [MeasurableSpace τ] {P : Measure τ} (hN : StandardNormal P own X) (n : ℕ) :
    P.map (fun g (k : Fin n) (j : ℕ) => X (j * n + k) (own g)) = Measure.infinitePi fun _ => Measure.infinitePi fun _ => gaussianReal 0 1 := by
  have hinj : Function.Injective fun p : Fin n × ℕ => p.2 * n + p.1 := by
    rintro ⟨⟨k, hk⟩, j⟩ ⟨⟨k', hk'⟩, j'⟩ h
    simp only at h
    have hq := congrArg (· / n) h
    have hn : 0 < n := by omega
    simp only [Nat.add_comm _ k, Nat.add_comm _ k', Nat.add_mul_div_right _ _ hn,
      Nat.div_eq_of_lt hk, Nat.div_eq_of_lt hk'] at hq
    simp only [Nat.zero_add] at hq
    subst hq
    have : k = k' := by omega
    subst this
    rfl
  have hm : ∀ p : Fin n × ℕ, Measurable fun g => X (p.2 * n + p.1) (own g) := fun p => hN.measurable _
  have h1 : P.map (fun g (p : Fin n × ℕ) => X (p.2 * n + p.1) (own g)) = Measure.infinitePi fun _ => gaussianReal 0 1 := by
    rw [(hN.independent.precomp hinj).map_fun_eq_infinitePi_map hm]
    congr 1
    funext p
    exact hN.law _
  have h2 := Measure.infinitePi_map_curry (ι := Fin n) (κ := ℕ) (fun _ _ => gaussianReal 0 1)
  rw [← h1, Measure.map_map (by fun_prop) (measurable_pi_iff.2 hm)] at h2
  exact h2

/-- The sum of standard normal numbers. -/
theorem sum_law : ∀ N : ℕ, (Measure.infinitePi fun _ : ℕ => gaussianReal 0 1).map (fun f => ∑ j ∈ Finset.range N, f j) = gaussianReal 0 N
  | 0 => by
    simp
  | N + 1 => by
    have hi : iIndepFun (fun (n : ℕ) (f : ℕ → ℝ) => f n) (Measure.infinitePi fun _ : ℕ => gaussianReal 0 1) :=
      iIndepFun_infinitePi (P := fun _ : ℕ => gaussianReal 0 1) (X := fun _ x => x) fun _ => by fun_prop
    have h1 := hi.indepFun_sum_range_succ (fun j => by fun_prop) N
    have h2 : (Measure.infinitePi fun _ : ℕ => gaussianReal 0 1).map (∑ j ∈ Finset.range N, fun f : ℕ → ℝ => f j) = gaussianReal 0 N := by
      rw [← sum_law N]
      congr 1
      funext f
      simp
    have h3 := gaussianReal_add_gaussianReal_of_indepFun h1 h2 (Measure.infinitePi_map_eval (fun _ : ℕ => gaussianReal 0 1) N)
    rw [add_zero] at h3
    refine Eq.trans ?_ (h3.trans ?_)
    · congr 1
      funext f
      simp [Finset.sum_range_succ]
    · push_cast
      rfl

/-- The joint distribution of the deviations. -/
theorem all_law [MeasurableSpace τ] {P : Measure τ} (hX : ScaledDraws own noise X) (hG : GoesOn own noise X) (hN : StandardNormal P own X) {v : ℝ}
    (h0 : 0 ≤ v) {x x0 : M (SimState τ) (Scan ℝ × α)} (hx : x = x0 >>= fun out => whiteCall i (pure v) noise out.1 >>= fun y => pure (y, out.2))
    {y0 : Scan ℝ} {a : α} (hs : ∀ s, ∃ s', x0 s = (.ok (y0, a), s') ∧ own s'.2.gens = own s.2.gens) (s : SimState τ) (N : ℕ)
    {B : ℕ → ℕ → Set ℝ} (hB : ∀ j < N, ∀ k < y0.size, MeasurableSet (B j k)) :
    P.real (AllDiffer x s N y0 a B) = ∏ j ∈ Finset.range N, ∏ k ∈ Finset.range y0.size, (gaussianReal 0 (Real.toNNReal (v ^ 2))).real (B j k) := by
  have hinj : Function.Injective fun p : Fin N × Fin y0.size => (p.1 : ℕ) * y0.size + p.2 := by
    rintro ⟨⟨j, hj⟩, ⟨k, hk⟩⟩ ⟨⟨j', hj'⟩, ⟨k', hk'⟩⟩ h
    simp only at h
    have hq := congrArg (· / y0.size) h
    have hn : 0 < y0.size := by omega
    simp only [Nat.add_comm _ k, Nat.add_comm _ k', Nat.add_mul_div_right _ _ hn,
      Nat.div_eq_of_lt hk, Nat.div_eq_of_lt hk'] at hq
    simp only [Nat.zero_add] at hq
    subst hq
    have : k = k' := by omega
    subst this
    rfl
  have hi := hN.independent.precomp hinj
  have e : AllDiffer x s N y0 a B = ⋂ p ∈ (Finset.univ : Finset (Fin N × Fin y0.size)),
      (fun g => X ((p.1 : ℕ) * y0.size + p.2) (own g)) ⁻¹' ((fun t => v * t) ⁻¹' B p.1 p.2) := by
    ext g
    obtain ⟨l, s', h1, h2, h3, h4⟩ := repeat_run hX hG h0 hx hs N (withGenerators s g)
    have h5 : ∀ j < N, ∀ k < y0.size, ∀ out, l[j]? = some out → pixelAt out.1 k - pixelAt y0 k = v * X (j * y0.size + k) (own g) := by
      intro j hj k hk out ho
      have := congrArg (·[j]?) (h4 k hk)
      simp only [List.getElem?_map, ho, List.getElem?_range hj, Option.map_some, Option.some.injEq] at this
      rw [this]
      show pixelAt y0 k + v * X (j * y0.size + k) (own g) - pixelAt y0 k = _
      ring
    constructor
    · rintro ⟨l', t, h1', -, h⟩
      rw [h1] at h1'
      cases h1'
      refine Set.mem_iInter₂.2 fun p _ => ?_
      obtain ⟨out, ho, -, hb⟩ := h p.1 p.1.2
      have := hb p.2 p.2.2
      rwa [h5 _ p.1.2 _ p.2.2 out ho] at this
    · intro h
      refine ⟨l, s', h1, h2, fun j hj => ?_⟩
      have ho : l[j]? = some (l[j]'(h2 ▸ hj)) := List.getElem?_eq_getElem _
      refine ⟨_, ho, h3 _ (List.getElem_mem _), fun k hk => ?_⟩
      rw [h5 j hj k hk _ ho]
      exact Set.mem_iInter₂.1 h (⟨j, hj⟩, ⟨k, hk⟩) (Finset.mem_univ _)
  have hm : ∀ p ∈ (Finset.univ : Finset (Fin N × Fin y0.size)), MeasurableSet ((fun t => v * t) ⁻¹' B p.1 p.2) := fun p _ =>
    (measurable_const_mul v) (hB p.1 p.1.2 p.2 p.2.2)
  rw [e, measureReal_def, hi.measure_inter_preimage_eq_mul Finset.univ hm, ENNReal.toReal_prod, Fintype.prod_prod_type, Finset.prod_range]
  refine Finset.prod_congr rfl fun j _ => ?_
  rw [Finset.prod_range]
  refine Finset.prod_congr rfl fun k _ => ?_
  rw [← Measure.map_apply (hN.measurable _) (hm (j, k) (Finset.mem_univ _)), hN.law,
    ← Measure.map_apply (measurable_const_mul v) (hB j j.2 k k.2), gaussianReal_map_const_mul, measureReal_def]
  congr 3
  · ring
  · rw [mul_one]
    exact (Real.toNNReal_of_nonneg (sq_nonneg v)).symm

theorem listSum_range (f : ℕ → ℝ) (N : ℕ) : ((List.range N).map f).sum = ∑ j ∈ Finset.range N, f j := by
  induction N with
  | zero => rfl
  | succ N ih => rw [List.range_succ, List.map_append, List.sum_append, ih, Finset.sum_range_succ]; simp

/-- The joint distribution of the means. -/
theorem mean_law [MeasurableSpace τ] {P : Measure τ} (hX : ScaledDraws own noise X) (hG : GoesOn own noise X) (hN : StandardNormal P own X) {v : ℝ}
    (h0 : 0 ≤ v) {x x0 : M (SimState τ) (Scan ℝ × α)} (hx : x = x0 >>= fun out => whiteCall i (pure v) noise out.1 >>= fun y => pure (y, out.2))
    {y0 : Scan ℝ} {a : α} (hs : ∀ s, ∃ s', x0 s = (.ok (y0, a), s') ∧ own s'.2.gens = own s.2.gens) (s : SimState τ) {N : ℕ} (hN0 : 0 < N)
    {B : ℕ → Set ℝ} (hB : ∀ k < y0.size, MeasurableSet (B k)) :
    P.real (MeanIn x s N y0.size B) = ∏ k ∈ Finset.range y0.size, (gaussianReal (pixelAt y0 k) (Real.toNNReal (v ^ 2 / N))).real (B k) := by
  have hNr : (N : ℝ) ≠ 0 := by exact_mod_cast hN0.ne'
  have hmeas : ∀ k : Fin y0.size, Measurable fun f : ℕ → ℝ => pixelAt y0 k + v / N * ∑ j ∈ Finset.range N, f j := fun k => by fun_prop
  have hB' : ∀ k : Fin y0.size, MeasurableSet ((fun f : ℕ → ℝ => pixelAt y0 k + v / N * ∑ j ∈ Finset.range N, f j) ⁻¹' B k) := fun k =>
    hmeas k (hB k k.2)
  have e : MeanIn x s N y0.size B = (fun g (k : Fin y0.size) (j : ℕ) => X (j * y0.size + k) (own g)) ⁻¹'
      ⋂ k ∈ (Finset.univ : Finset (Fin y0.size)), (fun f : Fin y0.size → ℕ → ℝ => f k) ⁻¹'
        ((fun f : ℕ → ℝ => pixelAt y0 k + v / N * ∑ j ∈ Finset.range N, f j) ⁻¹' B k) := by
    ext g
    obtain ⟨l, s', h1, h2, h3, h4⟩ := repeat_run hX hG h0 hx hs N (withGenerators s g)
    have h5 : ∀ k < y0.size, meanAt l k = pixelAt y0 k + v / N * ∑ j ∈ Finset.range N, X (j * y0.size + k) (own g) := by
      intro k hk
      unfold meanAt
      rw [h4 k hk, h2, listSum_range, Finset.sum_add_distrib, ← Finset.mul_sum]
      simp only [Finset.sum_const, Finset.card_range, nsmul_eq_mul]
      show (N * pixelAt y0 k + v * ∑ j ∈ Finset.range N, X (j * y0.size + k) (own g)) / N = _
      field_simp
    constructor
    · rintro ⟨l', t, h1', h⟩
      rw [h1] at h1'
      cases h1'
      refine Set.mem_iInter₂.2 fun k _ => ?_
      have := h k k.2
      rwa [h5 k k.2] at this
    · intro h
      refine ⟨l, s', h1, fun k hk => ?_⟩
      rw [h5 k hk]
      exact Set.mem_iInter₂.1 h ⟨k, hk⟩ (Finset.mem_univ _)
  have hg : Measurable fun g (k : Fin y0.size) (j : ℕ) => X (j * y0.size + k) (own g) :=
    measurable_pi_iff.2 fun k => measurable_pi_iff.2 fun j => hN.measurable _
  have hi : iIndepFun (fun (k : Fin y0.size) (f : Fin y0.size → ℕ → ℝ) => f k) (Measure.infinitePi fun _ => Measure.infinitePi fun _ : ℕ => gaussianReal 0 1) :=
    iIndepFun_infinitePi (P := fun _ : Fin y0.size => Measure.infinitePi fun _ : ℕ => gaussianReal 0 1) (X := fun _ x => x) fun _ => by fun_prop
  rw [e, measureReal_def, ← Measure.map_apply hg (Finset.measurableSet_biInter _ fun k _ => (measurable_pi_apply k) (hB' k)), grouped hN,
    hi.measure_inter_preimage_eq_mul Finset.univ fun k _ => hB' k, ENNReal.toReal_prod, Finset.prod_range]
  refine Finset.prod_congr rfl fun k _ => ?_
  rw [← Measure.map_apply (measurable_pi_apply k) (hB' k), Measure.infinitePi_map_eval (fun _ : Fin y0.size => Measure.infinitePi fun _ : ℕ => gaussianReal 0 1) k]
  have hsum : Measurable fun f : ℕ → ℝ => ∑ j ∈ Finset.range N, f j := by fun_prop
  have hlin : Measurable fun t : ℝ => pixelAt y0 k + v / N * t := by fun_prop
  have hpre : (fun f : ℕ → ℝ => pixelAt y0 k + v / N * ∑ j ∈ Finset.range N, f j) ⁻¹' B k =
      (fun f : ℕ → ℝ => ∑ j ∈ Finset.range N, f j) ⁻¹' ((fun t : ℝ => pixelAt y0 k + v / N * t) ⁻¹' B k) := rfl
  rw [hpre, ← Measure.map_apply hsum (hlin (hB k k.2)), sum_law, ← Measure.map_apply hlin (hB k k.2), measureReal_def]
  congr 2
  have hcomp : (gaussianReal 0 (N : NNReal)).map (fun t : ℝ => pixelAt y0 k + v / N * t) =
      ((gaussianReal 0 (N : NNReal)).map (fun t : ℝ => v / N * t)).map (fun t : ℝ => pixelAt y0 k + t) := by
    rw [Measure.map_map (by fun_prop) (by fun_prop)]
    rfl
  rw [hcomp, gaussianReal_map_const_mul, gaussianReal_map_const_add]
  congr 1
  · ring
  · rw [Real.toNNReal_of_nonneg (div_nonneg (sq_nonneg v) (Nat.cast_nonneg N))]
    refine NNReal.eq ?_
    simp only [NNReal.coe_mul, NNReal.coe_mk, NNReal.coe_natCast]
    field_simp

/-! ### Without further distortions -/

theorem steady_measure (hocc : sim.occ.getD [] = []) (hpot : sim.pot.getD [] = []) {lab : Labelling}
    {rq : Request} {y0 : Scan ℝ} {a : Scan (ℝ × ℝ) × Scan ℕ} {t t' : SimState τ}
    (h : AnySim.measure { sim with resp := some [] } lab rq t = (.ok (y0, a), t')) (own : τ → ω) (s : SimState τ) :
    ∃ s', AnySim.measure { sim with resp := some [] } lab rq s = (.ok (y0, a), s') ∧ own s'.2.gens = own s.2.gens := by
  have hc : (AnySim.call { sim with resp := some [] } lab (.csd rq) t).1 = .ok (.csd (y0, a)) := congrArg Prod.fst (M.step h)
  rw [C95_undistorted { sim with resp := some [] } ⟨hocc, hpot, rfl⟩ lab (.csd rq) t s] at hc
  obtain ⟨out, s', h1, h2⟩ := M.bind_ok.1 (show AnySim.call { sim with resp := some [] } lab (.csd rq) s = (.ok (.csd (y0, a)), _) from Prod.ext hc rfl)
  obtain ⟨h3, -⟩ := Prod.mk.inj h2
  have h3 := Except.ok.inj h3
  cases h3
  refine ⟨s', h1, ?_⟩
  exact measure_own (sim := { sim with resp := some [] }) (by simp [Distinct, hocc, hpot]) (by simp [hocc]) (by simp [hpot]) (by simp) h1

theorem steady_scan (hocc : sim.occ.getD [] = []) (hpot : sim.pot.getD [] = []) {lab : Labelling}
    {rq : ScanRequest} {y0 : Scan ℝ} {a : Scan ℕ × Scan ℕ} {t t' : SimState τ}
    (h : AnySim.measureScan { sim with resp := some [] } lab rq t = (.ok (y0, a), t')) (own : τ → ω) (s : SimState τ) :
    ∃ s', AnySim.measureScan { sim with resp := some [] } lab rq s = (.ok (y0, a), s') ∧ own s'.2.gens = own s.2.gens := by
  have hc : (AnySim.call { sim with resp := some [] } lab (.scan rq) t).1 = .ok (.scan (y0, a)) := congrArg Prod.fst (M.step h)
  rw [C95_undistorted { sim with resp := some [] } ⟨hocc, hpot, rfl⟩ lab (.scan rq) t s] at hc
  obtain ⟨out, s', h1, h2⟩ := M.bind_ok.1 (show AnySim.call { sim with resp := some [] } lab (.scan rq) s = (.ok (.scan (y0, a)), _) from Prod.ext hc rfl)
  obtain ⟨h3, -⟩ := Prod.mk.inj h2
  have h3 := Except.ok.inj h3
  cases h3
  refine ⟨s', h1, ?_⟩
  exact measureScan_own (sim := { sim with resp := some [] }) (by simp [Distinct, hocc, hpot]) (by simp [hpot]) (by simp) h1

/-! ### The streams of the examples -/

theorem stream_goesOn (k : Fin 2) : GoesOn (fun g : Streams => g k) (streamNoise k) fun j f => f j := by
  intro v n g l h hn j
  unfold streamNoise at hn
  split_ifs at hn with h0
  · obtain ⟨-, rfl⟩ := Prod.mk.inj hn
    show Function.update g k (fun m => g k (m + n)) k j = g k (n + j)
    rw [Function.update_self, add_comm]
  · exact nomatch hn

theorem stream_call (lab : Labelling) (s : SimState Streams) : ∃ r s', (streamSim [streamWhite 0 0 1]).call lab (.csd countingRequest) s = (.ok r, s') := by
  obtain ⟨y, a, s', h, -⟩ := stream_pixels lab s s.2.gens
  exact ⟨_, s', M.step h⟩

theorem stream_scan_call (lab : Labelling) (s : SimState Streams) : ∃ r s', (streamScanSim [streamWhite 0 0 1]).call lab (.scan flipRequest) s = (.ok r, s') := by
  obtain ⟨y, a, s', h, -⟩ := stream_scan_pixels lab s s.2.gens
  exact ⟨_, s', M.step h⟩

/-- If a call always succeeds there is a series of such calls. -/
theorem series_exists {c : MeasureCall} {lab : Labelling} (h : ∀ s, ∃ r s', sim.call lab c s = (.ok r, s')) (s : SimState τ) :
    ∃ (st : ℕ → SimState τ) (r : ℕ → MeasureResult), st 0 = s ∧ ∀ j, sim.call lab c (st j) = (.ok (r j), st (j + 1)) := by
  choose r f hf using h
  exact ⟨fun j => f^[j] s, fun j => r (f^[j] s), rfl, fun j => (hf _).trans (by simp only [Function.iterate_succ_apply'])⟩

end SimCATS
