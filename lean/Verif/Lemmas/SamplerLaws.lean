import Verif.Props.Samplers
import Verif.Spec.SamplerLaws
import Mathlib.Probability.Independence.InfinitePi
import Mathlib.Topology.Algebra.InfiniteSum.ENNReal
import Mathlib.Analysis.SpecificLimits.Basic

/-!
Lemmas about the distribution of the values of rejection sampling.
-/

namespace SimCATS

open Spec MeasureTheory ProbabilityTheory

section cylinders

variable {Ω : Type} [MeasurableSpace Ω] {P : Measure Ω} {X : ℕ → Ω → ℝ}

/-- The draws from number `j` on are in the given sets. -/
def drawsIn (X : ℕ → Ω → ℝ) : ℕ → List (Set ℝ) → Set Ω
  | _, [] => Set.univ
  | j, A :: As => X j ⁻¹' A ∩ drawsIn X (j + 1) As

omit [MeasurableSpace Ω] in
theorem drawsIn_append (As Bs : List (Set ℝ)) (j : ℕ) :
    drawsIn X j (As ++ Bs) = drawsIn X j As ∩ drawsIn X (j + As.length) Bs := by
  induction As generalizing j with
  | nil => simp [drawsIn]
  | cons A As ih =>
    simp only [List.cons_append, drawsIn, ih, List.length_cons, Set.inter_assoc]
    rw [show j + 1 + As.length = j + (As.length + 1) by omega]

theorem drawsIn_measurable (hX : ∀ n, Measurable (X n)) {As : List (Set ℝ)} (hA : ∀ A ∈ As, MeasurableSet A) (j : ℕ) :
    MeasurableSet (drawsIn X j As) := by
  induction As generalizing j with
  | nil => exact MeasurableSet.univ
  | cons A As ih =>
    exact ((hX j) (hA A (by simp))).inter (ih (fun B hB => hA B (by simp [hB])) _)

omit [MeasurableSpace Ω] in
theorem drawsIn_eq (As : List (Set ℝ)) (j : ℕ) :
    drawsIn X j As = ⋂ i ∈ Finset.range As.length, X (j + i) ⁻¹' (As.getD i Set.univ) := by
  induction As generalizing j with
  | nil => simp [drawsIn]
  | cons A As ih =>
    ext ω
    simp only [drawsIn, ih, Set.mem_inter_iff, Set.mem_preimage, Set.mem_iInter, Finset.mem_range, List.length_cons]
    constructor
    · rintro ⟨h0, h⟩ i hi
      cases i with
      | zero => simpa using h0
      | succ i =>
        have := h i (by omega)
        rw [show j + 1 + i = j + (i + 1) by omega] at this
        simpa using this
    · intro h
      refine ⟨by simpa using h 0 (by omega), fun i hi => ?_⟩
      have := h (i + 1) (by omega)
      rw [show j + (i + 1) = j + 1 + i by omega] at this
      simpa using this

theorem drawsIn_measure [IsProbabilityMeasure P] (hX : ∀ n, Measurable (X n)) (hi : iIndepFun X P) {μ : Measure ℝ} (hμ : ∀ n, P.map (X n) = μ) {As : List (Set ℝ)}
    (hA : ∀ A ∈ As, MeasurableSet A) : P (drawsIn X 0 As) = (As.map fun A => μ A).prod := by
  have hm : ∀ i, MeasurableSet (As.getD i Set.univ) := by
    intro i
    rw [List.getD_eq_getElem?_getD]
    cases h : As[i]? with
    | none => exact MeasurableSet.univ
    | some A => exact hA _ (List.mem_of_getElem? h)
  rw [drawsIn_eq]
  simp only [Nat.zero_add]
  rw [hi.measure_inter_preimage_eq_mul _ (fun i _ => hm i)]
  have : ∀ i, P (X i ⁻¹' As.getD i Set.univ) = μ (As.getD i Set.univ) := by
    intro i
    rw [← hμ i, Measure.map_apply (hX i) (hm i)]
  simp only [this]
  clear this hm
  induction As with
  | nil => simp
  | cons A As ih =>
    rw [List.length_cons, Finset.prod_range_succ', List.map_cons, List.prod_cons, ← ih (fun B hB => hA B (by simp [hB])), mul_comm]
    simp

/-- From draw number `j` on, the accepted draws (those in `R`) are in the given sets. -/
def acceptedIn (X : ℕ → Ω → ℝ) (R : Set ℝ) : ℕ → List (Set ℝ) → Set Ω
  | _, [] => Set.univ
  | j, B :: Bs => ⋃ g : ℕ, drawsIn X j (List.replicate g Rᶜ ++ [R ∩ B]) ∩ acceptedIn X R (j + g + 1) Bs

omit [MeasurableSpace Ω] in
theorem drawsIn_replicate {R B : Set ℝ} {g j : ℕ} {ω : Ω} :
    ω ∈ drawsIn X j (List.replicate g Rᶜ ++ [R ∩ B]) ↔ (∀ k < g, X (j + k) ω ∉ R) ∧ X (j + g) ω ∈ R ∧ X (j + g) ω ∈ B := by
  induction g generalizing j with
  | zero => simp [drawsIn]
  | succ g ih =>
    rw [List.replicate_succ, List.cons_append, drawsIn, Set.mem_inter_iff, ih, show j + 1 + g = j + (g + 1) by omega]
    constructor
    · rintro ⟨h0, h, h2⟩
      refine ⟨fun k hk => ?_, h2⟩
      cases k with
      | zero => exact h0
      | succ k => have := h k (by omega); rwa [show j + 1 + k = j + (k + 1) by omega] at this
    · rintro ⟨h, h2⟩
      refine ⟨h 0 (by omega), fun k hk => ?_, h2⟩
      have := h (k + 1) (by omega)
      rwa [show j + (k + 1) = j + 1 + k by omega] at this

theorem acceptedIn_measurable (hX : ∀ n, Measurable (X n)) {R : Set ℝ} (hR : MeasurableSet R) {Bs : List (Set ℝ)}
    (hB : ∀ B ∈ Bs, MeasurableSet B) (j : ℕ) : MeasurableSet (acceptedIn X R j Bs) := by
  induction Bs generalizing j with
  | nil => exact MeasurableSet.univ
  | cons B Bs ih =>
    refine MeasurableSet.iUnion fun g => (drawsIn_measurable hX ?_ j).inter (ih (fun C hC => hB C (by simp [hC])) _)
    intro A hA
    rcases List.mem_append.1 hA with h | h
    · rw [(List.mem_replicate.1 h).2]; exact hR.compl
    · rw [List.mem_singleton.1 h]; exact hR.inter (hB B (by simp))

theorem acceptedIn_measure [IsProbabilityMeasure P] (hX : ∀ n, Measurable (X n)) (hi : iIndepFun X P) {μ : Measure ℝ}
    [IsProbabilityMeasure μ] (hμ : ∀ n, P.map (X n) = μ) {R : Set ℝ} (hR : MeasurableSet R) (h0 : μ R ≠ 0) {Bs : List (Set ℝ)}
    (hB : ∀ B ∈ Bs, MeasurableSet B) (As : List (Set ℝ)) (hA : ∀ A ∈ As, MeasurableSet A) :
    P (drawsIn X 0 As ∩ acceptedIn X R As.length Bs) = (As.map fun A => μ A).prod * (Bs.map fun B => μ[|R] B).prod := by
  induction Bs generalizing As with
  | nil => simp [acceptedIn, drawsIn_measure hX hi hμ hA]
  | cons B Bs ih =>
    have hB' : ∀ C ∈ Bs, MeasurableSet C := fun C hC => hB C (by simp [hC])
    have hL : ∀ g, ∀ A ∈ As ++ (List.replicate g Rᶜ ++ [R ∩ B]), MeasurableSet A := by
      intro g A h
      rcases List.mem_append.1 h with h | h
      · exact hA A h
      rcases List.mem_append.1 h with h | h
      · rw [(List.mem_replicate.1 h).2]; exact hR.compl
      · rw [List.mem_singleton.1 h]; exact hR.inter (hB B (by simp))
    have hset : ∀ g, drawsIn X 0 As ∩ (drawsIn X As.length (List.replicate g Rᶜ ++ [R ∩ B]) ∩ acceptedIn X R (As.length + g + 1) Bs) =
        drawsIn X 0 (As ++ (List.replicate g Rᶜ ++ [R ∩ B])) ∩ acceptedIn X R (As ++ (List.replicate g Rᶜ ++ [R ∩ B])).length Bs := by
      intro g
      rw [drawsIn_append As, Nat.zero_add, Set.inter_assoc]
      congr 3
      simp; omega
    rw [acceptedIn, Set.inter_iUnion, measure_iUnion]
    · have hterm : ∀ g, P (drawsIn X 0 As ∩ (drawsIn X As.length (List.replicate g Rᶜ ++ [R ∩ B]) ∩ acceptedIn X R (As.length + g + 1) Bs)) =
          μ Rᶜ ^ g * ((As.map fun A => μ A).prod * μ (R ∩ B) * (Bs.map fun B => μ[|R] B).prod) := by
        intro g
        rw [hset, ih hB' _ (hL g)]
        simp only [List.map_append, List.map_replicate, List.map_cons, List.map_nil, List.prod_append, List.prod_replicate,
          List.prod_cons, List.prod_nil, mul_one]
        ring
      simp only [hterm]
      rw [ENNReal.tsum_mul_right, ENNReal.tsum_geometric, prob_compl_eq_one_sub hR, ENNReal.sub_sub_cancel ENNReal.one_ne_top prob_le_one,
        List.map_cons, List.prod_cons, cond_apply hR]
      ring
    · intro g g' hg
      rw [Function.onFun, Set.disjoint_left]
      intro ω h h'
      obtain ⟨a1, a2, -⟩ := drawsIn_replicate.1 h.2.1
      obtain ⟨b1, b2, -⟩ := drawsIn_replicate.1 h'.2.1
      rcases lt_or_gt_of_ne hg with h | h
      · exact b1 g h a2
      · exact a1 g' h b2
    · intro g
      rw [hset]
      exact (drawsIn_measurable hX (hL g) 0).inter (acceptedIn_measurable hX hR hB' _)

end cylinders

section samplers

variable {τ : Type}

/-- The state of the generator after `n` draws. -/
def afterDraws (draw : M τ ℝ) : ℕ → τ → τ
  | 0, s => s
  | n + 1, s => afterDraws draw n (draw s).2

theorem nthDraw_after (draw : M τ ℝ) (n j : ℕ) (s : τ) : nthDraw draw n (afterDraws draw j s) = nthDraw draw (j + n) s := by
  induction j generalizing s with
  | zero => rw [Nat.zero_add]; rfl
  | succ j ih => rw [afterDraws, ih, show j + 1 + n = j + n + 1 by omega]; rfl

theorem nthDraw_state (draw : M τ ℝ) (n : ℕ) (s : τ) : (nthDraw draw n s).2 = afterDraws draw (n + 1) s := by
  induction n generalizing s with
  | zero => rfl
  | succ n ih => rw [nthDraw, ih]; rfl

theorem after_after (draw : M τ ℝ) (n j : ℕ) (s : τ) : afterDraws draw n (afterDraws draw j s) = afterDraws draw (j + n) s := by
  induction j generalizing s with
  | zero => rw [Nat.zero_add]; rfl
  | succ j ih => rw [afterDraws, ih, show j + 1 + n = j + n + 1 by omega]; rfl

theorem samples_iff (d : Sampler τ) (X : ℕ → τ → ℝ) (hX : ∀ n s, (nthDraw d.draw n s).1 = .ok (X n s)) (R : Set ℝ)
    (hR : ∀ v, d.accept v ↔ v ∈ R) (Bs : List (Set ℝ)) (s : τ) (j : ℕ) (o : Option ℝ) :
    (∃ vs, Samples d (o, afterDraws d.draw j s) vs ∧ List.Forall₂ (fun v B => v ∈ B) vs Bs) ↔ s ∈ acceptedIn X R j Bs := by
  have hval : ∀ n v t, nthDraw d.draw n (afterDraws d.draw j s) = (.ok v, t) ↔ v = X (j + n) s ∧ t = afterDraws d.draw (j + n + 1) s := by
    intro n v t
    rw [nthDraw_after]
    have h1 := hX (j + n) s
    have h2 := nthDraw_state d.draw (j + n) s
    constructor
    · intro h
      rw [h] at h1 h2
      cases h1
      exact ⟨rfl, h2⟩
    · rintro ⟨rfl, rfl⟩
      exact Prod.ext h1 h2
  induction Bs generalizing j o with
  | nil =>
    constructor
    · intro _; exact Set.mem_univ s
    · intro _; exact ⟨[], .nil, .nil⟩
  | cons B Bs ih =>
    have ih' := fun j o => ih j o (by
      intro n v t
      rw [nthDraw_after]
      have h1 := hX (j + n) s
      have h2 := nthDraw_state d.draw (j + n) s
      constructor
      · intro h
        rw [h] at h1 h2
        cases h1
        exact ⟨rfl, h2⟩
      · rintro ⟨rfl, rfl⟩
        exact Prod.ext h1 h2)
    rw [acceptedIn, Set.mem_iUnion]
    constructor
    · rintro ⟨vs, hs, hf⟩
      cases hf with
      | @cons v _ vs _ hv hf =>
        cases hs with
        | @cons _ _ s' _ hc hs =>
          obtain ⟨o', t'⟩ := s'
          obtain ⟨rfl, n, h1, h2, h3⟩ := (C38_first d _ _ _ _ _).1 hc
          obtain ⟨rfl, rfl⟩ := (hval n v t').1 h1
          refine ⟨n, drawsIn_replicate.2 ⟨fun k hk => ?_, (hR _).1 h2, hv⟩, (ih' _ _).1 ⟨vs, hs, hf⟩⟩
          obtain ⟨w, t, h4, h5⟩ := h3 k hk
          obtain ⟨rfl, rfl⟩ := (hval k w t).1 h4
          exact fun h => h5 ((hR _).2 h)
    · rintro ⟨g, h1, h2⟩
      obtain ⟨a1, a2, a3⟩ := drawsIn_replicate.1 h1
      obtain ⟨vs, hs, hf⟩ := (ih' _ (some (X (j + g) s))).2 h2
      refine ⟨X (j + g) s :: vs, .cons ((C38_first d _ _ _ _ _).2 ⟨rfl, g, (hval g _ _).2 ⟨rfl, rfl⟩, (hR _).2 a2, fun k hk => ?_⟩) hs,
        .cons a3 hf⟩
      exact ⟨_, _, (hval k _ _).2 ⟨rfl, rfl⟩, fun h => a1 k hk ((hR _).1 h)⟩

/-- Rejection sampling: the accepted values are independent and have the distribution of the draws, restricted to the accepted values. -/
theorem samplesFrom_cond [MeasurableSpace τ] {P : Measure τ} [IsProbabilityMeasure P] {d : Sampler τ} {μ : Measure ℝ} [IsProbabilityMeasure μ]
    (hd : DrawsFrom P d.draw μ) {R : Set ℝ} (hR : MeasurableSet R) (h0 : μ R ≠ 0) (ha : ∀ v, d.accept v ↔ v ∈ R) :
    SamplesFrom P d (μ[|R]) := by
  obtain ⟨X, h1, h2, h3, h4⟩ := hd
  intro o Bs hB
  have he : FirstSamples d o Bs = drawsIn X 0 [] ∩ acceptedIn X R ([] : List (Set ℝ)).length Bs := by
    ext s
    rw [drawsIn, Set.univ_inter]
    exact samples_iff d X h1 R ha Bs s 0 o
  rw [he, acceptedIn_measure h2 h3 h4 hR h0 hB [] (by simp)]
  simp

end samplers

/-! ### Ranges -/

theorem narrow_lt {τ : Type} {rng : DrawRng τ} {total : ℝ × ℝ} {width : Option ℝ} (ht : total.1 < total.2) (hw : ∀ w ∈ width, 0 < w)
    {s s' : τ} {r : ℝ × ℝ} (h : narrow rng total width s = (.ok r, s')) : r.1 < r.2 := by
  cases width with
  | none => cases h; exact ht
  | some w =>
    have hw0 := hw w rfl
    unfold narrow at h
    simp only at h
    split_ifs at h with hc
    · cases h; exact ht
    · obtain ⟨c, t, hu, h⟩ := M.bind_ok.mp h
      cases h
      simp only
      linarith

theorem narrowExp_ne {τ : Type} {rng : DrawRng τ} {total : ℝ × ℝ} {width : Option ℝ} (ht : total.1 ≠ total.2) (hw : ∀ w ∈ width, 0 < w)
    {s s' : τ} {r : ℝ × ℝ} (h : narrowExp rng total width s = (.ok r, s')) : r.1 ≠ r.2 := by
  cases width with
  | none => cases h; exact ht
  | some w =>
    have hw0 := hw w rfl
    unfold narrowExp at h
    simp only at h
    split_ifs at h with hc
    · cases h; exact ht
    · obtain ⟨c, t, hu, h⟩ := M.bind_ok.mp h
      cases h
      simp only
      intro h
      linarith
    · obtain ⟨c, t, hu, h⟩ := M.bind_ok.mp h
      · cases h
        simp only
        intro h
        linarith

/-! ### Distributions -/

theorem gaussian_interval (m std : ℝ) (hs : 0 < std) {a b : ℝ} (hab : a < b) :
    gaussianReal m (std ^ 2).toNNReal (Set.Icc a b) ≠ 0 := by
  intro h
  have hv : (std ^ 2).toNNReal ≠ 0 := by
    rw [ne_eq, Real.toNNReal_eq_zero]
    exact not_le.2 (by positivity)
  have := gaussianReal_absolutelyContinuous' m hv h
  rw [Real.volume_Icc, ENNReal.ofReal_eq_zero] at this
  linarith

theorem exp_interval {r : ℝ} (hr : 0 < r) {x : ℝ} (hx : 0 ≤ x) : expMeasure r (Set.Icc 0 x) = ENNReal.ofReal (1 - Real.exp (-(r * x))) := by
  have := isProbabilityMeasure_expMeasure hr
  have h1 : expMeasure r (Set.Iic x) = ENNReal.ofReal (1 - Real.exp (-(r * x))) := by
    rw [← ofReal_cdf, cdf_expMeasure_eq hr, if_pos hx]
  have h0 : expMeasure r (Set.Iio 0) = 0 := by
    refine measure_mono_null Set.Iio_subset_Iic_self ?_
    rw [← ofReal_cdf, cdf_expMeasure_eq hr, if_pos le_rfl]
    simp
  rw [← h1]
  refine le_antisymm (measure_mono Set.Icc_subset_Iic_self) ?_
  calc expMeasure r (Set.Iic x) ≤ expMeasure r (Set.Icc 0 x ∪ Set.Iio 0) := by
        refine measure_mono fun y hy => ?_
        rcases lt_or_ge y 0 with h | h
        · exact Or.inr h
        · exact Or.inl ⟨h, hy⟩
    _ ≤ expMeasure r (Set.Icc 0 x) + expMeasure r (Set.Iio 0) := measure_union_le _ _
    _ = expMeasure r (Set.Icc 0 x) := by rw [h0, add_zero]

/-- A function of independent draws. -/
theorem draws_map {τ : Type} [MeasurableSpace τ] {P : Measure τ} {draw : M τ ℝ} {μ : Measure ℝ} (h : DrawsFrom P draw μ) {f : ℝ → ℝ}
    (hf : Measurable f) : DrawsFrom P (do let e ← draw; pure (f e)) (μ.map f) := by
  obtain ⟨X, h1, h2, h3, h4⟩ := h
  have hs : ∀ s, (draw >>= fun e => (pure (f e) : M τ ℝ)) s = (.ok (f (X 0 s)), (draw s).2) := by
    intro s
    have h0 : (draw s).1 = .ok (X 0 s) := h1 0 s
    exact M.bind_ok.2 ⟨X 0 s, (draw s).2, Prod.ext h0 rfl, rfl⟩
  refine ⟨fun n s => f (X n s), fun n s => ?_, fun n => hf.comp (h2 n), h3.comp (fun _ => f) fun _ => hf, fun n => ?_⟩
  · have key : ∀ n s, nthDraw (draw >>= fun e => (pure (f e) : M τ ℝ)) n s = (.ok (f (X 0 (afterDraws draw n s))), afterDraws draw (n + 1) s) := by
      intro n
      induction n with
      | zero => exact hs
      | succ n ih =>
        intro s
        rw [nthDraw, hs]
        exact ih _
    have h0 : (nthDraw draw 0 (afterDraws draw n s)).1 = .ok (X 0 (afterDraws draw n s)) := h1 0 _
    rw [nthDraw_after, Nat.add_zero, h1 n s] at h0
    have h5 := key n s
    rw [← Except.ok.inj h0] at h5
    exact congrArg Prod.fst h5
  · rw [← h4 n, Measure.map_map hf (h2 n)]
    rfl

theorem uIcc_preimage {a b : ℝ} (h : a ≠ b) : (fun e : ℝ => a + e * (b - a)) ⁻¹' Set.uIcc a b = Set.Icc 0 1 := by
  ext e
  simp only [Set.mem_preimage, Set.mem_Icc]
  rcases lt_or_gt_of_ne h with h | h
  · rw [Set.uIcc_of_le h.le, Set.mem_Icc]
    have : 0 < b - a := by linarith
    constructor
    · rintro ⟨h1, h2⟩; exact ⟨by nlinarith, by nlinarith⟩
    · rintro ⟨h1, h2⟩; exact ⟨by nlinarith, by nlinarith⟩
  · rw [Set.uIcc_of_ge h.le, Set.mem_Icc]
    have : 0 < a - b := by linarith
    constructor
    · rintro ⟨h1, h2⟩; exact ⟨by nlinarith, by nlinarith⟩
    · rintro ⟨h1, h2⟩; exact ⟨by nlinarith, by nlinarith⟩

theorem near_preimage {a b q : ℝ} (h : a ≠ b) : (fun e : ℝ => a + e * (b - a)) ⁻¹' {v | |v - a| ≤ q * |b - a|} = Set.Icc (-q) q := by
  ext e
  simp only [Set.mem_preimage, Set.mem_Icc, Set.mem_setOf_eq]
  rw [show a + e * (b - a) - a = e * (b - a) by ring, abs_mul, mul_le_mul_iff_left₀ (abs_pos.2 (sub_ne_zero.2 h.symm)), abs_le]

/-! ### A generator with these distributions -/

/-- The distributions used by the samplers. -/
inductive DrawKind
  | uniform (a b : ℝ)
  | normal (m std : ℝ)
  | lognormal (m std : ℝ)
  | exponential (scale : ℝ)

open Classical in
/-- The distribution of a draw. -/
noncomputable def DrawKind.law : DrawKind → Measure ℝ
  | .uniform a b => if a < b then volume[|Set.Icc a b] else Measure.dirac a
  | .normal m std => gaussianReal m (std ^ 2).toNNReal
  | .lognormal m std => (gaussianReal m (std ^ 2).toNNReal).map Real.exp
  | .exponential scale => if 0 < scale then expMeasure (1 / scale) else Measure.dirac 0

instance (k : DrawKind) : IsProbabilityMeasure k.law := by
  cases k with
  | uniform a b =>
    dsimp only [DrawKind.law]
    split_ifs with h
    · refine cond_isProbabilityMeasure_of_finite ?_ ?_
      · rw [Real.volume_Icc, ne_eq, ENNReal.ofReal_eq_zero]; linarith
      · rw [Real.volume_Icc]; exact ENNReal.ofReal_ne_top
    · infer_instance
  | normal m std => dsimp only [DrawKind.law]; infer_instance
  | lognormal m std =>
    unfold DrawKind.law
    exact Measure.isProbabilityMeasure_map Real.measurable_exp.aemeasurable
  | exponential scale =>
    dsimp only [DrawKind.law]
    split_ifs with h
    · exact isProbabilityMeasure_expMeasure (by positivity)
    · infer_instance

/-- The next value of a stream with a value of every distribution. -/
def nextValue (k : DrawKind) : M (ℕ → DrawKind → ℝ) ℝ := fun s => (.ok (s 0 k), fun n => s (n + 1))

/-- A generator that reads its values from a stream. -/
def streamRng : DrawRng (ℕ → DrawKind → ℝ) where
  uniform a b := nextValue (.uniform a b)
  normal m std := nextValue (.normal m std)
  lognormal m std := nextValue (.lognormal m std)
  exponential scale := nextValue (.exponential scale)

/-- The streams of independent values. -/
noncomputable def streamLaw : Measure (ℕ → DrawKind → ℝ) := Measure.infinitePi fun _ => Measure.infinitePi DrawKind.law

instance : IsProbabilityMeasure streamLaw := by unfold streamLaw; infer_instance

theorem nextValue_nth (k : DrawKind) (n : ℕ) (s : ℕ → DrawKind → ℝ) : (nthDraw (nextValue k) n s).1 = .ok (s n k) := by
  induction n generalizing s with
  | zero => rfl
  | succ n ih => exact ih _

theorem nextValue_draws (k : DrawKind) : DrawsFrom streamLaw (nextValue k) k.law := by
  refine ⟨fun n s => s n k, nextValue_nth k, fun n => by fun_prop, ?_, fun n => ?_⟩
  · exact iIndepFun_infinitePi (P := fun _ : ℕ => Measure.infinitePi DrawKind.law) (X := fun _ f => f k) fun _ => by fun_prop
  · have h1 : streamLaw.map (fun s => s n) = Measure.infinitePi DrawKind.law := Measure.infinitePi_map_eval _ n
    have h2 : (Measure.infinitePi DrawKind.law).map (fun f => f k) = k.law := Measure.infinitePi_map_eval _ k
    rw [← h2, ← h1, Measure.map_map (by fun_prop) (by fun_prop)]
    rfl

theorem streamRng_laws : NumpyLaws streamLaw streamRng where
  uniform a b h := by
    have := nextValue_draws (.uniform a b)
    rwa [DrawKind.law, if_pos h] at this
  normal m std _ := nextValue_draws (.normal m std)
  lognormal m std _ := nextValue_draws (.lognormal m std)
  exponential scale h := by
    have := nextValue_draws (.exponential scale)
    rwa [DrawKind.law, if_pos h] at this

end SimCATS
