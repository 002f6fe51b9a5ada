import Verif.Lemmas.AddTcts

/-! What the test measurement of the configuration sampler says about other measurements. -/

namespace SimCATS

open Spec

variable {p : TctParams} {v : ℝ × ℝ}

/-- If the test measurement fails, the last transition comes close to the test image. -/
theorem test_fails (h : SampledFirst p v) (lab : Labelling) {k : ℕ} {e : PyErr}
    (he : ideal2d (sampledIdeal (ladder p v (k + 1))) lab testLim testLim 10 10 = .error e) :
    ∃ x, ladderCurve p v k x ≤ -0.07379 - |x| := by
  by_contra hcon
  push Not at hcon
  obtain ⟨curves, hc⟩ := ladder_curves h (k + 1)
  obtain ⟨pre, f, hcv, hf⟩ := ladder_last h hc
  have hb : ∀ x, -0.0738 - |x| < f x := by
    intro x
    have h1 := hcon x
    have h2 := (abs_le.1 (hf x)).1
    norm_num at h1 h2 ⊢
    linarith
  obtain ⟨k1, k2⟩ := kap_bounds
  norm_num at k1 k2
  have : ∃ o, ideal2d (sampledIdeal (ladder p v (k + 1))) lab testLim testLim 10 10 = .ok o := by
    refine ideal2d_below (h.cfgOk (k + 1)) hcv hc lab (by norm_num) (by norm_num) (by norm_num) (by norm_num) ?_ ?_
    · intro x hx
      rw [testLim_sort, rotate_sampled] at hx
      obtain ⟨-, h1, -, h2⟩ := hx
      have h3 := hb x
      unfold pixStep at h1 h2
      norm_num [testLim] at h1 h2 h3
      rcases abs_cases x with ⟨e, hs⟩ | ⟨e, hs⟩ <;> rw [e] at h3 <;> nlinarith
    · intro P a1 a2 b1 b2
      rw [testLim_sort] at a1 a2 b1 b2
      rw [tctCoord_sampled]
      refine lt_of_le_of_lt ?_ (hb _)
      norm_num [testLim] at a1 a2 b1 b2 ⊢
      rcases abs_cases (kap * P.1 - kap * P.2) with ⟨e, hs⟩ | ⟨e, hs⟩ <;> rw [e] <;> nlinarith
  obtain ⟨o, ho⟩ := this
  rw [ho] at he
  cases he

/-- The vertical distance of successive transitions is bounded. -/
theorem ladderCurve_succ_le (h : SampledFirst p v) (k : ℕ) (x : ℝ) (hx' : -0.016 ≤ x) :
    ladderCurve p v (k + 1) x ≤ ladderCurve p v k x + 0.0752 + x := by
  rw [ladderCurve_eq h, ladderCurve_eq h]
  push_cast
  obtain ⟨i1, i2, i3, i4⟩ := h.interdot_bounds
  have hl := h.lenR
  have hl' := h.lenL.1
  have e1 : v.1 = (interdot p v).1 - p.lenR := by simp [interdot]
  have e2 : v.2 = (interdot p v).2 - p.lenR * p.gradR := by simp [interdot]
  generalize interdot p v = i at *
  have hv : v.1 ≤ 0 := by have := hl.1; norm_num at this i4; linarith
  have h1 := exactCurve_succ_le h.center h.grad h.per k (x - (k + 1) * v.1)
  have h2 := (exactCurve_slopes h.center h.grad h.per k).ge (x := x - k * v.1) (y := x - (k + 1) * v.1) (by linarith)
  have h3 : p.gradL * (x - (k + 1) * v.1 - (x - k * v.1)) = p.gradL * (p.lenR - i.1) := by rw [e1]; ring
  rw [h3] at h2
  have hsL := h.slopeL
  have hsR := h.slopeR
  have hx0 := h.origin.1
  have hch := h.chord.1
  norm_num at hl hl' hsL hsR i3 i4 hx' ⊢
  have hi : 0 ≤ i.1 + p.lenL := by linarith
  have hk : (0 : ℝ) ≤ k * (i.1 + p.lenL) := by positivity
  have h5 : max 0 (x - (k + 1) * v.1 - waveEnd p (k + 1)) ≤ max 0 (x + 0.035) := by
    apply max_le_max le_rfl
    unfold waveEnd
    push_cast
    rw [e1]
    norm_num
    nlinarith
  have h6 : max 0 (x + 0.035) = x + 0.035 := max_eq_right (by norm_num; linarith)
  rw [h6] at h5
  have h7 : (p.gradL - p.gradR) * max 0 (x - (k + 1) * v.1 - waveEnd p (k + 1)) ≤ 0.987 * (x + 0.035) := by
    apply mul_le_mul _ h5 (le_max_left _ _) (by norm_num)
    norm_num
    linarith
  have h8 : p.gradL * (p.lenR - i.1) ≤ 0.54688 * 0.03487 := by
    apply mul_le_mul <;> norm_num <;> linarith
  have h9 : -(p.lenR * p.gradR) ≤ 0.025 * 0.44 := by
    rw [← mul_neg]
    apply mul_le_mul <;> norm_num <;> linarith
  norm_num at h7 h8 h9
  linarith

/-- The values at which transitions are sampled for an image of the full range. -/
theorem sampleXs_full (ps : List TctParams) {n : ℕ} (m : Fin ((n + n) * 4)) :
    sampleXs (sampledIdeal ps).rotation testLim testLim n n m =
      linAt (-(0.14 * kap + 0.14 / ((n : ℝ) - 1))) (0.14 * kap + 0.14 / ((n : ℝ) - 1)) ((n + n) * 4) m := by
  have hk := kap_bounds.1
  norm_num at hk
  have e : -(sampledIdeal ps).rotation = Real.pi / 4 := by simp only [sampledIdeal]; ring
  have hmin : listMin (cornersX (sampledIdeal ps).rotation testLim testLim) = -(0.14 * kap) := by
    simp only [listMin, cornersX, List.map_cons, List.map_nil, List.foldl_cons, List.foldl_nil, e, rotate_pos]
    norm_num
    rw [min_eq_right (by linarith : -(kap * (1 / 5)) + kap * (3 / 50) ≤ 0), min_eq_left (by linarith)]
    ring
  have hmax : listMax (cornersX (sampledIdeal ps).rotation testLim testLim) = 0.14 * kap := by
    simp only [listMax, cornersX, List.map_cons, List.map_nil, List.foldl_cons, List.foldl_nil, e, rotate_pos]
    norm_num
    rw [max_eq_left (by linarith : -(kap * (1 / 5)) + kap * (3 / 50) ≤ 0), max_eq_right (by linarith)]
    ring
  unfold sampleXs linspace
  rw [hmin, hmax]
  unfold pixStep
  congr 1 <;> norm_num
  ring

theorem linAt_near {a x : ℝ} {n : ℕ} (hn : 2 ≤ n) (ha : 0 < a) (h1 : -a ≤ x) (h2 : x ≤ a) :
    ∃ m : Fin n, |x - linAt (-a) a n m| ≤ a / ((n : ℝ) - 1) := by
  have hn' : (0 : ℝ) < (n : ℝ) - 1 := by
    have : (2 : ℝ) ≤ n := by exact_mod_cast hn
    linarith
  set t := (x + a) * ((n : ℝ) - 1) / (2 * a) with ht
  have ht0 : 0 ≤ t := by rw [ht]; apply div_nonneg <;> nlinarith
  have ht1 : t ≤ (n : ℝ) - 1 := by
    rw [ht, div_le_iff₀ (by linarith)]
    nlinarith
  have hr := abs_sub_round t
  have hr0 : 0 ≤ round t := by
    rw [round_eq]
    apply Int.floor_nonneg.2
    linarith
  obtain ⟨m, hm⟩ := Int.eq_ofNat_of_zero_le hr0
  have hm1 : m < n := by
    have : round t < n := by
      have h3 : (round t : ℝ) ≤ t + 1 / 2 := by linarith [(abs_le.1 hr).1]
      have h4 : (round t : ℝ) < (n : ℝ) := by linarith
      exact_mod_cast h4
    rw [hm] at this
    exact_mod_cast this
  refine ⟨⟨m, hm1⟩, ?_⟩
  have hmt : |t - m| ≤ 1 / 2 := by
    rw [hm] at hr
    simpa using hr
  have ex : x = -a + t * (2 * a) / ((n : ℝ) - 1) := by
    rw [ht]
    field_simp
    ring
  have : x - linAt (-a) a n m = (t - m) * (2 * a) / ((n : ℝ) - 1) := by
    unfold linAt
    rw [ex]
    field_simp
    ring
  simp only
  rw [this, abs_div, abs_mul, abs_of_pos hn', abs_of_pos (by linarith : (0 : ℝ) < 2 * a)]
  apply div_le_div_of_nonneg_right _ hn'.le
  nlinarith

/-- An image of 2 x 2 pixels of the full range reaches the last transition. -/
theorem coarse_fails (h : SampledFirst p v) (lab lab' : Labelling) {k : ℕ} (hk : k = 0 ∨ ∃ j, k = j + 1 ∧
      ∃ e, ideal2d (sampledIdeal (ladder p v (j + 1))) lab testLim testLim 10 10 = .error e) :
    ideal2d (sampledIdeal (ladder p v (k + 1))) lab' testLim testLim 2 2 = .error .indexError := by
  obtain ⟨curves, hc⟩ := ladder_curves h (k + 1)
  obtain ⟨pre, f, hcv, hf⟩ := ladder_last h hc
  obtain ⟨k1, k2⟩ := kap_bounds
  norm_num at k1 k2
  refine ideal2d_touch (h.cfgOk (k + 1)) hcv hc lab' (by norm_num) (by norm_num) (by norm_num) (by norm_num)
    (⟨7, by norm_num⟩ : Fin ((2 + 2) * 4)) ?_
  rw [testLim_sort, sampleXs_full]
  have ex : linAt (-(0.14 * kap + 0.14 / (((2 : ℕ) : ℝ) - 1))) (0.14 * kap + 0.14 / (((2 : ℕ) : ℝ) - 1)) ((2 + 2) * 4)
      ((⟨7, by norm_num⟩ : Fin ((2 + 2) * 4)) : ℕ) = -((0.14 * kap + 0.14) / 15) := by
    unfold linAt
    norm_num
    ring
  rw [ex]
  generalize hx : -((0.14 * kap + 0.14) / 15) = x
  have x1 : -0.01594 ≤ x := by rw [← hx]; norm_num; linarith
  have x2 : x ≤ -0.0159 := by rw [← hx]; norm_num; linarith
  norm_num at x1 x2
  have hL : ladderCurve p v k x ≤ -0.002 := by
    rcases hk with rfl | ⟨j, rfl, e, he⟩
    · have h1 := ladderCurve_lipschitz h 0 0 x
      rw [ladderCurve_zero h, sub_zero, abs_of_nonpos (by linarith : x ≤ 0), abs_le] at h1
      have h2 := h.y0_bounds.2
      have h3 := h1.2
      norm_num at h2 h3 ⊢
      linarith
    · obtain ⟨z, hz⟩ := test_fails h lab he
      have h1 := ladderCurve_succ_le h j x (by norm_num; linarith)
      have h2 := (abs_le.1 (ladderCurve_lipschitz h j z x)).2
      norm_num at h1 h2 hz ⊢
      have h3 : |x - z| ≤ |x| + |z| := abs_sub _ _
      rw [abs_of_nonpos (by linarith : x ≤ 0)] at h3
      have := abs_nonneg z
      linarith
  have hG := ladderCurve_ge h k x
  rw [abs_of_nonpos (by linarith)] at hG
  obtain ⟨f1, f2⟩ := abs_le.1 (hf x)
  have hk0 : (0 : ℝ) ≤ k := Nat.cast_nonneg _
  norm_num at hL hG f1 f2
  unfold inImage pixStep
  rw [rotate_sampled]
  norm_num [testLim]
  refine ⟨?_, ?_, ?_, ?_⟩ <;> nlinarith

/-- The scanned voltages are in the range of the sampler. -/
def InLimits (g : ℝ × ℝ) : Prop := (-0.2 ≤ g.1 ∧ g.1 ≤ -0.06) ∧ -0.2 ≤ g.2 ∧ g.2 ≤ -0.06

theorem InLimits.sort {g : ℝ × ℝ} (h : InLimits g) : -0.2 ≤ (sortLim g).1 ∧ (sortLim g).2 ≤ -0.06 :=
  ⟨le_min h.1.1 h.2.1, max_le h.1.2 h.2.2⟩

/-- After a successful test, the last transition stays away from the voltage range. -/
theorem test_far (h : SampledFirst p v) (lab : Labelling) {k : ℕ} {o}
    (ho : ideal2d (sampledIdeal (ladder p v (k + 1))) lab testLim testLim 10 10 = .ok o) {curves pre : List (ℝ → ℝ)} {f : ℝ → ℝ}
    (hcv : curves = pre ++ [f]) (hc : IsCurves (some 1000) 1 (ladder p v (k + 1)) curves)
    (hf : ∀ x, |f x - ladderCurve p v k x| ≤ 0.000003) (x : ℝ) (h1 : -0.20584 ≤ kap * (f x - |x|)) (h2 : kap * (f x + |x|) ≤ -0.05416) :
    False := by
  obtain ⟨k1, k2⟩ := kap_bounds
  norm_num at k1 k2 h1 h2
  have hx : |x| ≤ 0.1073 := by
    norm_num
    by_contra hn
    rw [not_le] at hn
    nlinarith
  set a : ℝ := 0.14 * kap + 0.14 / (((10 : ℕ) : ℝ) - 1) with ha
  have ha1 : 0.1145 ≤ a := by rw [ha]; norm_num; linarith
  have ha2 : a ≤ 0.11456 := by rw [ha]; norm_num; linarith
  norm_num at ha1 ha2 hx
  obtain ⟨hx1, hx2⟩ := abs_le.1 hx
  obtain ⟨m, hm⟩ := linAt_near (n := (10 + 10) * 4) (a := a) (x := x) (by norm_num) (by linarith) (by linarith) (by linarith)
  have hm' : |x - linAt (-a) a ((10 + 10) * 4) m| ≤ 0.001451 := by
    refine hm.trans ?_
    norm_num
    linarith
  have he := ideal2d_touch (h.cfgOk (k + 1)) hcv hc lab (g1 := testLim) (g2 := testLim) (by norm_num) (by norm_num)
    (r := 10) (c := 10) (by norm_num) (by norm_num) m ?_
  · rw [ho] at he; cases he
  · rw [testLim_sort, sampleXs_full, ← ha]
    generalize linAt (-a) a ((10 + 10) * 4) m = z at hm'
    have hl := ladderCurve_lipschitz h k z x
    obtain ⟨l1, l2⟩ := abs_le.1 hl
    obtain ⟨a1, a2⟩ := abs_le.1 (hf x)
    obtain ⟨b1, b2⟩ := abs_le.1 (hf z)
    obtain ⟨m1, m2⟩ := abs_le.1 hm'
    norm_num at l1 l2 a1 a2 b1 b2 m1 m2 hm'
    have d1 : f z ≤ f x + 0.0008 := by norm_num; linarith
    have d2 : f x - 0.0008 ≤ f z := by norm_num; linarith
    unfold inImage pixStep
    rw [rotate_sampled]
    norm_num [testLim] at d1 d2 ⊢
    rcases abs_cases x with ⟨e, hs⟩ | ⟨e, hs⟩ <;> rw [e] at h1 h2 <;> refine ⟨?_, ?_, ?_, ?_⟩ <;> nlinarith

/-- After a successful test, the voltage range is below the last transition. -/
theorem test_above (h : SampledFirst p v) (lab : Labelling) {k : ℕ} {o}
    (ho : ideal2d (sampledIdeal (ladder p v (k + 1))) lab testLim testLim 10 10 = .ok o) {curves pre : List (ℝ → ℝ)} {f : ℝ → ℝ}
    (hcv : curves = pre ++ [f]) (hc : IsCurves (some 1000) 1 (ladder p v (k + 1)) curves)
    (hf : ∀ x, |f x - ladderCurve p v k x| ≤ 0.000003) (x y : ℝ) (h1 : -0.2 ≤ kap * (y - |x|)) (h2 : kap * (y + |x|) ≤ -0.06) :
    y < f x := by
  obtain ⟨k1, k2⟩ := kap_bounds
  norm_num at k1 k2 h1 h2
  by_contra hn
  rw [not_lt] at hn
  set g : ℝ → ℝ := fun t => kap * (ladderCurve p v k t + |t|) with hg
  have hcont : Continuous g := by
    have : Continuous (ladderCurve p v k) := by
      have hlip : LipschitzWith 1 (ladderCurve p v k) := by
        apply LipschitzWith.of_dist_le_mul
        intro s t
        rw [Real.dist_eq, Real.dist_eq]
        refine (ladderCurve_lipschitz h k t s).trans ?_
        have := abs_nonneg (s - t)
        norm_num
        linarith
      exact hlip.continuous
    rw [hg]
    fun_prop
  have hx : kap * |x| ≤ 0.07 := by norm_num; linarith
  have hg0 : -0.05417 ≤ g 0 := by
    by_contra hlt
    rw [not_le] at hlt
    obtain ⟨a1, a2⟩ := abs_le.1 (hf 0)
    have h3 := ladderCurve_ge h k 0
    have hk0 : (0 : ℝ) ≤ k := Nat.cast_nonneg _
    simp only [hg, abs_zero, add_zero, mul_zero, sub_zero] at hlt h3
    norm_num at hlt a1 a2 h3
    refine test_far h lab ho hcv hc hf 0 ?_ ?_ <;> rw [abs_zero] <;> norm_num <;> nlinarith
  have hgx : g x ≤ -0.05999 := by
    obtain ⟨a1, a2⟩ := abs_le.1 (hf x)
    simp only [hg]
    norm_num at a1 a2 ⊢
    nlinarith
  have hmem : (-0.05999 : ℝ) ∈ Set.uIcc (g 0) (g x) := by
    rw [Set.mem_uIcc]
    right
    refine ⟨hgx, ?_⟩
    norm_num at hg0 ⊢
    linarith
  obtain ⟨t, ht, het⟩ := intermediate_value_uIcc (a := 0) (b := x) hcont.continuousOn hmem
  have hta : |t| ≤ |x| := by
    rw [Set.mem_uIcc] at ht
    rcases ht with ⟨t1, t2⟩ | ⟨t1, t2⟩
    · rw [abs_of_nonneg t1, abs_of_nonneg (t1.trans t2)]; exact t2
    · rw [abs_of_nonpos t2, abs_of_nonpos (t1.trans t2)]; linarith
  obtain ⟨a1, a2⟩ := abs_le.1 (hf t)
  simp only [hg] at het
  norm_num at het a1 a2 hx
  have ht0 := abs_nonneg t
  refine test_far h lab ho hcv hc hf t ?_ ?_ <;> norm_num <;> nlinarith

theorem kap_box {P : ℝ × ℝ} {a b : ℝ} (h1 : a ≤ P.1) (h2 : P.1 ≤ b) (h3 : a ≤ P.2) (h4 : P.2 ≤ b) :
    a ≤ kap * (kap * P.1 + kap * P.2 - |kap * P.1 - kap * P.2|) ∧
      kap * (kap * P.1 + kap * P.2 + |kap * P.1 - kap * P.2|) ≤ b := by
  have e1 : kap * (kap * P.1 + kap * P.2 - (kap * P.1 - kap * P.2)) = P.2 := by linear_combination 2 * P.2 * kap_sq
  have e2 : kap * (kap * P.1 + kap * P.2 + (kap * P.1 - kap * P.2)) = P.1 := by linear_combination 2 * P.1 * kap_sq
  rcases abs_cases (kap * P.1 - kap * P.2) with ⟨e, -⟩ | ⟨e, -⟩
  · rw [e, e1, e2]; exact ⟨h3, h2⟩
  · rw [e, sub_neg_eq_add, ← sub_eq_add_neg, e1, e2]; exact ⟨h1, h4⟩

theorem linspace_mem {a b lo hi : ℝ} (ha : lo ≤ a ∧ a ≤ hi) (hb : lo ≤ b ∧ b ≤ hi) {n : ℕ} (i : Fin n) :
    lo ≤ linspace a b n i ∧ linspace a b n i ≤ hi := by
  have hi1 : ((i : ℕ) : ℝ) ≤ (n : ℝ) - 1 := by
    have : (((i : ℕ) + 1 : ℕ) : ℝ) ≤ (n : ℝ) := by exact_mod_cast i.2
    push_cast at this; linarith
  have hi0 : (0 : ℝ) ≤ ((i : ℕ) : ℝ) := Nat.cast_nonneg _
  have ht0 : 0 ≤ ((i : ℕ) : ℝ) / ((n : ℝ) - 1) := div_nonneg hi0 (by linarith)
  have ht1 : ((i : ℕ) : ℝ) / ((n : ℝ) - 1) ≤ 1 := div_le_one_of_le₀ hi1 (by linarith)
  have e : linspace a b n i = a + ((i : ℕ) : ℝ) / ((n : ℝ) - 1) * (b - a) := by unfold linspace linAt; ring
  rw [e]
  generalize ((i : ℕ) : ℝ) / ((n : ℝ) - 1) = t at *
  obtain ⟨a1, a2⟩ := ha
  obtain ⟨b1, b2⟩ := hb
  constructor <;> nlinarith

/-- After a successful test, all images in the voltage range with pixels of at most 0.14 V / 12 are returned. -/
theorem fine_ok (h : SampledFirst p v) (lab lab' : Labelling) {k : ℕ} {o}
    (ho : ideal2d (sampledIdeal (ladder p v (k + 1))) lab testLim testLim 10 10 = .ok o) {g1 g2 : ℝ × ℝ} (l1 : InLimits g1)
    (l2 : InLimits g2) (n1 : g1.1 ≠ g1.2) (n2 : g2.1 ≠ g2.2) {r c : ℕ} (hr : 2 ≤ r) (hc : 2 ≤ c)
    (s1 : pixStep (sortLim g1) c ≤ 0.14 / 12) (s2 : pixStep (sortLim g2) r ≤ 0.14 / 12) :
    ∃ o, ideal2d (sampledIdeal (ladder p v (k + 1))) lab' g1 g2 r c = .ok o := by
  obtain ⟨curves, hcs⟩ := ladder_curves h (k + 1)
  obtain ⟨pre, f, hcv, hf⟩ := ladder_last h hcs
  obtain ⟨a1, a2⟩ := l1.sort
  obtain ⟨b1, b2⟩ := l2.sort
  norm_num at a1 a2 b1 b2 s1 s2
  refine ideal2d_below (h.cfgOk (k + 1)) hcv hcs lab' n1 n2 hr hc ?_ ?_
  · rintro x ⟨h1, h2, h3, h4⟩
    rw [rotate_sampled] at h1 h2 h3 h4
    simp only at h1 h2 h3 h4
    refine test_far h lab ho hcv hcs hf x ?_ ?_ <;> norm_num <;>
      rcases abs_cases x with ⟨e, hs⟩ | ⟨e, hs⟩ <;> rw [e] <;> linarith
  · intro P h1 h2 h3 h4
    rw [tctCoord_sampled]
    obtain ⟨c1, c2⟩ := kap_box (l1.sort.1.trans h1) (h2.trans l1.sort.2) (l2.sort.1.trans h3) (h4.trans l2.sort.2)
    exact test_above h lab ho hcv hcs hf _ _ c1 c2

/-- After a successful test, all 1D scans in the voltage range are returned. -/
theorem line_ok (h : SampledFirst p v) (lab : Labelling) {k : ℕ} {o}
    (ho : ideal2d (sampledIdeal (ladder p v (k + 1))) lab testLim testLim 10 10 = .ok o) {g1 g2 : ℝ × ℝ} (l1 : InLimits g1)
    (l2 : InLimits g2) (n : ℕ) : ∃ o, ideal1d (sampledIdeal (ladder p v (k + 1))) g1 g2 n = .ok o := by
  obtain ⟨curves, hcs⟩ := ladder_curves h (k + 1)
  obtain ⟨pre, f, hcv, hf⟩ := ladder_last h hcs
  have hin : ∀ i, (-0.2 ≤ (pts1d g1 g2 n i).1 ∧ (pts1d g1 g2 n i).1 ≤ -0.06) ∧
      -0.2 ≤ (pts1d g1 g2 n i).2 ∧ (pts1d g1 g2 n i).2 ≤ -0.06 := by
    exact fun i => ⟨linspace_mem l1.1 l1.2 i, linspace_mem l2.1 l2.2 i⟩
  obtain ⟨occ, hocc, -⟩ := C04_1d _ (h.cfgOk (k + 1)) curves hcs (pts1d g1 g2 n) (by
    intro i
    refine ⟨f, by rw [hcv]; simp, ?_⟩
    obtain ⟨⟨h1, h2⟩, h3, h4⟩ := hin i
    generalize pts1d g1 g2 n i = P at *
    rw [tctCoord_sampled]
    obtain ⟨c1, c2⟩ := kap_box h1 h2 h3 h4
    exact test_above h lab ho hcv hcs hf _ _ c1 c2)
  unfold ideal1d
  rw [hocc]
  exact ⟨_, rfl⟩

end SimCATS
