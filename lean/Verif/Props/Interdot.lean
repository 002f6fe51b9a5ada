import Verif.Lemmas.Interdot
import Verif.Props.Occupation

/-! Property C63: within a charge region the electrons move to the first dot one after another, from left to right. -/

namespace SimCATS
open Spec

/-! ### From scans to regions -/

theorem occupation1d_region (cfg : IdealCfg) (ok : CfgOk cfg) {gf : ℝ} (hgf : gammaFactor cfg.cdf cfg.gf = .ok gf)
    (curves : List (ℝ → ℝ)) (h : IsCurves cfg.lut 1 cfg.params curves) {n : ℕ} (v : Fin n → ℝ × ℝ)
    (hb : ∀ i, ∃ f ∈ curves, (tctCoord cfg (v i)).2 < f (tctCoord cfg (v i)).1) :
    ∃ occ, occupation1d cfg n v = .ok occ ∧ ∀ i, regionOcc (allAnchors cfg.params 1 cfg.rotation) cfg.cdf gf
      (Spec.region curves (tctCoord cfg (v i))) (v i) = .ok (occ i) := by
  obtain ⟨mask, hm, hm'⟩ := C05_region_1d cfg curves h v
  obtain ⟨occ, ho, -⟩ := C04_1d cfg ok curves h v hb
  refine ⟨occ, ho, fun i => ?_⟩
  unfold occupation1d at ho
  rw [hgf] at ho
  simp only at ho
  rw [show regionLoop1d cfg.lut (fun i => rotatePoint (-cfg.rotation) (v i)) (tctDict cfg.params 1).reverse
    (fun _ => 0) = .ok mask from hm] at ho
  rw [← hm' i (hb i)]
  exact occupationsOfMask_ok.1 ho i

theorem occupation2d_region (cfg : IdealCfg) {gf : ℝ} (hgf : gammaFactor cfg.cdf cfg.gf = .ok gf)
    (curves : List (ℝ → ℝ)) (h : IsCurves cfg.lut 1 cfg.params curves) {r c : ℕ} (v : Fin r × Fin c → ℝ × ℝ)
    (lead : Fin r × Fin c → ℕ) (rep : Fin r × Fin c → Fin r × Fin c) {occ : Fin r × Fin c → ℝ × ℝ}
    (ho : occupation2d cfg v lead rep = .ok occ) (i : Fin r × Fin c) :
    regionOcc (allAnchors cfg.params 1 cfg.rotation) cfg.cdf gf
      (if lead i ≠ 0 then lead i else Spec.region curves (tctCoord cfg (v (rep i)))) (v i) = .ok (occ i) := by
  have hm : mask2d cfg v lead rep =
      .ok fun i => if lead i ≠ 0 then lead i else Spec.region curves (tctCoord cfg (v (rep i))) := by
    unfold mask2d
    have := fun i => C05_region_2d cfg curves h (v (rep i))
    simp only [tctCoord] at this
    simp only
    rw [dif_neg (by rintro ⟨e, i, -, h'⟩; rw [this] at h'; cases h')]
    simp only [this]
  unfold occupation2d at ho
  rw [hgf] at ho
  simp only [hm] at ho
  exact occupationsOfMask_ok.1 ho i

theorem gammaFactor_spec {cdf : CdfType} (hc : cdf ≠ .other) (gf : Option ℝ) :
    gammaFactor cdf gf = .ok (gammaOf cdf gf) := by
  rcases gf with _ | g
  · rcases cdf with _ | _ | _
    · rfl
    · rfl
    · exact absurd rfl hc
  · rfl

/-! ### C63 -/

/-- C63 (partial: transitions with tunnel coupling): a point that is assigned to the region with `k ≥ 1` electrons has
one summand per interdot transition in the first dot: the CDF of the configuration, evaluated at the position of the
point, centred at the interdot transition, with the coupling range divided by the gamma factor as width.  Positions are
distances to the right of the first interdot transition. -/
theorem C63_sum_partial {params : List TctParams} {rot : ℝ} {k : ℕ} (h0 : 0 < k) {P V : ℝ × ℝ} {T : Fin k → Anchor}
    (hI : Interdots (allAnchors params 1 rot) k P V T) {cdf : CdfType} {gf : ℝ}
    (hw : ∀ j, 1e-8 < |coupling P V (T j) / gf|) {pt o : ℝ × ℝ}
    (h : regionOcc (allAnchors params 1 rot) cdf gf k pt = .ok o) :
    o.1 = ∑ j, cdfOf cdf (rightOf P V pt) (rightOf P V (T j).center) (coupling P V (T j) / gf) := by
  rw [regionOcc_first h0 hI h]
  exact Finset.sum_congr rfl fun j _ => cdfOf_neg _ _ _ _ (hw j)

/-- C63 (1D scans, partial: transitions with tunnel coupling). -/
theorem C63_1d_partial (cfg : IdealCfg) (ok : CfgOk cfg) (curves : List (ℝ → ℝ)) (h : IsCurves cfg.lut 1 cfg.params curves) {n : ℕ} (v : Fin n → ℝ × ℝ)
    (hb : ∀ i, ∃ f ∈ curves, (tctCoord cfg (v i)).2 < f (tctCoord cfg (v i)).1) :
    ∃ occ, occupation1d cfg n v = .ok occ ∧ ∀ i k, Spec.region curves (tctCoord cfg (v i)) = k → 0 < k →
      ∀ P V T, Interdots (allAnchors cfg.params 1 cfg.rotation) k P V T →
        (∀ j, 1e-8 < |coupling P V (T j) / gammaOf cfg.cdf cfg.gf|) →
        (occ i).1 = ∑ j, cdfOf cfg.cdf (rightOf P V (v i)) (rightOf P V (T j).center)
          (coupling P V (T j) / gammaOf cfg.cdf cfg.gf) := by
  obtain ⟨occ, ho, hr⟩ := occupation1d_region cfg ok (gammaFactor_spec ok.cdf cfg.gf) curves h v hb
  refine ⟨occ, ho, ?_⟩
  rintro i k rfl h0 P V T hI hw
  exact C63_sum_partial h0 hI hw (hr i)

/-- C63 (2D scans, partial: transitions with tunnel coupling). -/
theorem C63_2d_partial (cfg : IdealCfg) (ok : CfgOk cfg) (curves : List (ℝ → ℝ)) (h : IsCurves cfg.lut 1 cfg.params curves) {r c : ℕ} (v : Fin r × Fin c → ℝ × ℝ)
    (lead : Fin r × Fin c → ℕ) (rep : Fin r × Fin c → Fin r × Fin c) {occ : Fin r × Fin c → ℝ × ℝ}
    (ho : occupation2d cfg v lead rep = .ok occ) (i : Fin r × Fin c) (k : ℕ) (h0 : 0 < k)
    (hk : (if lead i ≠ 0 then lead i else Spec.region curves (tctCoord cfg (v (rep i)))) = k) {P V : ℝ × ℝ}
    {T : Fin k → Anchor} (hI : Interdots (allAnchors cfg.params 1 cfg.rotation) k P V T)
    (hw : ∀ j, 1e-8 < |coupling P V (T j) / gammaOf cfg.cdf cfg.gf|) :
    (occ i).1 = ∑ j, cdfOf cfg.cdf (rightOf P V (v i)) (rightOf P V (T j).center)
      (coupling P V (T j) / gammaOf cfg.cdf cfg.gf) := by
  have := occupation2d_region cfg (gammaFactor_spec ok.cdf cfg.gf) curves h v lead rep ho i
  rw [hk] at this
  exact C63_sum_partial h0 hI hw this

/-- C63 (partial: transitions with tunnel coupling): if every interdot transition has its left anchor left of its right
anchor, the first dot gains electrons and the second dot loses electrons from left to right. -/
theorem C63_monotone_partial {params : List TctParams} {rot : ℝ} {k : ℕ} (h0 : 0 < k) {P V : ℝ × ℝ}
    {T : Fin k → Anchor} (hI : Interdots (allAnchors params 1 rot) k P V T) (hk : k < params.length) {cdf : CdfType}
    (hc : cdf ≠ .other) {gf : ℝ} (hw : ∀ j, 1e-8 < coupling P V (T j) / gf) {a b o q : ℝ × ℝ}
    (ha : regionOcc (allAnchors params 1 rot) cdf gf k a = .ok o)
    (hb : regionOcc (allAnchors params 1 rot) cdf gf k b = .ok q) (hab : rightOf P V a < rightOf P V b) :
    o.1 < q.1 ∧ q.2 < o.2 := by
  have hw' : ∀ j, 1e-8 < |coupling P V (T j) / gf| := fun j => (hw j).trans_le (le_abs_self _)
  have h1 : o.1 < q.1 := by
    rw [C63_sum_partial h0 hI hw' ha, C63_sum_partial h0 hI hw' hb]
    have : Nonempty (Fin k) := ⟨⟨0, h0⟩⟩
    exact Finset.sum_lt_sum_of_nonempty Finset.univ_nonempty fun j _ => (cdfOf_symm hc _ _ (hw j)).strictMono hab
  obtain ⟨o', ho', d1⟩ := regionOcc_ok (params := params) (rot := rot) hc gf (reg := k) (Or.inr hk) a
  obtain ⟨q', hq', d2⟩ := regionOcc_ok (params := params) (rot := rot) hc gf (reg := k) (Or.inr hk) b
  rw [ha] at ho'; rw [hb] at hq'
  rw [← Except.ok.inj ho'] at d1; rw [← Except.ok.inj hq'] at d2
  exact ⟨h1, by linarith [d1.2.2, d2.2.2]⟩

/-- C63 (partial: transitions with tunnel coupling): far left the first dot is empty, far right it holds all electrons. -/
theorem C63_limits_partial {params : List TctParams} {rot : ℝ} {k : ℕ} (h0 : 0 < k) {P V : ℝ × ℝ}
    {T : Fin k → Anchor} (hI : Interdots (allAnchors params 1 rot) k P V T) {cdf : CdfType}
    (hc : cdf ≠ .other) {gf : ℝ} (hw : ∀ j, 1e-8 < coupling P V (T j) / gf) {ε : ℝ} (hε : 0 < ε) :
    ∃ B, ∀ a o, regionOcc (allAnchors params 1 rot) cdf gf k a = .ok o →
      (rightOf P V a < -B → o.1 < ε) ∧ (B < rightOf P V a → k - ε < o.1) := by
  have hk : (0 : ℝ) < k := by exact_mod_cast h0
  have hw' : ∀ j, 1e-8 < |coupling P V (T j) / gf| := fun j => (hw j).trans_le (le_abs_self _)
  set e := min (ε / k) (1 / 2) with he
  have he0 : 0 < e := lt_min (div_pos hε hk) (by norm_num)
  have he1 : e ≤ 1 / 2 := min_le_right _ _
  have hek : k * e ≤ ε := by
    calc k * e ≤ k * (ε / k) := mul_le_mul_of_nonneg_left (min_le_left _ _) hk.le
      _ = ε := by field_simp
  choose lo hlo using fun j => (cdfOf_symm hc (rightOf P V (T j).center) _ (hw j)).surj e he0 (by linarith)
  choose hi hhi using fun j => (cdfOf_symm hc (rightOf P V (T j).center) _ (hw j)).surj (1 - e) (by linarith)
    (by linarith)
  have : Nonempty (Fin k) := ⟨⟨0, h0⟩⟩
  refine ⟨∑ j, (|lo j| + |hi j|), fun a o ho => ⟨fun ha => ?_, fun ha => ?_⟩⟩
  · rw [C63_sum_partial h0 hI hw' ho]
    calc _ < ∑ _j : Fin k, e := by
          refine Finset.sum_lt_sum_of_nonempty Finset.univ_nonempty fun j _ => ?_
          rw [← hlo j]
          apply (cdfOf_symm hc (rightOf P V (T j).center) _ (hw j)).strictMono
          have := Finset.single_le_sum (f := fun j => |lo j| + |hi j|) (fun j _ => by positivity) (Finset.mem_univ j)
          have h1 := neg_abs_le (lo j)
          have h2 := abs_nonneg (hi j)
          linarith
      _ = k * e := by simp
      _ ≤ ε := hek
  · rw [C63_sum_partial h0 hI hw' ho]
    calc (k : ℝ) - ε ≤ k * (1 - e) := by linarith
      _ = ∑ _j : Fin k, (1 - e) := by rw [Finset.sum_const, Finset.card_univ, Fintype.card_fin, nsmul_eq_mul]
      _ < _ := by
          refine Finset.sum_lt_sum_of_nonempty Finset.univ_nonempty fun j _ => ?_
          rw [← hhi j]
          apply (cdfOf_symm hc (rightOf P V (T j).center) _ (hw j)).strictMono
          have := Finset.single_le_sum (f := fun j => |lo j| + |hi j|) (fun j _ => by positivity) (Finset.mem_univ j)
          have h1 := le_abs_self (hi j)
          have h2 := abs_nonneg (lo j)
          linarith

/-- C63 (what happens without tunnel coupling): if the anchors of the interdot transitions (numerically) coincide, the
first dot holds one electron for every interdot transition on the right of the point: the electrons sit in the wrong
dot. -/
theorem C63_uncoupled_actual {params : List TctParams} {rot : ℝ} {k : ℕ} (h0 : 0 < k) {P V : ℝ × ℝ}
    {T : Fin k → Anchor} (hI : Interdots (allAnchors params 1 rot) k P V T) {cdf : CdfType} (hc : cdf ≠ .other)
    {gf : ℝ} (hw : ∀ j, |coupling P V (T j) / gf| ≤ 1e-8) {pt o : ℝ × ℝ}
    (h : regionOcc (allAnchors params 1 rot) cdf gf k pt = .ok o) :
    o.1 = (Finset.univ.filter fun j => rightOf P V pt < rightOf P V (T j).center).card := by
  rw [regionOcc_first h0 hI h, Finset.card_filter, Nat.cast_sum]
  refine Finset.sum_congr rfl fun j _ => ?_
  rw [cdfOf_step hc _ _ _ (by rw [abs_neg]; exact hw j)]
  simp only [neg_lt_neg_iff]
  split_ifs <;> simp

/-! ### Concrete configurations -/

/-- Two transitions whose peaks are rounded over `2 * w` volts; the first interdot transition runs from (0, 0) to (0, 10). -/
noncomputable def coupledCfg (w : ℝ) : IdealCfg :=
  ⟨[⟨5, 6, 1, -1, -w, -w, w, -w⟩, ⟨5, 6, 1, -1, -6 - w, 16 - w, -6 + w, 16 - w⟩], 0, none, .sigmoid, none⟩

theorem coupled_center (x y w : ℝ) (h0 : 0 ≤ w) (h1 : w ≤ 2) :
    tctCenter ⟨5, 6, 1, -1, x - w, y - w, x + w, y - w⟩ = .ok (x, y) := by
  apply tctCenter_of (by norm_num)
  constructor <;> norm_num <;> linarith

theorem coupled_center0 (w : ℝ) (h0 : 0 ≤ w) (h1 : w ≤ 2) : tctCenter ⟨5, 6, 1, -1, -w, -w, w, -w⟩ = .ok (0, 0) := by
  have := coupled_center 0 0 w h0 h1
  simpa only [zero_sub, zero_add] using this

theorem coupled_anchors1 (w : ℝ) : ∃ rows, allAnchors (coupledCfg w).params 1 (coupledCfg w).rotation 1 = some rows ∧
    rows = [⟨(-w, -w), (0, 0), (w, -w)⟩] := by
  refine ⟨_, rfl, ?_⟩
  simp [coupledCfg, anchorsRaw, anchorLoop, Anchor.rotate, firstAnchor, rotatePoint]

theorem coupled_anchors2 (w : ℝ) : ∃ rows a, allAnchors (coupledCfg w).params 1 (coupledCfg w).rotation 2 = some rows ∧
    rows[1]? = some a ∧ a.center = (0, 10) := by
  refine ⟨_, _, rfl, rfl, ?_⟩
  simp only [coupledCfg, Anchor.rotate, firstAnchor, rotatePoint, stepAnchor]
  norm_num
  constructor <;> ring

theorem coupled_interdots (w : ℝ) : Interdots (allAnchors (coupledCfg w).params 1 (coupledCfg w).rotation) 1 (0, 0)
    (0, 10) (fun _ => ⟨(-w, -w), (0, 0), (w, -w)⟩) := by
  obtain ⟨rows, h1, rfl⟩ := coupled_anchors1 w
  exact ⟨coupled_anchors2 w, ⟨_, _, h1, rfl, rfl⟩, _, h1, fun j => by rw [Subsingleton.elim j 0]; rfl⟩

theorem coupledCfg_ok (w : ℝ) (h0 : 0 ≤ w) (h1 : w ≤ 2) : CfgOk (coupledCfg w) := by
  constructor
  · intro p hp
    simp only [coupledCfg, List.mem_cons, List.not_mem_nil, or_false] at hp
    rcases hp with rfl | rfl
    · exact ⟨⟨_, coupled_center0 w h0 h1⟩, by norm_num, by norm_num⟩
    · exact ⟨⟨_, coupled_center (-6) 16 w h0 h1⟩, by norm_num, by norm_num⟩
  · simp [coupledCfg]
  · simp [coupledCfg]
  · simp [coupledCfg]
  · intro k upper rows valley peak a1 a2 a3 a4
    have hk : k = 1 := by
      rcases Nat.lt_or_ge 1 k with h | h
      · rw [allAnchors_none (by simp [coupledCfg]; omega)] at a1; cases a1
      · rcases Nat.eq_zero_or_pos k with rfl | h'
        · simp [allAnchors] at a2
        · omega
    subst hk
    obtain ⟨r, e, rfl⟩ := coupled_anchors1 w
    obtain ⟨r', a, e', ea, ea'⟩ := coupled_anchors2 w
    rw [e] at a2; rw [e'] at a1
    cases a2; cases a1
    rw [a3] at ea; cases ea
    simp at a4
    rw [ea', ← a4]
    norm_num

/-- The points (-9, 5) and (9, 5) lie between the two transitions. -/
theorem coupled_region (w : ℝ) (h0 : 0 ≤ w) (h1 : w ≤ 2) {curves : List (ℝ → ℝ)}
    (h : IsCurves (coupledCfg w).lut 1 (coupledCfg w).params curves) (x : ℝ) (hx : x = -9 ∨ x = 9) :
    (∃ f ∈ curves, (tctCoord (coupledCfg w) (x, 5)).2 < f (tctCoord (coupledCfg w) (x, 5)).1) ∧
      Spec.region curves (tctCoord (coupledCfg w) (x, 5)) = 1 := by
  have e : tctCoord (coupledCfg w) (x, 5) = (x, 5) := by simp [tctCoord, rotatePoint, coupledCfg]
  rw [e]
  rcases curves with _ | ⟨f, _ | ⟨g, _ | ⟨a, l⟩⟩⟩
  · simp [IsCurves, coupledCfg] at h
  · simp [IsCurves, coupledCfg] at h
  · have hf := h.1 x
    have hg := h.2.2.1 x
    have of := C08_outer_lines _ none 1 le_rfl ⟨_, coupled_center0 w h0 h1⟩ (by norm_num) x
    have og := C08_outer_lines _ none 2 (by norm_num) ⟨_, coupled_center (-6) 16 w h0 h1⟩ (by norm_num) x
    have hfg : f x ≤ 5 ∧ 5 < g x := by
      simp only [coupledCfg] at hf hg
      rcases hx with rfl | rfl
      · rw [of.1 (by simp only; linarith)] at hf
        rw [og.1 (by simp only; linarith)] at hg
        rw [← Except.ok.inj hf, ← Except.ok.inj hg]
        constructor <;> norm_num <;> linarith
      · rw [of.2 (by simp only; norm_num; linarith)] at hf
        rw [og.2 (by simp only; norm_num; linarith)] at hg
        rw [← Except.ok.inj hf, ← Except.ok.inj hg]
        constructor <;> norm_num <;> linarith
    refine ⟨⟨g, by simp, hfg.2⟩, ?_⟩
    rw [region_cons, region_cons]
    simp only [not_lt.2 hfg.1, hfg.2, if_true, if_false]
  · simp [IsCurves, coupledCfg] at h

theorem coupled_rightOf (x y : ℝ) : rightOf (0, 0) (0, 10) (x, y) = x := by
  unfold rightOf area2 Spec.dist
  simp only
  rw [show ((0 : ℝ) - 0) ^ 2 + (10 - 0) ^ 2 = 10 ^ 2 by norm_num, Real.sqrt_sq (by norm_num)]
  ring

/-- C63 is violated: the configurations with and without tunnel coupling are both valid and have their interdot
transition at the same place.  With a coupling range of 2 V the first dot is less than half filled 9 V left of the
transition and more than half filled 9 V right of it.  Without coupling the electron is in the first dot on the left and
in the second dot on the right. -/
theorem C63_refuted : CfgOk (coupledCfg 1) ∧ CfgOk (coupledCfg 0) ∧
    (∃ occ, occupation1d (coupledCfg 1) 2 ![(-9, 5), (9, 5)] = .ok occ ∧ (occ 0).1 < 1 / 2 ∧ 1 / 2 < (occ 1).1) ∧
    ∃ occ, occupation1d (coupledCfg 0) 2 ![(-9, 5), (9, 5)] = .ok occ ∧ occ 0 = (1, 0) ∧ occ 1 = (0, 1) := by
  have main : ∀ w : ℝ, 0 ≤ w → w ≤ 2 → ∃ occ, occupation1d (coupledCfg w) 2 ![(-9, 5), (9, 5)] = .ok occ ∧
      (∀ i, regionOcc (allAnchors (coupledCfg w).params 1 (coupledCfg w).rotation) .sigmoid 2.2 1
        (![((-9 : ℝ), (5 : ℝ)), (9, 5)] i) = .ok (occ i)) ∧ ∀ i, (occ i).1 + (occ i).2 = 1 := by
    intro w h0 h1
    have ok := coupledCfg_ok w h0 h1
    obtain ⟨curves, hc⟩ := C05_curves_exist _ ok
    have hr : ∀ i : Fin 2, (∃ f ∈ curves, (tctCoord (coupledCfg w) (![(-9, 5), (9, 5)] i)).2 <
        f (tctCoord (coupledCfg w) (![(-9, 5), (9, 5)] i)).1) ∧
        Spec.region curves (tctCoord (coupledCfg w) (![(-9, 5), (9, 5)] i)) = 1 := by
      intro i
      fin_cases i
      · exact coupled_region w h0 h1 hc (-9) (Or.inl rfl)
      · exact coupled_region w h0 h1 hc 9 (Or.inr rfl)
    obtain ⟨occ, ho, hreg⟩ := occupation1d_region _ ok rfl curves hc ![(-9, 5), (9, 5)] fun i => (hr i).1
    refine ⟨occ, ho, fun i => ?_, fun i => ?_⟩
    · have := hreg i
      rw [(hr i).2] at this
      exact this
    · obtain ⟨occ', ho', hd⟩ := C04_1d _ ok curves hc ![(-9, 5), (9, 5)] fun i => (hr i).1
      rw [ho] at ho'
      have := (hd i).2.2
      rw [(hr i).2, ← Except.ok.inj ho'] at this
      simpa using this
  refine ⟨coupledCfg_ok 1 (by norm_num) (by norm_num), coupledCfg_ok 0 le_rfl (by norm_num), ?_, ?_⟩
  · obtain ⟨occ, ho, hr, -⟩ := main 1 (by norm_num) (by norm_num)
    have hI := coupled_interdots 1
    have hw : ∀ j : Fin 1, (1e-8 : ℝ) < coupling (0, 0) (0, 10) ((fun _ => ⟨(-1, -1), (0, 0), (1, -1)⟩ : Fin 1 → Anchor) j)
        / 2.2 := by
      intro j
      simp only [coupling, coupled_rightOf]; norm_num
    have key : ∀ i, (occ i).1 = cdfOf .sigmoid (![(-9 : ℝ), 9] i) 0 ((1 - -1) / 2.2) := by
      intro i
      rw [C63_sum_partial one_pos hI (fun j => (hw j).trans_le (le_abs_self _)) (hr i)]
      simp only [Fin.sum_univ_one, coupling, coupled_rightOf]
      fin_cases i <;> simp [coupled_rightOf]
    have S := cdfOf_symm (cdf := .sigmoid) (by decide) 0 ((1 - -1) / 2.2) (by norm_num)
    refine ⟨occ, ho, ?_, ?_⟩
    · rw [key 0, ← S.center]
      exact S.strictMono (by norm_num)
    · rw [key 1, ← S.center]
      exact S.strictMono (by norm_num)
  · obtain ⟨occ, ho, hr, hs⟩ := main 0 le_rfl (by norm_num)
    have hI := coupled_interdots 0
    have hw : ∀ j : Fin 1, |coupling (0, 0) (0, 10) ((fun _ => ⟨(-0, -0), (0, 0), (0, -0)⟩ : Fin 1 → Anchor) j) / 2.2|
        ≤ (1e-8 : ℝ) := by
      intro j
      simp only [coupling, coupled_rightOf]; norm_num
    have h0 := C63_uncoupled_actual one_pos hI (cdf := .sigmoid) (by decide) hw (hr 0)
    have h1 := C63_uncoupled_actual one_pos hI (cdf := .sigmoid) (by decide) hw (hr 1)
    have e0 : (occ 0).1 = 1 := by
      rw [h0]
      simp only [Matrix.cons_val_zero, coupled_rightOf]
      norm_num
    have e1 : (occ 1).1 = 0 := by
      rw [h1]
      simp only [Matrix.cons_val_one, coupled_rightOf]
      norm_num [coupled_rightOf]
    refine ⟨occ, ho, Prod.ext e0 ?_, Prod.ext e1 ?_⟩
    · have := hs 0; simp only; linarith
    · have := hs 1; simp only; linarith

/-- The tunnel coupling of `coupledCfg w` rounds the interdot transition over `2 * w` volts. -/
theorem coupled_coupling (w : ℝ) : coupling (0, 0) (0, 10) ⟨(-w, -w), (0, 0), (w, -w)⟩ = 2 * w := by
  simp only [coupling, coupled_rightOf]; ring

/-- The hypotheses of the theorems about coupled transitions hold for `coupledCfg 1` and its region with one electron. -/
example : ∃ occ, occupation1d (coupledCfg 1) 2 ![(-9, 5), (9, 5)] = .ok occ ∧
    ∀ i, (occ i).1 = sigmoidCdf (rightOf (0, 0) (0, 10) (![((-9 : ℝ), (5 : ℝ)), (9, 5)] i))
      (rightOf (0, 0) (0, 10) (0, 0)) (2 * 1 / 2.2) := by
  have ok := coupledCfg_ok 1 (by norm_num) (by norm_num)
  obtain ⟨curves, hc⟩ := C05_curves_exist _ ok
  have hr : ∀ i : Fin 2, _ := fun i => coupled_region 1 (by norm_num) (by norm_num) hc (![(-9 : ℝ), 9] i)
    (by fin_cases i <;> simp)
  have e : ∀ i : Fin 2, ![((-9 : ℝ), (5 : ℝ)), (9, 5)] i = (![(-9 : ℝ), 9] i, 5) := fun i => by fin_cases i <;> rfl
  obtain ⟨occ, ho, h⟩ := C63_1d_partial _ ok curves hc ![(-9, 5), (9, 5)] fun i => by rw [e]; exact (hr i).1
  refine ⟨occ, ho, fun i => ?_⟩
  have := h i 1 (by rw [e]; exact (hr i).2) one_pos _ _ _ (coupled_interdots 1) fun j => by
    rw [coupled_coupling]; norm_num [coupledCfg, gammaOf]
  rw [this, Fin.sum_univ_one, coupled_coupling]
  rfl

example : ∀ a b o q, regionOcc (allAnchors (coupledCfg 1).params 1 (coupledCfg 1).rotation) .sigmoid 2.2 1 a = .ok o →
    regionOcc (allAnchors (coupledCfg 1).params 1 (coupledCfg 1).rotation) .sigmoid 2.2 1 b = .ok q → a.1 < b.1 →
    o.1 < q.1 ∧ q.2 < o.2 := fun a b o q ha hb hab =>
  C63_monotone_partial one_pos (coupled_interdots 1) (by simp [coupledCfg]) (by decide)
    (fun j => by rw [coupled_coupling]; norm_num) ha hb (by rw [coupled_rightOf, coupled_rightOf]; exact hab)

example : ∃ B : ℝ, ∀ a o, regionOcc (allAnchors (coupledCfg 1).params 1 (coupledCfg 1).rotation) .sigmoid 2.2 1 a =
    .ok o → (a.1 < -B → o.1 < 0.01) ∧ (B < a.1 → (1 : ℕ) - 0.01 < o.1) := by
  obtain ⟨B, hB⟩ := C63_limits_partial one_pos (coupled_interdots 1) (cdf := .sigmoid) (by decide) (gf := 2.2)
    (fun j => by rw [coupled_coupling]; norm_num) (ε := 0.01) (by norm_num)
  exact ⟨B, fun a o h => by have := hB a o h; rwa [coupled_rightOf] at this⟩

example (o : ℝ × ℝ) (h : occupation2d (coupledCfg 1) (fun _ : Fin 1 × Fin 1 => (9, 5)) (fun _ => 1) id = .ok fun _ => o) :
    o.1 = sigmoidCdf (rightOf (0, 0) (0, 10) (9, 5)) (rightOf (0, 0) (0, 10) (0, 0)) (2 * 1 / 2.2) := by
  obtain ⟨curves, hc⟩ := C05_curves_exist _ (coupledCfg_ok 1 (by norm_num) (by norm_num))
  rw [C63_2d_partial _ (coupledCfg_ok 1 (by norm_num) (by norm_num)) curves hc _ _ _ h (0, 0) 1 one_pos (by simp)
    (coupled_interdots 1) fun j => by rw [coupled_coupling]; norm_num [coupledCfg, gammaOf]]
  rw [Fin.sum_univ_one, coupled_coupling]
  rfl

end SimCATS
