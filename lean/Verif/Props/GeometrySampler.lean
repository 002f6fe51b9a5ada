import Verif.Lemmas.SampledTest
import Verif.Lemmas.SamplerEnds

/-!
Properties of sampled charge stability diagrams (C46, C60-C62).
-/

namespace SimCATS

open Spec

/-- The result of the sampler together with the outcome of its test measurements. -/
def TestedLadder (lab : Labelling) (p : TctParams) (v : ℝ × ℝ) (k : ℕ) : Prop :=
  SampledFirst p v ∧ k + 1 ≤ 122 ∧
    (∃ o, ideal2d (sampledIdeal (ladder p v (k + 1))) lab testLim testLim 10 10 = .ok o) ∧
    ∀ j, j < k → ideal2d (sampledIdeal (ladder p v (j + 1))) lab testLim testLim 10 10 = .error .indexError

theorem sampleIdealCSD_tested {τ : Type} {rng : CfgRng τ} (hv : rng.Valid) (lab : Labelling) :
    (sampleIdealCSD rng lab).Ensures fun cfg => ∃ p v k, TestedLadder lab p v k ∧ cfg = sampledIdeal (ladder p v (k + 1)) := by
  refine (sampleFirstTct_spec hv).bind ?_
  rintro ⟨p, v⟩ h
  simp only at h
  refine Proc.Ensures.bind (Q := fun ps => ∃ k, TestedLadder lab p v k ∧ ps = ladder p v (k + 1)) ?_ ?_
  · rintro s r ⟨x, hx, rfl⟩
    simp only at hx
    rw [← ladder_one p v] at hx
    obtain ⟨N, -, h1, h2, h3, h4⟩ := addTcts_ladder h lab 121 0 (by norm_num) (by norm_num)
    rw [h4] at hx
    subst hx
    exact ⟨_, _, rfl, N, ⟨h, h1, h2, fun j hj => h3 j (by omega) hj⟩, rfl⟩
  · rintro ps ⟨k, hk, rfl⟩
    exact Proc.ensures_pure ⟨p, v, k, hk, rfl⟩

/-! ### C46 -/

/-- C46 for the ideal charge stability diagram: every call of the sampler that ends returns a configuration (it never raises), its
parameters are in the documented ranges, and the whole family of transitions - including those added by the sampler - is valid: all
assertions of `tct_bezier` pass and no reference line degenerates. -/
theorem C46_geometry {τ : Type} (rng : CfgRng τ) (hv : rng.Valid) (lab : Labelling) (s : τ) (r : Py IdealCfg × τ)
    (h : sampleIdealCSD rng lab s r) :
    ∃ cfg s', r = (.ok cfg, s') ∧ CfgOk cfg ∧
      ∃ p v n, SampledFirst p v ∧ 1 ≤ n ∧ cfg.params = ladder p v n ∧ cfg.rotation = -Real.pi / 4 := by
  obtain ⟨cfg, s', e, p, v, k, ⟨h1, h2, -⟩, rfl⟩ := sampleIdealCSD_tested hv lab s r h
  exact ⟨_, s', e, h1.cfgOk _, p, v, k + 1, h1, by omega, rfl, rfl⟩

/-- The hypotheses of the theorems of this file can be met: with a generator that always returns the centre of the interval, the
sampler returns a configuration. -/
theorem mid_returns (lab : Labelling) : ∃ cfg, sampleIdealCSD midRng lab () (.ok cfg, ()) := by
  obtain ⟨r, hr⟩ := mid_ends lab ()
  obtain ⟨cfg, s', rfl, -⟩ := C46_geometry midRng midRng_valid lab () r hr
  exact ⟨cfg, hr⟩

example (lab : Labelling) : ∃ (rng : CfgRng Unit) (r : Py IdealCfg × Unit), rng.Valid ∧ sampleIdealCSD rng lab () r :=
  (mid_returns lab).elim fun _ h => ⟨midRng, _, midRng_valid, h⟩

/-! ### C60 -/

/-- C60: the transitions of a sampled configuration never meet; each one is more than one millivolt above the previous one
everywhere. -/
theorem C60_ordered {τ : Type} (rng : CfgRng τ) (hv : rng.Valid) (lab : Labelling) (s s' : τ) (cfg : IdealCfg)
    (h : sampleIdealCSD rng lab s (.ok cfg, s')) (curves : List (ℝ → ℝ)) (hc : IsCurves cfg.lut 1 cfg.params curves)
    (k : ℕ) (f g : ℝ → ℝ) (hf : curves[k]? = some f) (hg : curves[k + 1]? = some g) (x : ℝ) : f x + 0.001 < g x := by
  obtain ⟨_, _, e, p, v, m, ⟨h1, -⟩, rfl⟩ := sampleIdealCSD_tested hv lab s _ h
  cases e
  have a := abs_le.1 ((ladder_near h1 hc hf).2 x)
  have b := abs_le.1 ((ladder_near h1 hc hg).2 x)
  have c := ladderCurve_succ h1 k x
  have a2 := a.2
  have b1 := b.1
  norm_num at a2 b1 c ⊢
  linarith

/-- A sampled configuration has curves, so that the theorem is not empty. -/
example (lab : Labelling) : ∃ cfg curves, sampleIdealCSD midRng lab () (.ok cfg, ()) ∧ IsCurves cfg.lut 1 cfg.params curves := by
  obtain ⟨cfg, h⟩ := mid_returns lab
  obtain ⟨_, _, e, hok, -⟩ := C46_geometry midRng midRng_valid lab () _ h
  cases e
  obtain ⟨curves, hc⟩ := C05_curves_exist cfg hok
  exact ⟨cfg, curves, h, hc⟩

/-- C60: the number of electrons at a point is the number of transitions at or below the point. -/
theorem C60_count {τ : Type} (rng : CfgRng τ) (hv : rng.Valid) (lab : Labelling) (s s' : τ) (cfg : IdealCfg)
    (h : sampleIdealCSD rng lab s (.ok cfg, s')) (curves : List (ℝ → ℝ)) (hc : IsCurves cfg.lut 1 cfg.params curves) (q : ℝ × ℝ)
    (k : ℕ) (f : ℝ → ℝ) (hf : curves[k]? = some f) : f q.1 ≤ q.2 ↔ k < Spec.region curves q := by
  have key : ∀ (d i : ℕ) (f g : ℝ → ℝ), curves[i]? = some f → curves[i + d]? = some g → f q.1 ≤ g q.1 := by
    intro d
    induction d with
    | zero =>
      intro i f g h1 h2
      rw [Nat.add_zero, h1] at h2
      cases h2
      exact le_rfl
    | succ d ih =>
      intro i f g h1 h2
      have hlt : i + d < curves.length := by
        have := (List.getElem?_eq_some_iff.1 h2).1
        omega
      have h3 : curves[i + d]? = some curves[i + d] := List.getElem?_eq_getElem hlt
      have h4 := C60_ordered rng hv lab s s' cfg h curves hc (i + d) _ g h3 h2 q.1
      have h5 := ih i f _ h1 h3
      norm_num at h4
      linarith
  obtain ⟨hk, rfl⟩ := List.getElem?_eq_some_iff.1 hf
  constructor
  · intro hle
    by_contra hn
    rw [not_lt] at hn
    have hlt : Spec.region curves q < curves.length := lt_of_le_of_lt hn hk
    have h1 := List.findIdx_getElem (w := hlt)
    simp only [decide_eq_true_eq] at h1
    have h2 := key (k - Spec.region curves q) _ _ curves[k] (List.getElem?_eq_getElem hlt) (by
      rw [Nat.add_sub_cancel' hn]; exact hf)
    have h3 : q.2 < curves[Spec.region curves q] q.1 := h1
    linarith
  · intro hlt
    have h1 := List.not_of_lt_findIdx hlt
    simpa using h1

/-- C60: without lookup table, the transitions have slopes between those of the two lead transitions. -/
theorem C60_slopes {τ : Type} (rng : CfgRng τ) (hv : rng.Valid) (lab : Labelling) (s s' : τ) (cfg : IdealCfg)
    (h : sampleIdealCSD rng lab s (.ok cfg, s')) (curves : List (ℝ → ℝ)) (hc : IsCurves none 1 cfg.params curves)
    (k : ℕ) (f : ℝ → ℝ) (hf : curves[k]? = some f) (q : TctParams) (hq : cfg.params[k]? = some q) :
    SlopesBetween q.gradR q.gradL f := by
  obtain ⟨_, _, e, p, v, m, ⟨h1, -⟩, rfl⟩ := sampleIdealCSD_tested hv lab s _ h
  cases e
  obtain ⟨q', hq', hx⟩ := hc.getElem? hf
  rw [hq] at hq'
  cases hq'
  have hk : k < m + 1 := by
    have := (List.getElem?_eq_some_iff.1 hq).1
    simpa [sampledIdeal, ladder] using this
  simp only [sampledIdeal] at hq
  rw [ladder_getElem? p v hk] at hq
  cases hq
  have : f = ladderCurve p v k := by
    funext x
    have h2 : tctBezierAt (moved p v k) none (some (k + 1)) x = .ok (ladderCurve p v k x) :=
      tctBezierAt_eq (h1.tctCenter_moved k) none _ x
    rw [Nat.add_comm, hx] at h2
    exact Except.ok.inj h2
  rw [this]
  exact ladderCurve_slopes h1 k

/-! ### C61 -/

/-- C61: the loop that adds transitions has exactly one outcome (it always ends and never raises): a family of at most 122
transitions. -/
theorem C61_loop_ends (lab : Labelling) (p : TctParams) (v : ℝ × ℝ) (h : SampledFirst p v) :
    ∃ n, 1 ≤ n ∧ n ≤ 122 ∧ ∀ r, AddTcts lab v [p] r ↔ r = .ok (ladder p v n) := by
  rw [← ladder_one p v]
  obtain ⟨N, -, h1, -, -, h4⟩ := addTcts_ladder h lab 121 0 (by norm_num) (by norm_num)
  exact ⟨N + 1, by omega, h1, h4⟩

/-- The parameters of the theorem exist. -/
example : ∃ p v, SampledFirst p v := by
  obtain ⟨cfg, h⟩ := mid_returns (fun _ _ _ i => i)
  obtain ⟨_, _, _, _, p, v, _, hp, _⟩ := C46_geometry midRng midRng_valid _ () _ h
  exact ⟨p, v, hp⟩

/-- C61: apart from the two loops that redraw rejected values (slopes with an angle outside of its range, sizes with a ratio outside of its
range), the sampler always ends: no other loop redraws, and the loop that adds transitions ends. -/
theorem C61_ends {τ : Type} (rng : CfgRng τ) (hv : rng.Valid) (lab : Labelling) (h1 : ∀ s, ∃ r, sampleSlopes rng s r)
    (h2 : ∀ s, ∃ r, sampleInterdotSize rng s r) (s : τ) : ∃ cfg s', sampleIdealCSD rng lab s (.ok cfg, s') := by
  obtain ⟨r, hr⟩ := sampleIdealCSD_ends hv lab h1 h2 s
  obtain ⟨cfg, s', rfl, -⟩ := C46_geometry rng hv lab s r hr
  exact ⟨cfg, s', hr⟩

/-- C61: the transitions of a sampled configuration can be counted with 8 bits. -/
theorem C61_bounded {τ : Type} (rng : CfgRng τ) (hv : rng.Valid) (lab : Labelling) (s s' : τ) (cfg : IdealCfg)
    (h : sampleIdealCSD rng lab s (.ok cfg, s')) : 1 ≤ cfg.params.length ∧ cfg.params.length < 256 := by
  obtain ⟨_, _, e, p, v, m, ⟨h1, h2, -⟩, rfl⟩ := sampleIdealCSD_tested hv lab s _ h
  cases e
  simp only [sampledIdeal, ladder_length]
  omega

/-! ### C62 -/

/-- C62 is violated: a sampled configuration cannot be measured in its whole voltage range with 2 x 2 pixels. -/
theorem C62_refuted {τ : Type} (rng : CfgRng τ) (hv : rng.Valid) (lab lab' : Labelling) (s s' : τ) (cfg : IdealCfg)
    (h : sampleIdealCSD rng lab s (.ok cfg, s')) :
    idealCsd cfg lab' [-0.2, -0.06] [-0.2, -0.06] (.arr [2, 2]) = .error .indexError := by
  obtain ⟨_, _, e, p, v, k, ⟨h1, h2, h3, h4⟩, rfl⟩ := sampleIdealCSD_tested hv lab s _ h
  cases e
  have hr : (.arr [2, 2] : Resolution) = .arr [((2 : ℕ) : ℤ), ((2 : ℕ) : ℤ)] := rfl
  rw [hr, idealCsd_2d (sampledIdeal (ladder p v (k + 1))) lab' (g1 := testLim) (g2 := testLim) (by norm_num) (by norm_num)
    (r := 2) (c := 2) (by norm_num) (by norm_num), coarse_fails h1 lab lab']
  cases k with
  | zero => exact Or.inl rfl
  | succ j => exact Or.inr ⟨j, rfl, _, h4 j (by omega)⟩

/-- C62, 2D part that holds: every image inside of the voltage range whose pixels are not larger than 0.14 V / 12 (for the
whole range: at least 13 x 13 pixels) is returned, in all sweep directions.  Missing: coarser images. -/
theorem C62_2d_partial {τ : Type} (rng : CfgRng τ) (hv : rng.Valid) (lab lab' : Labelling) (s s' : τ) (cfg : IdealCfg)
    (h : sampleIdealCSD rng lab s (.ok cfg, s')) (a1 b1 a2 b2 : ℝ)
    (hl : ∀ x ∈ [a1, b1, a2, b2], -0.2 ≤ x ∧ x ≤ -0.06) (h1 : a1 ≠ b1) (h2 : a2 ≠ b2) (c r : ℕ) (hc : 2 ≤ c) (hr : 2 ≤ r)
    (hs1 : |b1 - a1| ≤ 0.14 / 12 * ((c : ℝ) - 1)) (hs2 : |b2 - a2| ≤ 0.14 / 12 * ((r : ℝ) - 1)) :
    ∃ out, idealCsd cfg lab' [a1, b1] [a2, b2] (.arr [c, r]) = .ok out := by
  obtain ⟨_, _, e, p, v, k, ⟨g1, g2, ⟨o, ho⟩, g4⟩, rfl⟩ := sampleIdealCSD_tested hv lab s _ h
  cases e
  have step : ∀ (a b : ℝ) (n : ℕ), 2 ≤ n → |b - a| ≤ 0.14 / 12 * ((n : ℝ) - 1) → pixStep (sortLim (a, b)) n ≤ 0.14 / 12 := by
    intro a b n hn hs
    have hn' : (0 : ℝ) < (n : ℝ) - 1 := by
      have : (2 : ℝ) ≤ n := by exact_mod_cast hn
      linarith
    unfold pixStep sortLim
    rw [div_le_iff₀ hn', max_sub_min_eq_abs]
    exact hs
  obtain ⟨out, hout⟩ := fine_ok g1 lab lab' ho (g1 := (a1, b1)) (g2 := (a2, b2)) ⟨hl a1 (by simp), hl b1 (by simp)⟩
    ⟨hl a2 (by simp), hl b2 (by simp)⟩ h1 h2 hr hc (step a1 b1 c hc hs1) (step a2 b2 r hr hs2)
  rw [idealCsd_2d (sampledIdeal (ladder p v (k + 1))) lab' (g1 := (a1, b1)) (g2 := (a2, b2)) h1 h2 hr hc, hout]
  exact ⟨_, rfl⟩

/-- The whole range with 13 x 13 pixels. -/
example : (∀ x ∈ [(-0.2 : ℝ), -0.06, -0.2, -0.06], -0.2 ≤ x ∧ x ≤ -0.06) ∧
    |(-0.06 : ℝ) - -0.2| ≤ 0.14 / 12 * (((13 : ℕ) : ℝ) - 1) := by
  constructor
  · simp only [List.mem_cons, List.not_mem_nil, or_false]
    rintro x (rfl | rfl | rfl | rfl) <;> norm_num
  · rw [abs_of_nonneg (by norm_num)]; norm_num

/-- C62, 1D part that holds: every 1D scan inside of the voltage range is returned. -/
theorem C62_1d_partial {τ : Type} (rng : CfgRng τ) (hv : rng.Valid) (lab lab' : Labelling) (s s' : τ) (cfg : IdealCfg)
    (h : sampleIdealCSD rng lab s (.ok cfg, s')) (a1 b1 a2 b2 : ℝ)
    (hl : ∀ x ∈ [a1, b1, a2, b2], -0.2 ≤ x ∧ x ≤ -0.06) (n : ℕ) :
    ∃ out, idealCsd cfg lab' [a1, b1] [a2, b2] (.int n) = .ok out := by
  obtain ⟨_, _, e, p, v, k, ⟨g1, g2, ⟨o, ho⟩, g4⟩, rfl⟩ := sampleIdealCSD_tested hv lab s _ h
  cases e
  obtain ⟨out, hout⟩ := line_ok g1 lab ho (g1 := (a1, b1)) (g2 := (a2, b2)) ⟨hl a1 (by simp), hl b1 (by simp)⟩
    ⟨hl a2 (by simp), hl b2 (by simp)⟩ n
  unfold idealCsd
  simp only [Resolution.entries, idealCheck_1d]
  rw [if_neg (by omega)]
  simp only [Int.toNat_natCast]
  rw [hout]
  exact ⟨_, rfl⟩

end SimCATS
