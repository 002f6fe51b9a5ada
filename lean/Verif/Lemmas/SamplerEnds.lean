import Verif.Lemmas.AddTcts

/-! Procedures that end. -/

namespace SimCATS

open Spec

variable {τ α β : Type}

/-- Every call ends. -/
def Proc.Ends (x : Proc τ α) : Prop := ∀ s, ∃ r, x s r

theorem Proc.ends_pure (a : α) : (pure a : Proc τ α).Ends := fun s => ⟨(.ok a, s), rfl⟩

theorem Proc.ends_call (m : M τ α) : (Proc.call m).Ends := fun s => ⟨m s, rfl⟩

theorem Proc.Ends.bind {x : Proc τ α} {f : α → Proc τ β} {Q : α → Prop} (hx : x.Ends) (he : x.Ensures Q)
    (hf : ∀ a, Q a → (f a).Ends) : (x >>= f).Ends := by
  intro s
  obtain ⟨r, hr⟩ := hx s
  obtain ⟨a, s', rfl, ha⟩ := he s r hr
  obtain ⟨r', hr'⟩ := hf a ha s'
  exact ⟨r', Or.inl ⟨a, s', hr, hr'⟩⟩

/-- A loop whose first value is accepted ends. -/
theorem Proc.ends_until {good : α → Prop} {body : Proc τ α} {Q : α → Prop} (hx : body.Ends) (he : body.Ensures Q)
    (hg : ∀ a, Q a → good a) : (Proc.until good body).Ends :=
  hx.bind he fun a ha s => ⟨(.ok a, s), .stop (hg a ha)⟩

theorem le_arctan {x : ℝ} (hx : 0 ≤ x) : x / (1 + x ^ 2) ≤ Real.arctan x := by
  have h0 : 0 ≤ Real.arctan x := Real.arctan_nonneg.2 hx
  have h1 := Real.sin_le (by linarith : 0 ≤ 2 * Real.arctan x)
  rw [Real.sin_two_mul, Real.sin_arctan, Real.cos_arctan] at h1
  have hp : 0 < 1 + x ^ 2 := by positivity
  have hs : Real.sqrt (1 + x ^ 2) * Real.sqrt (1 + x ^ 2) = 1 + x ^ 2 := Real.mul_self_sqrt hp.le
  have e : x / Real.sqrt (1 + x ^ 2) * (1 / Real.sqrt (1 + x ^ 2)) = x / (1 + x ^ 2) := by
    rw [div_mul_div_comm, mul_one, hs]
  rw [mul_assoc, e] at h1
  linarith

theorem arctan_le {x : ℝ} (hx : 0 ≤ x) : Real.arctan x ≤ x := by
  have h0 : 0 ≤ Real.arctan x := Real.arctan_nonneg.2 hx
  have := Real.le_tan h0 (Real.arctan_lt_pi_div_two x)
  rwa [Real.tan_arctan] at this

/-- The interdot transition never goes backwards in voltage space. -/
theorem interdot_upwards {m t : ℝ} (hm : 0.21429 ≤ m ∧ m ≤ 0.54688) (ht : 0.58153916891 ≤ t ∧ t ≤ 1.396938844) :
    ¬ ((rotatePoint (-Real.pi / 4) (rotatePoint t (1, m))).1 < 0 ∨ (rotatePoint (-Real.pi / 4) (rotatePoint t (1, m))).2 < 0) := by
  rw [rotate_slope, rotate_neg]
  have hn := norm2_one_pos m
  have hk := kap_bounds.1
  obtain ⟨m1, m2⟩ := hm
  obtain ⟨t1, t2⟩ := ht
  norm_num at m1 m2 t1 t2 hk
  have a1 : 0.2048 ≤ Real.arctan m := by
    refine le_trans ?_ ((le_arctan (x := 0.21429) (by norm_num)).trans (Real.arctan_mono (by norm_num; linarith)))
    norm_num
  have a2 : Real.arctan m ≤ 0.54688 := (arctan_le (by linarith)).trans (by norm_num; linarith)
  norm_num at a1 a2
  have p1 := Real.pi_lt_d4
  have p2 := Real.pi_gt_d2
  norm_num at p1 p2
  set φ := Real.arctan m + t with hφ
  have hs1 : 0 ≤ Real.sin (φ + Real.pi / 4) := Real.sin_nonneg_of_nonneg_of_le_pi (by linarith) (by linarith)
  have hs2 : 0 ≤ Real.sin (φ - Real.pi / 4) := Real.sin_nonneg_of_nonneg_of_le_pi (by linarith) (by linarith)
  rw [Real.sin_add, Real.cos_pi_div_four, Real.sin_pi_div_four] at hs1
  rw [Real.sin_sub, Real.cos_pi_div_four, Real.sin_pi_div_four] at hs2
  push Not
  simp only
  have e1 : kap * (norm2 (1, m) * Real.cos φ) + kap * (norm2 (1, m) * Real.sin φ) =
      norm2 (1, m) * (Real.sin φ * (Real.sqrt 2 / 2) + Real.cos φ * (Real.sqrt 2 / 2)) := by unfold kap; ring
  have e2 : kap * (norm2 (1, m) * Real.sin φ) - kap * (norm2 (1, m) * Real.cos φ) =
      norm2 (1, m) * (Real.sin φ * (Real.sqrt 2 / 2) - Real.cos φ * (Real.sqrt 2 / 2)) := by unfold kap; ring
  rw [e1, e2]
  exact ⟨mul_nonneg hn.le hs1, mul_nonneg hn.le hs2⟩

theorem sampleInterdotDir_ends {rng : CfgRng τ} (hv : rng.Valid) {m : ℝ} (hm : 0.21429 ≤ m ∧ m ≤ 0.54688) :
    (sampleInterdotDir rng m).Ends := by
  have hb : Proc.Ensures (do
      let t ← Proc.call (rng.uniform 0.58153916891 1.396938844)
      pure (rotatePoint t (1, m))) fun v : ℝ × ℝ => ∃ t, (0.58153916891 ≤ t ∧ t ≤ 1.396938844) ∧ v = rotatePoint t (1, m) :=
    (ensures_uniform hv (by norm_num)).bind fun t ht => Proc.ensures_pure ⟨t, ht, rfl⟩
  refine (Proc.ends_until ((Proc.ends_call _).bind (ensures_uniform hv (by norm_num)) fun t _ => Proc.ends_pure _) hb ?_).bind
    (Proc.ensures_until hb) fun _ _ => Proc.ends_pure _
  rintro _ ⟨t, ht, rfl⟩
  exact interdot_upwards hm ht

/-- The sampler ends if the two loops that reject values end. -/
theorem sampleIdealCSD_ends {rng : CfgRng τ} (hv : rng.Valid) (lab : Labelling) (h1 : (sampleSlopes rng).Ends)
    (h2 : (sampleInterdotSize rng).Ends) : (sampleIdealCSD rng lab).Ends := by
  have hf : (sampleFirstTct rng).Ends := by
    refine h1.bind (sampleSlopes_spec hv) fun a ha => ?_
    refine (Proc.ends_call _).bind (ensures_uniform hv (by norm_num)) fun _ _ => ?_
    refine (Proc.ends_call _).bind (ensures_uniform hv (by norm_num)) fun _ _ => ?_
    refine (sampleInterdotDir_ends hv ha.1).bind (sampleInterdotDir_spec hv _) fun _ _ => ?_
    refine h2.bind (sampleInterdotSize_spec hv) fun _ _ => ?_
    refine (Proc.ends_call _).bind (ensures_uniform hv (by norm_num)) fun _ _ => ?_
    refine (Proc.ends_call _).bind (ensures_uniform hv (by norm_num)) fun _ _ => ?_
    exact Proc.ends_pure _
  refine hf.bind (sampleFirstTct_spec hv) ?_
  rintro ⟨p, v⟩ h s
  simp only at h
  obtain ⟨N, -, -, -, -, h4⟩ := addTcts_ladder h lab 121 0 (by norm_num) (by norm_num)
  rw [ladder_one] at h4
  exact ⟨_, Or.inl ⟨ladder p v (N + 1), s, ⟨_, (h4 _).2 rfl, rfl⟩, rfl⟩⟩

/-- A generator that always returns the centre of the interval. -/
noncomputable def midRng : CfgRng Unit where
  uniform a b := fun s => open Classical in if a ≤ b then (.ok ((a + b) / 2), s) else (.error .valueError, s)
  normal m _ := fun s => (.ok m, s)
  lognormal m _ := fun s => (.ok (Real.exp m), s)
  exponential c := fun s => (.ok |c|, s)
  choice a _ := fun s => (.ok a, s)

theorem midRng_valid : midRng.Valid where
  draws := by
    refine ⟨?_, ?_, ?_⟩
    · intro a b s v s' hab h
      simp only [midRng, if_pos hab] at h
      cases h
      constructor <;> linarith
    · intro m d s v s' h
      simp only [midRng] at h
      cases h
      exact Real.exp_pos _
    · intro c s v s' h
      simp only [midRng] at h
      cases h
      exact abs_nonneg _
  uniform_ok a b s h := ⟨(a + b) / 2, s, if_pos h⟩
  uniform_error a b s h := ⟨s, if_neg (not_le.2 h)⟩
  normal_ok m _ s _ := ⟨m, s, rfl⟩
  exponential_ok c s _ := ⟨|c|, s, rfl⟩
  choice_ok a _ s h := ⟨a, s, rfl, le_rfl, h⟩

theorem mid_uniform {a b : ℝ} (h : a ≤ b) : (Proc.call (midRng.uniform a b)).Ensures fun v => v = (a + b) / 2 := by
  intro s r hx
  refine ⟨_, s, ?_, rfl⟩
  rw [← hx]
  exact if_pos h

/-- The sampler ends if the intervals of the redrawn values return their centres. -/
theorem ends_of_centres {rng : CfgRng τ} (hv : rng.Valid) (lab : Labelling)
    (m1 : (Proc.call (rng.uniform 0.21429 0.54688)).Ensures fun v => v = (0.21429 + 0.54688) / 2)
    (m2 : (Proc.call (rng.uniform (-0.44) (-0.07692))).Ensures fun v => v = (-0.44 + -0.07692) / 2)
    (m3 : (Proc.call (rng.uniform 0.00261 0.00987)).Ensures fun v => v = (0.00261 + 0.00987) / 2)
    (m4 : (Proc.call (rng.uniform 0.00043 0.00814)).Ensures fun v => v = (0.00043 + 0.00814) / 2) : (sampleIdealCSD rng lab).Ends := by
  refine sampleIdealCSD_ends hv lab ?_ ?_
  · refine Proc.ends_until (Q := fun s => s = ((0.21429 + 0.54688) / 2, (-0.44 + -0.07692) / 2)) ?_ ?_ ?_
    · exact (Proc.ends_call _).bind m1 fun _ _ => (Proc.ends_call _).bind m2 fun _ _ => Proc.ends_pure _
    · exact m1.bind fun _ ha => m2.bind fun _ hb =>
        Proc.ensures_pure (by rw [ha, hb])
    · rintro _ rfl
      rw [leadAngle_eq (by norm_num) (by norm_num), show (-0.44 + -0.07692 : ℝ) / 2 = -(0.25846) by norm_num, Real.arctan_neg,
        sub_neg_eq_add]
      have a1 := le_arctan (x := (0.21429 + 0.54688) / 2) (by norm_num)
      have a2 := arctan_le (x := (0.21429 + 0.54688) / 2) (by norm_num)
      have b1 := le_arctan (x := 0.25846) (by norm_num)
      have b2 := arctan_le (x := 0.25846) (by norm_num)
      have a1' : (0.33 : ℝ) ≤ Real.arctan ((0.21429 + 0.54688) / 2) := le_trans (by norm_num) a1
      have b1' : (0.24 : ℝ) ≤ Real.arctan 0.25846 := le_trans (by norm_num) b1
      norm_num at a1' a2 b1' b2 ⊢
      constructor <;> linarith
  · unfold sampleInterdotSize
    refine (Proc.ends_until (Proc.ends_call _) m3 ?_).bind (Proc.ensures_until m3) ?_
    · rintro _ rfl
      norm_num
    · rintro _ ⟨rfl, -⟩
      refine (Proc.ends_call _).bind m4 ?_
      rintro _ rfl s
      refine ⟨_, .stop ?_⟩
      norm_num

theorem mid_ends (lab : Labelling) : (sampleIdealCSD midRng lab).Ends :=
  ends_of_centres midRng_valid lab (mid_uniform (by norm_num)) (mid_uniform (by norm_num)) (mid_uniform (by norm_num)) (mid_uniform (by norm_num))

end SimCATS
