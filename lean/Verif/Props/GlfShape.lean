import Verif.Lemmas.GlfShape
import Mathlib.Analysis.SpecialFunctions.Pow.Asymptotics
import Mathlib.Analysis.Convex.SpecificFunctions.Basic

/-!
C81: the parameters of the generalized logistic function act as documented.
-/

namespace SimCATS

open Filter Topology

/-- The two horizontal asymptotes for a positive growth rate: `asymptote_left` and
`asymptote_left + (asymptote_right - asymptote_left) / denominator_offset ** (1 / asymmetry)`. -/
theorem C81_asymptotes (g : GlfParams) (hB : 0 < g.B) (hQ : 0 < g.Q) (hC : 0 < g.C) (hn : 0 < g.nu) (off : ℝ) :
    Tendsto (glf g off) atBot (𝓝 g.A) ∧ Tendsto (glf g off) atTop (𝓝 (g.A + (g.K - g.A) / g.C ^ (1 / g.nu))) := by
  have hp : 0 < 1 / g.nu := by positivity
  constructor
  · have h1 : Tendsto (fun t => g.C + g.Q * Real.exp (-g.B * (t - off))) atBot atTop := by
      apply tendsto_atTop_add_const_left
      apply Tendsto.const_mul_atTop hQ
      apply Real.tendsto_exp_atTop.comp
      apply Tendsto.const_mul_atBot_of_neg (by linarith)
      exact tendsto_atBot_add_const_right _ _ tendsto_id
    have h2 := (tendsto_rpow_atTop hp).comp h1
    have h3 := (h2.const_div_atTop (g.K - g.A)).const_add g.A
    rw [add_zero] at h3
    exact h3
  · have h1 : Tendsto (fun t => g.C + g.Q * Real.exp (-g.B * (t - off))) atTop (𝓝 (g.C + g.Q * 0)) := by
      apply Tendsto.const_add
      apply Tendsto.const_mul
      apply Real.tendsto_exp_atBot.comp
      apply Tendsto.const_mul_atTop_of_neg (by linarith)
      exact tendsto_atTop_add_const_right _ _ tendsto_id
    rw [mul_zero, add_zero] at h1
    have h2 := h1.rpow_const (p := 1 / g.nu) (Or.inl hC.ne')
    exact (tendsto_const_nhds.div h2 (by positivity)).const_add g.A

/-- With `denominator_offset = 1` the function tends to `asymptote_right`. -/
theorem C81_right (g : GlfParams) (hB : 0 < g.B) (hQ : 0 < g.Q) (hC : g.C = 1) (hn : 0 < g.nu) (off : ℝ) :
    Tendsto (glf g off) atTop (𝓝 g.K) := by
  have := (C81_asymptotes g hB hQ (by rw [hC]; norm_num) hn off).2
  rw [hC, Real.one_rpow, div_one] at this
  simpa using this

/-- A negative growth rate mirrors the function at the vertical line through `offset`. -/
theorem C81_mirror (g : GlfParams) (off x : ℝ) : glf { g with B := -g.B } off (off + x) = glf g off (off - x) := by
  unfold glf
  simp only
  rw [show - -g.B * (off + x - off) = -g.B * (off - x - off) by ring]

/-- The offset shifts the function, to the right for positive values. -/
theorem C81_offset (g : GlfParams) (off d t : ℝ) : glf g (off + d) t = glf g off (t - d) := by
  unfold glf
  rw [show t - (off + d) = t - d - off by ring]

/-- The shape factor determines the value at the offset, and changes the function by a shift (so the asymptotes stay). -/
theorem C81_shape_factor (g : GlfParams) (Q : ℝ) (hB : g.B ≠ 0) (hQ : 0 < g.Q) (hQ' : 0 < Q) (off : ℝ) :
    glf { g with Q := Q } off off = g.A + (g.K - g.A) / (g.C + Q) ^ (1 / g.nu) ∧
    ∀ t, glf { g with Q := Q } off t = glf g off (t - Real.log (Q / g.Q) / g.B) := by
  refine ⟨by simp [glf], fun t => ?_⟩
  unfold glf
  simp only
  congr 3
  have : -g.B * (t - Real.log (Q / g.Q) / g.B - off) = -g.B * (t - off) + Real.log (Q / g.Q) := by
    field_simp
    ring
  rw [this, Real.exp_add, Real.exp_log (by positivity)]
  field_simp

/-- The place of maximum growth: it is unique, and lies at the fraction `(1 + asymmetry) ** (-1 / asymmetry)` of the height. -/
theorem C81_steepest (g : GlfParams) (hA : g.A ≠ g.K) (hB : g.B ≠ 0) (hQ : 0 < g.Q) (hC : 0 < g.C) (hn : 0 < g.nu) (off : ℝ) :
    ∃ s, (∀ t, t ≠ s → |deriv (glf g off) t| < |deriv (glf g off) s|) ∧
      glf g off s = g.A + (g.K - g.A) / g.C ^ (1 / g.nu) * (1 + g.nu) ^ (-(1 / g.nu)) := by
  have hnC : 0 < g.nu * g.C / g.Q := by positivity
  refine ⟨off - Real.log (g.nu * g.C / g.Q) / g.B, fun t ht => ?_, ?_⟩
  all_goals
    have hes : g.Q * Real.exp (-g.B * (off - Real.log (g.nu * g.C / g.Q) / g.B - off)) = g.nu * g.C := by
      rw [show -g.B * (off - Real.log (g.nu * g.C / g.Q) / g.B - off) = Real.log (g.nu * g.C / g.Q) by field_simp; ring,
        Real.exp_log hnC]
      field_simp
  · rw [(glf_hasDerivAt g hQ hC off t).deriv, (glf_hasDerivAt g hQ hC off _).deriv, hes]
    have hne : g.Q * Real.exp (-g.B * (t - off)) ≠ g.nu * g.C := by
      intro h
      apply ht
      have h1 : Real.exp (-g.B * (t - off)) = g.nu * g.C / g.Q := by rw [eq_div_iff hQ.ne', ← h]; ring
      have h2 := congrArg Real.log h1
      rw [Real.log_exp] at h2
      rw [← h2]
      field_simp
      ring
    generalize he : g.Q * Real.exp (-g.B * (t - off)) = e at *
    have hep : 0 < e := by rw [← he]; positivity
    rw [abs_mul, abs_mul, abs_mul ((g.K - g.A) * g.B / g.nu * (g.nu * g.C)), abs_mul ((g.K - g.A) * g.B / g.nu), mul_assoc, mul_assoc]
    apply mul_lt_mul_of_pos_left
    · rw [← abs_mul, ← abs_mul, abs_of_pos (by positivity), abs_of_pos (by positivity)]
      -- Bernoulli
      have hx : (g.C + e) / (g.C * (1 + g.nu)) ≠ 1 := by
        intro h
        apply hne
        rw [div_eq_one_iff_eq (by positivity)] at h
        linarith
      have hb := one_add_mul_self_lt_rpow_one_add (s := (g.C + e) / (g.C * (1 + g.nu)) - 1) (p := 1 + 1 / g.nu)
        (by have : 0 < (g.C + e) / (g.C * (1 + g.nu)) := by positivity
            linarith)
        (sub_ne_zero.2 hx) (by have : 0 < 1 / g.nu := by positivity
                               linarith)
      rw [add_sub_cancel, Real.div_rpow (by positivity) (by positivity)] at hb
      have hl : 1 + (1 + 1 / g.nu) * ((g.C + e) / (g.C * (1 + g.nu)) - 1) = e / (g.nu * g.C) := by
        field_simp
        ring
      rw [hl, lt_div_iff₀ (by positivity), div_mul_eq_mul_div, div_lt_iff₀ (by positivity)] at hb
      rw [Real.rpow_neg (by positivity), Real.rpow_neg (by positivity), ← div_eq_mul_inv, ← div_eq_mul_inv,
        div_lt_div_iff₀ (by positivity) (by positivity), show g.C + g.nu * g.C = g.C * (1 + g.nu) by ring]
      linarith
    · apply abs_pos.2
      exact div_ne_zero (mul_ne_zero (sub_ne_zero.2 hA.symm) hB) hn.ne'
  · unfold glf
    rw [hes, show g.C + g.nu * g.C = g.C * (1 + g.nu) by ring, Real.mul_rpow hC.le (by positivity), Real.rpow_neg (by positivity)]
    field_simp

/-- An asymmetry of 1 puts the place of maximum growth in the middle, larger values nearer to the right asymptote and smaller ones
nearer to the left asymptote. -/
theorem C81_asymmetry (n : ℝ) (hn : 0 < n) :
    (1 < n ↔ 1 / 2 < (1 + n) ^ (-(1 / n))) ∧ (n = 1 ↔ (1 + n) ^ (-(1 / n)) = 1 / 2) := by
  have key : (1 + n) ^ (-(1 / n)) = ((1 + n) ^ (1 / n))⁻¹ := Real.rpow_neg (by positivity) _
  have h2 : ((2 : ℝ) ^ n) ^ (1 / n) = 2 := by
    rw [← Real.rpow_mul (by norm_num), mul_one_div_cancel hn.ne', Real.rpow_one]
  have hp : 0 < 1 / n := by positivity
  have lt1 : 1 < n → 1 + n < 2 ^ n := by
    intro h
    have := one_add_mul_self_lt_rpow_one_add (s := 1) (by norm_num) (by norm_num) h
    norm_num at this
    linarith
  have lt2 : n < 1 → (2 : ℝ) ^ n < 1 + n := by
    intro h
    have := rpow_one_add_lt_one_add_mul_self (s := 1) (by norm_num) (by norm_num) hn h
    norm_num at this
    linarith
  have a1 : 1 < n → 1 / 2 < (1 + n) ^ (-(1 / n)) := by
    intro h
    rw [key, show (1 : ℝ) / 2 = 2⁻¹ by norm_num, inv_lt_inv₀ (by norm_num) (by positivity)]
    calc (1 + n) ^ (1 / n) < ((2 : ℝ) ^ n) ^ (1 / n) := Real.rpow_lt_rpow (by positivity) (lt1 h) hp
      _ = 2 := h2
  have a2 : n < 1 → (1 + n) ^ (-(1 / n)) < 1 / 2 := by
    intro h
    rw [key, show (1 : ℝ) / 2 = 2⁻¹ by norm_num, inv_lt_inv₀ (by positivity) (by norm_num)]
    calc (2 : ℝ) = ((2 : ℝ) ^ n) ^ (1 / n) := h2.symm
      _ < (1 + n) ^ (1 / n) := Real.rpow_lt_rpow (by positivity) (lt2 h) hp
  have a3 : n = 1 → (1 + n) ^ (-(1 / n)) = 1 / 2 := by
    rintro rfl
    norm_num [Real.rpow_neg_one]
  refine ⟨⟨a1, fun h => ?_⟩, a3, fun h => ?_⟩
  · rcases lt_trichotomy n 1 with h' | h' | h'
    · have := a2 h'; linarith
    · have := a3 h'; linarith
    · exact h'
  · rcases lt_trichotomy n 1 with h' | h' | h'
    · have := a2 h'; linarith
    · exact h'
    · have := a1 h'; linarith

/-- The constructors reject an asymmetry that is not positive, and a number of parameters that is not a multiple of seven. -/
theorem C81_checks (b : BarrierGlf) (m : MultiBarrier) (nu : ℝ) : (b.mk? = .error .valueError ↔ b.g.nu ≤ 0) ∧
    (riseAsymmetry nu = .error .valueError ↔ nu ≤ 0) ∧ (m.mk? = .error .valueError ↔ ¬ 7 ∣ m.params.length) := by
  refine ⟨?_, ?_, ?_⟩
  · unfold BarrierGlf.mk?; split_ifs <;> simp_all
  · unfold riseAsymmetry; split_ifs <;> simp_all
  · unfold MultiBarrier.mk?
    rw [Nat.dvd_iff_mod_eq_zero]
    split_ifs <;> simp_all

/-- A multi-GLF barrier that was created is, at every potential, the sum of the functions given by its groups of seven parameters. -/
theorem C81_multi (m m' : MultiBarrier) (hm : m.mk? = .ok m') (t : ℝ) : m' = m ∧
    m'.getValue t = .ok ((List.range (m.params.length / 7)).map fun k =>
      let x := fun i => m.params.getD (7 * k + i) 0
      glf ⟨x 0, x 1, x 2, x 3, x 4, x 5⟩ (x 6) t).sum := by
  unfold MultiBarrier.mk? at hm
  by_cases h : m.params.length % 7 ≠ 0
  · rw [if_pos h] at hm; exact nomatch hm
  · rw [if_neg h] at hm
    cases hm
    refine ⟨rfl, ?_⟩
    unfold MultiBarrier.getValue multiGlf
    rw [if_neg h, sumGlf_groups t (m.params.length / 7) _ (by omega)]
    rfl

/-- A GLF with all parameters in the documented range. -/
example : let g : GlfParams := ⟨0.1, 2, 30, 0.5, 3, 2⟩
    0 < g.B ∧ 0 < g.Q ∧ 0 < g.C ∧ 0 < g.nu ∧ g.A ≠ g.K ∧ g.B ≠ 0 := by
  norm_num

/-- A barrier that is the sum of two GLFs. -/
example : ∃ m', (MultiBarrier.mk 0 1 [0, 1, 30, 1, 1, 1, 0, 0, 2, 10, 0.5, 1, 1, 0.1]).mk? = .ok m' := ⟨_, rfl⟩

end SimCATS
