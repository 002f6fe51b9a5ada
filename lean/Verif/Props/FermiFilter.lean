import Verif.Lemmas.FermiFilter

/-! C94: `fermi_filter1d` is the documented weighted average, in every mode and along every axis. -/

namespace SimCATS

open Spec

/-! ### The documented filter -/

/-- C94: every line has exactly one extension in every documented mode. -/
theorem C94_extension (mode : String) (hm : KnownMode mode) (cval : ℝ) (n : ℕ) (hn : 0 < n) (f : Fin n → ℝ) : ∃! F, Extends mode cval f F := by
  obtain ⟨m, hm⟩ := (parse_iff mode).2 hm
  exact ⟨_, extended_extends hm cval hn f, fun G hG => extends_eq hm hn hG⟩

/-- C94, lines: with a nonzero width, a nonnegative radius, one of the documented modes and one of the axes of the line, the filter returns
at each pixel the average of the extended line with the normalised weights of the derivative of the Fermi-Dirac distribution. -/
theorem C94_line (n : ℕ) (f : Fin n → ℝ) (σ : ℝ) (hσ : σ ≠ 0) (axis : ℤ) (ha : axis = 0 ∨ axis = -1) (mode : String) (hm : KnownMode mode)
    (cval : ℝ) (radius : Option ℤ) (R : ℕ) (hR : RadiusOf σ radius R) :
    ∃ g, fermiFilter (.d1 n f) σ axis mode cval radius = .ok (some (.d1 n g)) ∧ ∀ F, Extends mode cval f F →
      ∀ p : Fin n, g p = ∑ k ∈ Finset.Icc (-(R : ℤ)) R, fermiWeight σ R k * F (((p : ℕ) : ℤ) - k) := by
  obtain ⟨m, hm⟩ := (parse_iff mode).2 hm
  obtain ⟨a, ha⟩ := normAxis_some (ndim := (Scan.d1 n f).shape.length) (axis := axis) (by
    simp only [Scan.shape, List.length_cons, List.length_nil]
    omega)
  refine ⟨_, fermi_run hσ ha hm cval hR, fun F hF p => ?_⟩
  rw [extends_eq hm p.pos hF]
  rfl

/-- Non-vacuity: a line of three pixels in the mode 'mirror', with the weights of the radius 1. -/
example : KnownMode "mirror" ∧ RadiusOf 0.3 none 1 ∧ Extends "mirror" 0 ![5, 6, 7]
    (fun k => if k % 4 = 0 then 5 else if k % 4 = 2 then 7 else 6) := by
  refine ⟨Or.inr (Or.inr (Or.inr (Or.inr rfl))), ⟨?_, fun h => ?_⟩, ?_⟩
  · norm_num [abs_le]
  · norm_num [abs_of_pos] at h
  · constructor
    · intro i
      fin_cases i <;> norm_num
    · intro h
      exact absurd h (by unfold ReflectMode; decide)
    · intro h
      exact absurd h (by unfold ConstantMode; decide)
    · intro h
      exact absurd h (by decide)
    · intro _ k
      have h4 : k % 4 = 0 ∨ k % 4 = 1 ∨ k % 4 = 2 ∨ k % 4 = 3 := by omega
      refine ⟨?_, ?_, by omega⟩
      · rcases h4 with h | h | h | h
        · rw [if_pos (show -k % 4 = 0 by omega), if_pos h]
        · rw [if_neg (show ¬ -k % 4 = 0 by omega), if_neg (show ¬ -k % 4 = 2 by omega), if_neg (by omega), if_neg (by omega)]
        · rw [if_neg (show ¬ -k % 4 = 0 by omega), if_pos (show -k % 4 = 2 by omega), if_neg (by omega), if_pos h]
        · rw [if_neg (show ¬ -k % 4 = 0 by omega), if_neg (show ¬ -k % 4 = 2 by omega), if_neg (by omega), if_neg (by omega)]
      · generalize hj : 2 * (((3 : ℕ) : ℤ) - 1) - k = j
        push_cast at hj
        rcases h4 with h | h | h | h
        · rw [if_pos (show j % 4 = 0 by omega), if_pos h]
        · rw [if_neg (show ¬ j % 4 = 0 by omega), if_neg (show ¬ j % 4 = 2 by omega), if_neg (by omega), if_neg (by omega)]
        · rw [if_neg (show ¬ j % 4 = 0 by omega), if_pos (show j % 4 = 2 by omega), if_neg (by omega), if_pos h]
        · rw [if_neg (show ¬ j % 4 = 0 by omega), if_neg (show ¬ j % 4 = 2 by omega), if_neg (by omega), if_neg (by omega)]
    · intro h
      exact absurd h (by unfold WrapMode; decide)

/-- C94, images: the filter along the last axis filters each row, the filter along the first axis each column, as a line. -/
theorem C94_image (r c : ℕ) (f : Fin r → Fin c → ℝ) (σ : ℝ) (mode : String) (cval : ℝ) (radius : Option ℤ) (g : Fin r → Fin c → ℝ) (axis : ℤ) :
    ((axis = 1 ∨ axis = -1) → fermiFilter (.d2 r c f) σ axis mode cval radius = .ok (some (.d2 r c g)) →
      ∀ i, fermiFilter (.d1 c (f i)) σ (-1) mode cval radius = .ok (some (.d1 c (g i)))) ∧
    ((axis = 0 ∨ axis = -2) → fermiFilter (.d2 r c f) σ axis mode cval radius = .ok (some (.d2 r c g)) →
      ∀ j, fermiFilter (.d1 r fun i => f i j) σ (-1) mode cval radius = .ok (some (.d1 r fun i => g i j))) := by
  constructor
  · intro ha h i
    obtain ⟨R, a, m, hr, hσ, hna, hm, hy⟩ := fermi_inv h
    rw [fermi_run hσ (a := 0) rfl hm cval hr]
    have : a = 1 := by
      rcases ha with rfl | rfl <;> · cases hna; rfl
    subst this
    simp only [filterAlong, one_ne_zero, if_false, Scan.d2.injEq, heq_eq_eq, true_and] at hy
    rw [hy]
    rfl
  · intro ha h j
    obtain ⟨R, a, m, hr, hσ, hna, hm, hy⟩ := fermi_inv h
    rw [fermi_run hσ (a := 0) rfl hm cval hr]
    have : a = 0 := by
      rcases ha with rfl | rfl <;> · cases hna; rfl
    subst this
    simp only [filterAlong, if_true, Scan.d2.injEq, heq_eq_eq, true_and] at hy
    rw [hy]
    rfl

/-- C94, decision: an array of the shape of the input is returned exactly if the radius is not negative, the array has the axis, the mode
is a documented one and the width is not 0.  A negative radius (by default: a width below -1/8) and an unknown mode raise `RuntimeError`, an
axis that the array does not have raises `AxisError`, and the width 0 gives NaN. -/
theorem C94_decision (x : Scan ℝ) (σ : ℝ) (axis : ℤ) (mode : String) (cval : ℝ) (radius : Option ℤ) (r : ℤ) (hr : RadiusOf σ radius r) :
    (r < 0 → fermiFilter x σ axis mode cval radius = .error .runtimeError) ∧
    (0 ≤ r → ¬ (-(x.shape.length : ℤ) ≤ axis ∧ axis < x.shape.length) → fermiFilter x σ axis mode cval radius = .error .axisError) ∧
    (0 ≤ r → -(x.shape.length : ℤ) ≤ axis ∧ axis < x.shape.length → ¬ KnownMode mode →
      fermiFilter x σ axis mode cval radius = .error .runtimeError) ∧
    (0 ≤ r → -(x.shape.length : ℤ) ≤ axis ∧ axis < x.shape.length → KnownMode mode → σ = 0 →
      fermiFilter x σ axis mode cval radius = .ok none) ∧
    (0 ≤ r → -(x.shape.length : ℤ) ≤ axis ∧ axis < x.shape.length → KnownMode mode → σ ≠ 0 →
      ∃ y, fermiFilter x σ axis mode cval radius = .ok (some y) ∧ y.shape = x.shape) := by
  refine ⟨fun h => ?_, fun h ha => ?_, fun h ha hm => ?_, fun h ha hm hσ => ?_, fun h ha hm hσ => ?_⟩
  · unfold fermiFilter
    rw [fermiFilterKernel_eq hr, if_pos h]
  · unfold fermiFilter
    rw [fermiFilterKernel_eq hr, if_neg (by omega), normAxis_none ha]
    split_ifs <;> rfl
  · obtain ⟨a, ha⟩ := normAxis_some ha
    unfold fermiFilter
    rw [fermiFilterKernel_eq hr, if_neg (by omega), ha, parse_none hm]
    split_ifs <;> rfl
  · obtain ⟨a, ha⟩ := normAxis_some ha
    obtain ⟨m, hm⟩ := (parse_iff mode).2 hm
    unfold fermiFilter
    rw [fermiFilterKernel_eq hr, if_neg (by omega), if_pos hσ, ha, hm]
    rfl
  · obtain ⟨a, ha⟩ := normAxis_some ha
    obtain ⟨m, hm⟩ := (parse_iff mode).2 hm
    refine ⟨_, fermi_run hσ ha hm cval (R := r.toNat) (by rwa [Int.toNat_of_nonneg h]), ?_⟩
    cases x with
    | d0 v => rfl
    | d1 n f => rfl
    | d2 r c f =>
      unfold filterAlong
      split_ifs <;> rfl

/-- Non-vacuity: an image filtered along its first axis, and each of the errors. -/
example (f : Fin 4 → Fin 7 → ℝ) :
    (∃ y, fermiFilter (.d2 4 7 f) 1.2 0 "wrap" 0 none = .ok (some y) ∧ y.shape = [4, 7]) ∧
    fermiFilter (.d2 4 7 f) (-1.2) 0 "wrap" 0 none = .error .runtimeError ∧
    fermiFilter (.d2 4 7 f) 1.2 2 "wrap" 0 none = .error .axisError ∧
    fermiFilter (.d2 4 7 f) 1.2 0 "wrapped" 0 none = .error .runtimeError ∧ fermiFilter (.d2 4 7 f) 0 0 "wrap" 0 none = .ok none := by
  have hR : RadiusOf 1.2 none 5 := ⟨by rw [abs_le]; norm_num, fun h => by rw [abs_of_nonpos (by norm_num)] at h; norm_num at h⟩
  have hN : RadiusOf (-1.2) none (-5) := ⟨by rw [abs_le]; norm_num, fun h => by rw [abs_of_nonneg (by norm_num)] at h; norm_num at h⟩
  have h0 : RadiusOf 0 none 0 := ⟨by norm_num, fun h => by norm_num at h⟩
  have hw : KnownMode "wrap" := Or.inr (Or.inr (Or.inl (Or.inl rfl)))
  refine ⟨?_, ?_, ?_, ?_, ?_⟩
  · exact (C94_decision (.d2 4 7 f) 1.2 0 "wrap" 0 none 5 hR).2.2.2.2 (by norm_num) ⟨by simp [Scan.shape], by simp [Scan.shape]⟩ hw (by norm_num)
  · exact (C94_decision (.d2 4 7 f) (-1.2) 0 "wrap" 0 none _ hN).1 (by norm_num)
  · exact (C94_decision (.d2 4 7 f) 1.2 2 "wrap" 0 none 5 hR).2.1 (by norm_num) (by simp [Scan.shape])
  · exact (C94_decision (.d2 4 7 f) 1.2 0 "wrapped" 0 none 5 hR).2.2.1 (by norm_num) ⟨by simp [Scan.shape], by simp [Scan.shape]⟩
      (by unfold KnownMode ReflectMode ConstantMode WrapMode; decide)
  · exact (C94_decision (.d2 4 7 f) 0 0 "wrap" 0 none 0 h0).2.2.2.1 (by norm_num) ⟨by simp [Scan.shape], by simp [Scan.shape]⟩ hw rfl

/-- The default radius is negative exactly for widths below -1/8. -/
theorem C94_default_radius (σ : ℝ) (r : ℤ) (hr : RadiusOf σ none r) : r < 0 ↔ σ < -1 / 8 := by
  obtain ⟨h1, h2⟩ := hr
  have := abs_le.1 h1
  constructor
  · intro h
    have h' : (r : ℝ) ≤ -1 := by
      have : r ≤ -1 := by omega
      exact_mod_cast this
    by_contra hc
    push Not at hc
    have e : 4 * σ - r = 1 / 2 := by linarith
    have hev := h2 (by rw [e]; norm_num)
    have hr1 : (r : ℝ) = -1 := by linarith
    have hr2 : r = -1 := by exact_mod_cast hr1
    rw [hr2] at hev
    exact absurd hev (by decide)
  · intro h
    by_contra hc
    push Not at hc
    have h' : (0 : ℝ) ≤ r := by exact_mod_cast hc
    linarith

/-! ### An averaging filter -/

section average

variable {n : ℕ} {f g : Fin n → ℝ} {σ : ℝ} {axis : ℤ} {mode : String} {cval : ℝ} {radius : Option ℤ}
  (h : fermiFilter (.d1 n f) σ axis mode cval radius = .ok (some (.d1 n g)))

include h

/-- C94: the filtered values are between the smallest and the largest value of the line (and the constant of the modes that fill with it). -/
theorem C94_range (lo hi : ℝ) (hf : ∀ q, lo ≤ f q ∧ f q ≤ hi) (hc : ConstantMode mode → lo ≤ cval ∧ cval ≤ hi) (p : Fin n) :
    lo ≤ g p ∧ g p ≤ hi := by
  obtain ⟨R, m, -, -, hm, -, hg⟩ := fermi_inv_line h
  have hb : ∀ k, lo ≤ extended m cval p.pos f k ∧ extended m cval p.pos f k ≤ hi := by
    intro k
    rcases extended_mem m cval p.pos f k with ⟨q, e⟩ | ⟨rfl, e⟩
    · rw [e]
      exact hf q
    · rw [e]
      exact hc (parse_constant_iff hm)
  rw [hg]
  have e1 : lo = ∑ k ∈ Finset.Icc (-(R : ℤ)) R, fermiWeight σ R k * lo := by rw [← Finset.sum_mul, weights_sum, one_mul]
  have e2 : hi = ∑ k ∈ Finset.Icc (-(R : ℤ)) R, fermiWeight σ R k * hi := by rw [← Finset.sum_mul, weights_sum, one_mul]
  constructor
  · rw [e1]
    exact Finset.sum_le_sum fun k _ => mul_le_mul_of_nonneg_left (hb _).1 (weights_nonneg σ R k)
  · rw [e2]
    exact Finset.sum_le_sum fun k _ => mul_le_mul_of_nonneg_left (hb _).2 (weights_nonneg σ R k)

/-- C94: constant lines are not changed (if the constant of the modes that fill with it is the same). -/
theorem C94_constant (a : ℝ) (hf : ∀ q, f q = a) (hc : ConstantMode mode → cval = a) : g = f := by
  funext p
  have := C94_range h a a (fun q => by rw [hf q]; exact ⟨le_refl _, le_refl _⟩) (fun hm => by rw [hc hm]; exact ⟨le_refl _, le_refl _⟩) p
  rw [hf p]
  exact le_antisymm this.2 this.1

/-- C94: the sum of the values of the line is kept if the line is reflected about the edge of its last pixel or wrapped around. -/
theorem C94_sum (hmode : ReflectMode mode ∨ WrapMode mode) : ∑ p, g p = ∑ p, f p := by
  obtain ⟨R, m, -, -, hm, -, hg⟩ := fermi_inv_line h
  rcases hmode with h' | h'
  · rw [parse_reflect h'] at hm
    cases hm
    have e : ∀ p, g p = average ((⟨R, fermiWeight σ R⟩ : Kernel).mat n) f p := by
      intro p
      rw [hg, ← convolve_eq]
      rfl
    have hA := mat_averaging (n := n) (fermiWeight_weights σ R)
    simp only [e, average]
    rw [Finset.sum_comm]
    refine Finset.sum_congr rfl fun q _ => ?_
    rw [← Finset.sum_mul, hA.cols, one_mul]
  · rw [parse_wrap h'] at hm
    cases hm
    simp only [hg]
    rw [Finset.sum_comm]
    have key : ∀ k : ℤ, ∑ p : Fin n, extended .wrap cval p.pos f (((p : ℕ) : ℤ) - k) = ∑ p, f p := by
      intro k
      let φ : Fin n → Fin n := fun p => ⟨wrapIdx n (((p : ℕ) : ℤ) - k), by
        have := p.pos
        have h1 := Int.emod_nonneg (((p : ℕ) : ℤ) - k) (show (n : ℤ) ≠ 0 by omega)
        have h2 := Int.emod_lt_of_pos (((p : ℕ) : ℤ) - k) (show (0 : ℤ) < n by omega)
        unfold wrapIdx
        omega⟩
      have hinj : Function.Injective φ := by
        intro p q hpq
        have hpos := p.pos
        have e := congrArg Fin.val hpq
        simp only [φ, wrapIdx] at e
        have p1 := Int.emod_nonneg (((p : ℕ) : ℤ) - k) (show (n : ℤ) ≠ 0 by omega)
        have q1 := Int.emod_nonneg (((q : ℕ) : ℤ) - k) (show (n : ℤ) ≠ 0 by omega)
        have e' : (((p : ℕ) : ℤ) - k) % n = (((q : ℕ) : ℤ) - k) % n := by omega
        rw [Int.emod_eq_emod_iff_emod_sub_eq_zero] at e'
        have hd := Int.dvd_of_emod_eq_zero e'
        rw [show ((p : ℕ) : ℤ) - k - (((q : ℕ) : ℤ) - k) = (p : ℕ) - (q : ℕ) by ring] at hd
        have hz := Int.eq_zero_of_abs_lt_dvd hd (by rw [abs_lt]; omega)
        ext
        omega
      have hbij := Finite.injective_iff_bijective.1 hinj
      exact hbij.sum_comp f
    calc ∑ k ∈ Finset.Icc (-(R : ℤ)) R, ∑ p : Fin n, fermiWeight σ R k * extended .wrap cval p.pos f (((p : ℕ) : ℤ) - k)
        = ∑ k ∈ Finset.Icc (-(R : ℤ)) R, fermiWeight σ R k * ∑ p, f p := by
          refine Finset.sum_congr rfl fun k _ => ?_
          rw [← Finset.mul_sum, key]
      _ = ∑ p, f p := by rw [← Finset.sum_mul, weights_sum, one_mul]

/-- C94: a radius of 0 (by default: a width of at most 1/8) changes nothing. -/
theorem C94_identity (hR : RadiusOf σ radius 0) : g = f := by
  obtain ⟨R, m, hr, -, hm, -, hg⟩ := fermi_inv_line h
  have e : (R : ℤ) = 0 := by
    cases radius with
    | none => exact rounds_unique hr hR
    | some r => exact (show r = R from hr).symm.trans hR
  have e : R = 0 := by omega
  subst e
  funext p
  have hs := weights_sum σ 0
  rw [hg]
  simp only [Nat.cast_zero, neg_zero, Finset.Icc_self, Finset.sum_singleton, sub_zero] at hs ⊢
  rw [hs, one_mul]
  exact (extended_extends hm cval p.pos f).inside p

end average

/-- C94: the filter is monotone: larger lines (and constants) have larger filtered lines. -/
theorem C94_monotone (n : ℕ) (f f' g g' : Fin n → ℝ) (σ : ℝ) (axis : ℤ) (mode : String) (cval cval' : ℝ) (radius : Option ℤ)
    (h : fermiFilter (.d1 n f) σ axis mode cval radius = .ok (some (.d1 n g)))
    (h' : fermiFilter (.d1 n f') σ axis mode cval' radius = .ok (some (.d1 n g'))) (hf : ∀ q, f q ≤ f' q) (hc : cval ≤ cval') (p : Fin n) :
    g p ≤ g' p := by
  obtain ⟨R, m, hr, -, hm, -, hg⟩ := fermi_inv_line h
  obtain ⟨R', m', hr', -, hm', -, hg'⟩ := fermi_inv_line h'
  rw [hm] at hm'
  cases hm'
  have e : (R' : ℤ) = R := by
    cases radius with
    | none => exact rounds_unique hr' hr
    | some r => exact (show r = R' from hr').symm.trans hr
  have e : R' = R := by omega
  subst e
  rw [hg, hg']
  refine Finset.sum_le_sum fun k _ => mul_le_mul_of_nonneg_left ?_ (weights_nonneg σ _ k)
  cases m with
  | constant =>
    simp only [extended]
    split_ifs
    · exact hf _
    · exact hc
  | reflect => exact hf _
  | nearest => exact hf _
  | mirror => exact hf _
  | wrap => exact hf _

/-- C94: the filter is linear. -/
theorem C94_linear (n : ℕ) (f f' g g' : Fin n → ℝ) (σ : ℝ) (axis : ℤ) (mode : String) (cval cval' a b : ℝ) (radius : Option ℤ)
    (h : fermiFilter (.d1 n f) σ axis mode cval radius = .ok (some (.d1 n g)))
    (h' : fermiFilter (.d1 n f') σ axis mode cval' radius = .ok (some (.d1 n g'))) :
    fermiFilter (.d1 n fun q => a * f q + b * f' q) σ axis mode (a * cval + b * cval') radius = .ok (some (.d1 n fun p => a * g p + b * g' p)) := by
  obtain ⟨R, m, hr, hσ, hm, hax, hg⟩ := fermi_inv_line h
  obtain ⟨R', m', hr', -, hm', -, hg'⟩ := fermi_inv_line h'
  rw [hm] at hm'
  cases hm'
  have e : (R' : ℤ) = R := by
    cases radius with
    | none => exact rounds_unique hr' hr
    | some r => exact (show r = R' from hr').symm.trans hr
  have e : R' = R := by omega
  subst e
  obtain ⟨c, hc⟩ := normAxis_some (ndim := (Scan.d1 n fun q => a * f q + b * f' q).shape.length) (axis := axis) (by
    simp only [Scan.shape, List.length_cons, List.length_nil]
    omega)
  rw [fermi_run hσ hc hm _ hr]
  simp only [filterAlong]
  congr 2
  simp only [Scan.d1.injEq, heq_eq_eq, true_and]
  funext p
  rw [hg, hg', Finset.mul_sum, Finset.mul_sum, ← Finset.sum_add_distrib]
  unfold filterLine
  refine Finset.sum_congr rfl fun k _ => ?_
  have : extended m (a * cval + b * cval') p.pos (fun q => a * f q + b * f' q) (p - k) =
      a * extended m cval p.pos f (p - k) + b * extended m cval' p.pos f' (p - k) := by
    cases m with
    | constant =>
      simp only [extended]
      split_ifs <;> rfl
    | reflect => rfl
    | nearest => rfl
    | mirror => rfl
    | wrap => rfl
  rw [this]
  ring

/-- C94: filtering a reversed line gives the reversed filtered line, in every mode. -/
theorem C94_reverse (n : ℕ) (f g : Fin n → ℝ) (σ : ℝ) (axis : ℤ) (mode : String) (cval : ℝ) (radius : Option ℤ)
    (h : fermiFilter (.d1 n f) σ axis mode cval radius = .ok (some (.d1 n g))) :
    fermiFilter (.d1 n fun q => f q.rev) σ axis mode cval radius = .ok (some (.d1 n fun p => g p.rev)) := by
  obtain ⟨R, m, hr, hσ, hm, hax, hg⟩ := fermi_inv_line h
  obtain ⟨c, hc⟩ := normAxis_some (ndim := (Scan.d1 n fun q => f q.rev).shape.length) (axis := axis) (by
    simp only [Scan.shape, List.length_cons, List.length_nil]
    omega)
  rw [fermi_run hσ hc hm _ hr]
  simp only [filterAlong]
  congr 2
  simp only [Scan.d1.injEq, heq_eq_eq, true_and]
  funext p
  rw [hg]
  have hn := p.pos
  have hF := extended_extends hm cval hn f
  have hrev : Extends mode cval (fun q => f q.rev) (fun k => extended m cval hn f (n - 1 - k)) := by
    constructor
    · intro i
      rw [← hF.inside]
      congr 1
      rw [Fin.val_rev]
      omega
    · intro hr k
      have h1 := hF.reflect hr (n - 1 - k)
      constructor
      · rw [← h1.2]
        congr 1
        ring
      · rw [← h1.1]
        congr 1
        ring
    · intro hr k hk
      exact hF.constant hr _ (by omega)
    · intro hr
      obtain ⟨h1, h2⟩ := hF.nearest hr
      constructor
      · intro k hk
        simp only [sub_zero]
        exact h2 _ (by omega)
      · intro k hk
        simp only [sub_self]
        exact h1 _ (by omega)
    · intro hr k
      have h1 := hF.mirror hr (n - 1 - k)
      refine ⟨?_, ?_, fun hn1 => ?_⟩
      · rw [← h1.2.1]
        congr 1
        ring
      · rw [← h1.1]
        congr 1
        ring
      · rw [h1.2.2 hn1, (hF.mirror hr (n - 1 - 0)).2.2 hn1]
    · intro hr k
      have h1 := hF.wrap hr (n - 1 - (k + n))
      rw [← h1]
      congr 1
      ring
  have e := extends_eq hm hn hrev
  unfold filterLine
  rw [← e]
  rw [← sum_neg_Icc R fun k => (⟨R, fermiWeight σ R⟩ : Kernel).w k * extended m cval hn f (n - 1 - (((p : ℕ) : ℤ) - k))]
  refine Finset.sum_congr rfl fun k _ => ?_
  simp only
  rw [weights_symm]
  congr 2
  rw [Fin.val_rev]
  omega

/-- C94: with a given radius, the sign of the width does not matter. -/
theorem C94_sign (x : Scan ℝ) (σ : ℝ) (axis : ℤ) (mode : String) (cval : ℝ) (r : ℤ) :
    fermiFilter x (-σ) axis mode cval (some r) = fermiFilter x σ axis mode cval (some r) := by
  unfold fermiFilter
  rw [fermiFilterKernel_eq (show RadiusOf (-σ) (some r) r from rfl), fermiFilterKernel_eq (show RadiusOf σ (some r) r from rfl)]
  have : fermiWeight (-σ) r.toNat = fermiWeight σ r.toNat := by
    funext k
    unfold fermiWeight
    simp only [div_neg, Real.cosh_neg]
  rw [this]
  simp only [neg_eq_zero]

/-- C94: a step in a line that is longer than the kernel on both sides stays a monotone step: it has its old values further from the step
than the radius, grows from pixel to pixel, and is symmetric about the step. -/
theorem C94_step (n : ℕ) (f g : Fin n → ℝ) (σ : ℝ) (axis : ℤ) (mode : String) (cval : ℝ) (radius : Option ℤ) (R s : ℕ)
    (hmode : ReflectMode mode ∨ mode = "nearest") (hR : RadiusOf σ radius R) (h1 : R ≤ s) (h2 : s + R ≤ n) (h0 : 0 < s) (h3 : s < n) (a b : ℝ)
    (hab : a ≤ b) (hf : ∀ q : Fin n, f q = if (q : ℕ) < s then a else b)
    (h : fermiFilter (.d1 n f) σ axis mode cval radius = .ok (some (.d1 n g))) :
    (∀ p : Fin n, (p : ℕ) + R < s → g p = a) ∧ (∀ p : Fin n, s + R ≤ p → g p = b) ∧ (∀ p q : Fin n, p ≤ q → g p ≤ g q) ∧
      ∀ p q : Fin n, (p : ℕ) + q + 1 = 2 * s → g p + g q = a + b := by
  obtain ⟨R', m, hr, -, hm, -, hg⟩ := fermi_inv_line h
  have e : (R' : ℤ) = R := by
    cases radius with
    | none => exact rounds_unique hr hR
    | some r => exact (show r = R' from hr).symm.trans hR
  have e : R' = R := by omega
  subst e
  have hn : 0 < n := by omega
  have hF := extended_extends hm cval hn f
  generalize hE : extended m cval hn f = F at hF
  have hin : ∀ k : ℤ, 0 ≤ k → k < n → F k = if k < s then a else b := by
    intro k k1 k2
    have := hF.inside ⟨k.toNat, by omega⟩
    simp only [Int.toNat_of_nonneg k1] at this
    rw [this, hf]
    refine if_congr ?_ rfl rfl
    simp only
    omega
  have hval : ∀ k : ℤ, -(R' : ℤ) ≤ k → k < n + R' → F k = if k < s then a else b := by
    intro k k1 k2
    by_cases c1 : k < 0
    · rw [if_pos (by omega)]
      rcases hmode with h' | h'
      · rw [← (hF.reflect h' k).1, hin _ (by omega) (by omega), if_pos (by omega)]
      · rw [(hF.nearest h').1 k c1, hin _ (by omega) (by omega), if_pos (by omega)]
    · by_cases c2 : n ≤ k
      · rw [if_neg (by omega)]
        rcases hmode with h' | h'
        · rw [← (hF.reflect h' k).2, hin _ (by omega) (by omega), if_neg (by omega)]
        · rw [(hF.nearest h').2 k c2, hin _ (by omega) (by omega), if_neg (by omega)]
      · exact hin k (by omega) (by omega)
  have hg' : ∀ p : Fin n, g p = ∑ k ∈ Finset.Icc (-(R' : ℤ)) R', fermiWeight σ R' k * F (((p : ℕ) : ℤ) - k) := by
    intro p
    rw [hg, ← hE]
  refine ⟨fun p hp => ?_, fun p hp => ?_, fun p q hpq => ?_, fun p q hpq => ?_⟩
  · rw [hg']
    calc ∑ k ∈ Finset.Icc (-(R' : ℤ)) R', fermiWeight σ R' k * F (((p : ℕ) : ℤ) - k)
        = ∑ k ∈ Finset.Icc (-(R' : ℤ)) R', fermiWeight σ R' k * a := by
          refine Finset.sum_congr rfl fun k hk => ?_
          rw [Finset.mem_Icc] at hk
          rw [hval _ (by omega) (by omega), if_pos (by omega)]
      _ = a := by rw [← Finset.sum_mul, weights_sum, one_mul]
  · rw [hg']
    calc ∑ k ∈ Finset.Icc (-(R' : ℤ)) R', fermiWeight σ R' k * F (((p : ℕ) : ℤ) - k)
        = ∑ k ∈ Finset.Icc (-(R' : ℤ)) R', fermiWeight σ R' k * b := by
          refine Finset.sum_congr rfl fun k hk => ?_
          rw [Finset.mem_Icc] at hk
          rw [hval _ (by omega) (by omega), if_neg (by omega)]
      _ = b := by rw [← Finset.sum_mul, weights_sum, one_mul]
  · rw [hg', hg']
    refine Finset.sum_le_sum fun k hk => mul_le_mul_of_nonneg_left ?_ (weights_nonneg σ R' k)
    rw [Finset.mem_Icc] at hk
    have hpq' : (p : ℕ) ≤ q := hpq
    rw [hval _ (by omega) (by omega), hval _ (by omega) (by omega)]
    split_ifs <;> first | exact le_refl _ | exact hab | omega
  · rw [hg', hg', ← sum_neg_Icc R' fun k => fermiWeight σ R' k * F (((q : ℕ) : ℤ) - k), ← Finset.sum_add_distrib]
    calc _ = ∑ k ∈ Finset.Icc (-(R' : ℤ)) R', fermiWeight σ R' k * (a + b) := by
          refine Finset.sum_congr rfl fun k hk => ?_
          rw [Finset.mem_Icc] at hk
          rw [weights_symm, ← mul_add, hval _ (by omega) (by omega), hval _ (by omega) (by omega)]
          congr 1
          split_ifs <;> first | rfl | omega | exact add_comm _ _
      _ = a + b := by rw [← Finset.sum_mul, weights_sum, one_mul]

/-- Non-vacuity: a step in the middle of a line of 40 pixels, filtered with a width of 2.5 pixels (radius 10). -/
example : ∃ g, fermiFilter (.d1 40 fun q => if (q : ℕ) < 20 then 0 else 1) 2.5 (-1) "reflect" 0 none = .ok (some (.d1 40 g)) ∧ RadiusOf 2.5 none 10 := by
  have hR : RadiusOf 2.5 none 10 := ⟨by norm_num, fun h => by norm_num at h⟩
  obtain ⟨g, hg, -⟩ := C94_line 40 (fun q => if (q : ℕ) < 20 then 0 else 1) 2.5 (by norm_num) (-1) (Or.inr rfl) "reflect" (Or.inl (Or.inl rfl)) 0 none
    10 hR
  exact ⟨g, hg, hR⟩

/-- C94: the sum is not kept in the mode 'mirror' (a line of three pixels, radius 1). -/
theorem C94_sum_mirror_actual : ∃ f g : Fin 3 → ℝ, fermiFilter (.d1 3 f) 1 (-1) "mirror" 0 (some 1) = .ok (some (.d1 3 g)) ∧
    ∑ p, g p ≠ ∑ p, f p := by
  have hR : RadiusOf 1 (some 1) ((1 : ℕ) : ℤ) := rfl
  obtain ⟨g, hg, -⟩ := C94_line 3 ![1, 0, 0] 1 (by norm_num) (-1) (Or.inr rfl) "mirror" (Or.inr (Or.inr (Or.inr (Or.inr rfl)))) 0 (some 1) 1 hR
  refine ⟨![1, 0, 0], g, hg, ?_⟩
  obtain ⟨R, m, hr, -, hm, -, hg'⟩ := fermi_inv_line hg
  have e : R = 1 := by
    have : (1 : ℤ) = R := hr
    omega
  subst e
  cases hm
  have hw : ∀ p : Fin 3, g p = fermiWeight 1 1 (-1) * extended .mirror 0 p.pos ![1, 0, 0] (p - -1) +
      (fermiWeight 1 1 0 * extended .mirror 0 p.pos ![1, 0, 0] (p - 0) + fermiWeight 1 1 1 * extended .mirror 0 p.pos ![1, 0, 0] (p - 1)) := by
    intro p
    rw [hg', show Finset.Icc (-((1 : ℕ) : ℤ)) ((1 : ℕ) : ℤ) = {-1, 0, 1} by decide, Finset.sum_insert (by decide), Finset.sum_insert (by decide),
      Finset.sum_singleton]
  have hs := weights_sum 1 1
  rw [show Finset.Icc (-((1 : ℕ) : ℤ)) ((1 : ℕ) : ℤ) = {-1, 0, 1} by decide, Finset.sum_insert (by decide), Finset.sum_insert (by decide),
      Finset.sum_singleton] at hs
  have hpos : 0 < fermiWeight 1 1 1 := by
    unfold fermiWeight
    refine div_pos (by have := Real.cosh_pos (((1 : ℤ) : ℝ) / 1); positivity) (Finset.sum_pos (fun i _ => ?_) ⟨0, by simp⟩)
    have := Real.cosh_pos ((i : ℝ) / 1)
    positivity
  have hsym : fermiWeight 1 1 (-1) = fermiWeight 1 1 1 := weights_symm 1 1 1
  rw [Fin.sum_univ_three, Fin.sum_univ_three, hw, hw, hw]
  simp [extended, mirrorIdx]
  rw [hsym] at hs
  intro hcon
  linarith

/-! ### Transition blurring -/

/-- C94: blurring transitions with the Fermi-Dirac distribution filters the occupations of each dot along the last axis, with the width in
pixels. -/
theorem C94_blurring {τ : Type} (sigma : M τ ℝ) (n : ℕ) (f : Fin n → ℝ × ℝ) (lead : Scan ℕ) (g1 g2 : ℝ × ℝ) (σ k : ℝ) (hσ : 0 < σ) (hk : 0 < k)
    (hf : blurFactor g1 g2 (.d1 n f) = some k) :
    ∃ a b, fermiFilter (.d1 n fun i => (f i).1) (σ * k) (-1) "reflect" 0 none = .ok (some (.d1 n a)) ∧
      fermiFilter (.d1 n fun i => (f i).2) (σ * k) (-1) "reflect" 0 none = .ok (some (.d1 n b)) ∧
      (fermiBlur sigma).apply (.d1 n f, lead) g1 g2 σ = .ok (.d1 n fun i => (a i, b i), lead) := by
  have hs : 0 < σ * k := mul_pos hσ hk
  have hR : ∃ R : ℕ, RadiusOf (σ * k) none R ∧ pyRound (4 * (σ * k)) = R := by
    have := (pyRound_bounds (4 * (σ * k))).1
    have h0 : (-1 : ℝ) < pyRound (4 * (σ * k)) := by linarith
    have h1 : -1 < pyRound (4 * (σ * k)) := by exact_mod_cast h0
    refine ⟨(pyRound (4 * (σ * k))).toNat, ?_, by omega⟩
    rw [Int.toNat_of_nonneg (by omega)]
    exact pyRound_rounds _
  obtain ⟨R, hR, hpr⟩ := hR
  refine ⟨_, _, fermi_run hs.ne' (a := 0) rfl rfl 0 hR, fermi_run hs.ne' (a := 0) rfl rfl 0 hR, ?_⟩
  unfold Blur.apply
  rw [if_pos hσ]
  simp only [hf, blurScan, fermiBlur, fermiKernel, hpr, Int.toNat_natCast, fermi_weight_eq hs.ne']
  rfl

example (f : Fin 40 → ℝ × ℝ) (lead : Scan ℕ) := C94_blurring (pure 0.01 : M Unit ℝ) 40 f lead (0, 1) (0, 0) 0.01 40 (by norm_num) (by norm_num)
  (by norm_num [blurFactor, pxPerVolt])

end SimCATS
