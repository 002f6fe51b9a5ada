import Verif.Model.FermiFilter
import Verif.Spec.FermiFilter
import Verif.Lemmas.Blur

/-! Lemmas about `fermi_filter1d`. -/

namespace SimCATS

open Spec

theorem parse_reflect {mode : String} (h : ReflectMode mode) : FilterMode.parse mode = some .reflect := by
  rcases h with rfl | rfl <;> rfl

theorem parse_constant {mode : String} (h : ConstantMode mode) : FilterMode.parse mode = some .constant := by
  rcases h with rfl | rfl <;> rfl

theorem parse_wrap {mode : String} (h : WrapMode mode) : FilterMode.parse mode = some .wrap := by
  rcases h with rfl | rfl <;> rfl

theorem parse_iff (mode : String) : (∃ m, FilterMode.parse mode = some m) ↔ KnownMode mode := by
  constructor
  · rintro ⟨m, h⟩
    unfold FilterMode.parse at h
    unfold KnownMode ReflectMode ConstantMode WrapMode
    split at h <;> first | (simp; done) | cases h
  · rintro (h | h | h | rfl | rfl)
    · exact ⟨_, parse_reflect h⟩
    · exact ⟨_, parse_constant h⟩
    · exact ⟨_, parse_wrap h⟩
    · exact ⟨_, rfl⟩
    · exact ⟨_, rfl⟩

theorem parse_none {mode : String} (h : ¬ KnownMode mode) : FilterMode.parse mode = none := by
  cases hx : FilterMode.parse mode with
  | none => rfl
  | some m => exact absurd ((parse_iff mode).1 ⟨m, hx⟩) h

theorem reflectIdx_neg (n : ℕ) (hn : 0 < n) (k : ℤ) : reflectIdx n (-1 - k) = reflectIdx n k := by
  have h1 := Int.emod_nonneg k (show (2 * n : ℤ) ≠ 0 by omega)
  have h2 := Int.emod_lt_of_pos k (show (0 : ℤ) < 2 * n by omega)
  have e : (-1 - k) % (2 * n : ℤ) = 2 * n - 1 - k % (2 * n) := by
    have : -1 - k = (2 * n - 1 - k % (2 * n)) + (2 * n) * (-(k / (2 * n)) - 1) := by
      have := Int.emod_add_mul_ediv k (2 * n)
      linarith
    rw [this, Int.add_mul_emod_self_left, Int.emod_eq_of_lt (by omega) (by omega)]
  unfold reflectIdx
  rw [e]
  simp only
  split_ifs <;> omega

theorem reflectIdx_period (n : ℕ) (k : ℤ) : reflectIdx n (k + 2 * n) = reflectIdx n k := by
  unfold reflectIdx
  rw [Int.add_emod_right]

theorem mirrorIdx_neg (n : ℕ) (hn : 0 < n) (k : ℤ) : mirrorIdx n (-k) = mirrorIdx n k := by
  unfold mirrorIdx
  by_cases hn1 : n = 1
  · simp [hn1]
  simp only [if_neg hn1]
  have hN : (0 : ℤ) < 2 * ((n - 1 : ℕ) : ℤ) := by omega
  generalize hM : 2 * ((n - 1 : ℕ) : ℤ) = N at hN ⊢
  have h1 := Int.emod_nonneg k hN.ne'
  have h2 := Int.emod_lt_of_pos k hN
  by_cases h0 : k % N = 0
  · rw [show (-k) % N = 0 from Int.emod_eq_zero_of_dvd ((Int.dvd_neg).2 (Int.dvd_of_emod_eq_zero h0)), h0]
  · have e : (-k) % N = N - k % N := by
      have : -k = (N - k % N) + N * (-(k / N) - 1) := by
        have := Int.emod_add_mul_ediv k N
        linarith
      rw [this, Int.add_mul_emod_self_left, Int.emod_eq_of_lt (by omega) (by omega)]
    rw [e]
    split_ifs <;> omega

theorem mirrorIdx_period (n : ℕ) (k : ℤ) : mirrorIdx n (k + 2 * ((n - 1 : ℕ) : ℤ)) = mirrorIdx n k := by
  unfold mirrorIdx
  rw [Int.add_emod_right]

/-- The extended line of the model is the documented one. -/
theorem extended_extends {mode : String} {m : FilterMode} (hm : FilterMode.parse mode = some m) (cval : ℝ) {n : ℕ} (hn : 0 < n)
    (f : Fin n → ℝ) : Extends mode cval f (extended m cval hn f) := by
  have known := (parse_iff mode).1 ⟨m, hm⟩
  constructor
  · intro i
    cases m
    · simp only [extended, reflectIdx_self i.2]
    · simp only [extended]
      rw [dif_pos (by omega)]
      rfl
    · simp only [extended, nearestIdx]
      congr 1
      ext
      simp only [Int.toNat_natCast]
      omega
    · simp only [extended]
      congr 1
      ext
      simp only [mirrorIdx]
      split_ifs with h1 h2
      · omega
      · by_cases hi : (i : ℕ) < 2 * (n - 1)
        · rw [Int.emod_eq_of_lt (by omega) (by omega)]
          rfl
        · omega
      · by_cases hi : (i : ℕ) < 2 * (n - 1)
        · rw [Int.emod_eq_of_lt (by omega) (by omega)] at h2 ⊢
          omega
        · omega
    · simp only [extended, wrapIdx]
      congr 1
      ext
      simp only
      rw [Int.emod_eq_of_lt (by omega) (by omega)]
      rfl
  · intro h k
    rw [parse_reflect h] at hm
    cases hm
    simp only [extended, reflectIdx_neg n hn]
    refine ⟨trivial, ?_⟩
    congr 1
    ext
    simp only
    rw [show (2 * (n : ℤ) - 1 - k) = (-1 - k) + 2 * n by ring, reflectIdx_period, reflectIdx_neg n hn]
  · intro h k hk
    rw [parse_constant h] at hm
    cases hm
    simp only [extended]
    rw [dif_neg (by omega)]
  · rintro rfl
    cases hm
    constructor
    · intro k hk
      simp only [extended, nearestIdx]
      congr 1
      ext
      simp only
      omega
    · intro k hk
      simp only [extended, nearestIdx]
      congr 1
      ext
      simp only
      omega
  · rintro rfl k
    cases hm
    simp only [extended, mirrorIdx_neg n hn]
    refine ⟨trivial, ?_, fun h1 => by subst h1; simp [mirrorIdx]⟩
    congr 1
    ext
    simp only
    rw [show (2 * ((n : ℤ) - 1) - k) = -k + 2 * ((n - 1 : ℕ) : ℤ) by push_cast [Nat.cast_sub (show 1 ≤ n from hn)]; ring, mirrorIdx_period,
      mirrorIdx_neg n hn]
  · intro h k
    rw [parse_wrap h] at hm
    cases hm
    simp only [extended, wrapIdx, Int.add_emod_right]

theorem int_period {F : ℤ → ℝ} {N : ℤ} (h : ∀ k, F (k + N) = F k) (k z : ℤ) : F (k + N * z) = F k := by
  have hper : Function.Periodic F N := h
  have := hper.int_mul z k
  rwa [show k + N * z = k + z * N by ring] 

theorem int_emod {F : ℤ → ℝ} {N : ℤ} (h : ∀ k, F (k + N) = F k) (k : ℤ) : F k = F (k % N) := by
  have := int_period h (k % N) (k / N)
  rwa [Int.emod_add_mul_ediv] at this

/-- The documented extension of a line is unique. -/
theorem extends_eq {mode : String} {m : FilterMode} (hm : FilterMode.parse mode = some m) {cval : ℝ} {n : ℕ} (hn : 0 < n)
    {f : Fin n → ℝ} {F : ℤ → ℝ} (hF : Extends mode cval f F) : F = extended m cval hn f := by
  have hin : ∀ (q : ℕ) (hq : q < n), F (q : ℤ) = f ⟨q, hq⟩ := fun q hq => hF.inside ⟨q, hq⟩
  funext k
  rcases (parse_iff mode).1 ⟨m, hm⟩ with h | h | h | rfl | rfl
  · rw [parse_reflect h] at hm
    cases hm
    have hr := hF.reflect h
    have hper : ∀ k, F (k + 2 * n) = F k := by
      intro k
      have := (hr (-1 - k)).2
      rw [(hr k).1] at this
      rw [← this]
      congr 1
      ring
    rw [int_emod hper]
    have h1 := Int.emod_nonneg k (show (2 * n : ℤ) ≠ 0 by omega)
    have h2 := Int.emod_lt_of_pos k (show (0 : ℤ) < 2 * n by omega)
    simp only [extended]
    rw [← hin]
    by_cases hlt : (k % (2 * n)).toNat < n
    · unfold reflectIdx
      rw [if_pos hlt]
      congr 1
      omega
    · unfold reflectIdx
      rw [if_neg hlt, ← (hr (k % (2 * n))).2]
      congr 1
      omega
  · rw [parse_constant h] at hm
    cases hm
    simp only [extended]
    by_cases hk : 0 ≤ k ∧ k < n
    · rw [dif_pos hk, ← hin]
      congr 1
      omega
    · rw [dif_neg hk]
      exact hF.constant h k (by omega)
  · rw [parse_wrap h] at hm
    cases hm
    rw [int_emod (hF.wrap h)]
    have h1 := Int.emod_nonneg k (show (n : ℤ) ≠ 0 by omega)
    simp only [extended]
    rw [← hin]
    congr 1
    unfold wrapIdx
    omega
  · cases hm
    simp only [extended]
    rw [← hin]
    unfold nearestIdx
    by_cases h0 : k < 0
    · rw [(hF.nearest rfl).1 k h0]
      congr 1
      omega
    · by_cases h1 : n ≤ k
      · rw [(hF.nearest rfl).2 k h1]
        congr 1
        omega
      · congr 1
        omega
  · cases hm
    simp only [extended]
    rw [← hin]
    have hr := hF.mirror rfl
    by_cases h1 : n = 1
    · rw [(hr k).2.2 h1]
      unfold mirrorIdx
      simp [h1]
    · have hper : ∀ k, F (k + 2 * ((n - 1 : ℕ) : ℤ)) = F k := by
        intro k
        have := (hr (-k)).2.1
        rw [(hr k).1] at this
        rw [← this]
        congr 1
        omega
      rw [int_emod hper]
      have a1 := Int.emod_nonneg k (show (2 * ((n - 1 : ℕ) : ℤ)) ≠ 0 by omega)
      have a2 := Int.emod_lt_of_pos k (show (0 : ℤ) < 2 * ((n - 1 : ℕ) : ℤ) by omega)
      unfold mirrorIdx
      simp only
      rw [if_neg h1]
      by_cases hlt : (k % (2 * ((n - 1 : ℕ) : ℤ))).toNat < n
      · rw [if_pos hlt]
        congr 1
        omega
      · rw [if_neg hlt, ← (hr (k % (2 * ((n - 1 : ℕ) : ℤ)))).2.1]
        congr 1
        omega

theorem pyRound_rounds (x : ℝ) : RoundsTo x (pyRound x) := by
  have h1 := Int.floor_le x
  have h2 := Int.lt_floor_add_one x
  unfold RoundsTo pyRound
  split_ifs with a b c
  · rw [abs_of_nonneg (by linarith)]
    exact ⟨by linarith, fun h => by linarith⟩
  · push_cast
    rw [abs_of_nonpos (by linarith)]
    exact ⟨by linarith, fun h => by linarith⟩
  · rw [abs_of_nonneg (by linarith)]
    exact ⟨by linarith, fun _ => c⟩
  · push_cast
    rw [abs_of_nonpos (by linarith)]
    refine ⟨by linarith, fun _ => ?_⟩
    rw [Int.even_add_one]
    exact c

theorem rounds_unique {x : ℝ} {r r' : ℤ} (h : RoundsTo x r) (h' : RoundsTo x r') : r = r' := by
  obtain ⟨a, ea⟩ := h
  obtain ⟨b, eb⟩ := h'
  have ha := abs_le.1 a
  have hb := abs_le.1 b
  rcases lt_trichotomy r r' with hlt | rfl | hlt
  · have h1 : r + 1 ≤ r' := hlt
    have h1' : (r : ℝ) + 1 ≤ r' := by exact_mod_cast h1
    have e1 : x - r = 1 / 2 := by linarith
    have e2 : x - r' = -(1 / 2) := by linarith
    have p1 := ea (by rw [e1]; norm_num)
    have p2 := eb (by rw [e2]; norm_num)
    have h2 : (r' : ℝ) = r + 1 := by linarith
    have h3 : r' = r + 1 := by exact_mod_cast h2
    rw [h3, Int.even_add_one] at p2
    exact absurd p1 p2
  · rfl
  · have h1 : r' + 1 ≤ r := hlt
    have h1' : (r' : ℝ) + 1 ≤ r := by exact_mod_cast h1
    have e1 : x - r' = 1 / 2 := by linarith
    have e2 : x - r = -(1 / 2) := by linarith
    have p1 := eb (by rw [e1]; norm_num)
    have p2 := ea (by rw [e2]; norm_num)
    have h2 : (r : ℝ) = r' + 1 := by linarith
    have h3 : r = r' + 1 := by exact_mod_cast h2
    rw [h3, Int.even_add_one] at p2
    exact absurd p1 p2

/-- The kernel of the model has the documented weights. -/
theorem fermi_weight_eq {σ : ℝ} (hσ : σ ≠ 0) (R : ℕ) : (normalized R fun k => fermiDeriv k σ) = ⟨R, fermiWeight σ R⟩ := by
  unfold normalized fermiWeight
  congr 1
  funext k
  have e : ∀ i : ℤ, fermiDeriv i σ = (0.5 / σ) * (1 / Real.cosh (i / σ)) ^ 2 := by
    intro i
    unfold fermiDeriv
    ring
  have hc : (0.5 / σ : ℝ) ≠ 0 := div_ne_zero (by norm_num) hσ
  simp only [e]
  rw [← Finset.mul_sum, mul_div_mul_left _ _ hc]

theorem fermiWeight_weights (σ : ℝ) (R : ℕ) : (⟨R, fermiWeight σ R⟩ : Kernel).Weights := by
  refine normalized_weights R (fun k => (1 / Real.cosh (k / σ)) ^ 2) (fun k => ?_) fun k => ?_
  · have := Real.cosh_pos ((k : ℝ) / σ)
    positivity
  · push_cast
    rw [neg_div, Real.cosh_neg]

theorem fermiFilterKernel_eq {σ : ℝ} {radius : Option ℤ} {r : ℤ} (hr : RadiusOf σ radius r) : fermiFilterKernel σ radius =
    open Classical in if r < 0 then .error .runtimeError else if σ = 0 then .ok none else .ok (some ⟨r.toNat, fermiWeight σ r.toNat⟩) := by
  have hrr : filterRadius σ radius = r := by
    cases radius with
    | none =>
      refine rounds_unique (pyRound_rounds _) ?_
      have : (4.0 : ℝ) * σ = 4 * σ := by norm_num
      rw [this]
      exact hr
    | some r' => exact hr
  unfold fermiFilterKernel
  simp only [hrr]
  by_cases h0 : r < 0
  · rw [if_pos h0, if_pos h0]
  · rw [if_neg h0, if_neg h0]
    by_cases hσ : σ = 0
    · rw [if_pos hσ, if_pos hσ]
    · rw [if_neg hσ, if_neg hσ, fermi_weight_eq hσ]

theorem radius_exists (σ : ℝ) (radius : Option ℤ) : ∃ r, RadiusOf σ radius r := by
  cases radius with
  | none => exact ⟨_, pyRound_rounds _⟩
  | some r => exact ⟨r, rfl⟩

theorem normAxis_some {ndim : ℕ} {axis : ℤ} (h : -(ndim : ℤ) ≤ axis ∧ axis < ndim) : ∃ a, normAxis ndim axis = some a := by
  unfold normAxis
  split_ifs
  · exact ⟨_, rfl⟩
  · exact ⟨_, rfl⟩
  · omega

theorem normAxis_none {ndim : ℕ} {axis : ℤ} (h : ¬ (-(ndim : ℤ) ≤ axis ∧ axis < ndim)) : normAxis ndim axis = none := by
  unfold normAxis
  rw [if_neg (by omega), if_neg (by omega)]

/-- What follows from a returned array. -/
theorem fermi_inv {x y : Scan ℝ} {σ : ℝ} {axis : ℤ} {mode : String} {cval : ℝ} {radius : Option ℤ}
    (h : fermiFilter x σ axis mode cval radius = .ok (some y)) :
    ∃ (R a : ℕ) (m : FilterMode), RadiusOf σ radius R ∧ σ ≠ 0 ∧ normAxis x.shape.length axis = some a ∧ FilterMode.parse mode = some m ∧
      y = filterAlong m cval ⟨R, fermiWeight σ R⟩ a x := by
  obtain ⟨r, hr⟩ := radius_exists σ radius
  unfold fermiFilter at h
  rw [fermiFilterKernel_eq hr] at h
  by_cases h0 : r < 0
  · rw [if_pos h0] at h
    exact nomatch h
  · rw [if_neg h0] at h
    by_cases hσ : σ = 0
    · rw [if_pos hσ] at h
      simp only at h
      split at h
      · exact nomatch h
      · split at h
        · exact nomatch h
        · exact nomatch h
    · rw [if_neg hσ] at h
      simp only at h
      split at h
      · exact nomatch h
      · rename_i a ha
        split at h
        · exact nomatch h
        · rename_i m hm
          refine ⟨r.toNat, a, m, ?_, hσ, ha, hm, ?_⟩
          · rwa [Int.toNat_of_nonneg (by omega)]
          · exact (Option.some.inj (Except.ok.inj h)).symm

theorem normAxis_bounds {ndim : ℕ} {axis : ℤ} {a : ℕ} (h : normAxis ndim axis = some a) : -(ndim : ℤ) ≤ axis ∧ axis < ndim := by
  by_contra hc
  rw [normAxis_none hc] at h
  exact nomatch h

theorem fermi_inv_line {n : ℕ} {f g : Fin n → ℝ} {σ : ℝ} {axis : ℤ} {mode : String} {cval : ℝ} {radius : Option ℤ}
    (h : fermiFilter (.d1 n f) σ axis mode cval radius = .ok (some (.d1 n g))) :
    ∃ (R : ℕ) (m : FilterMode), RadiusOf σ radius R ∧ σ ≠ 0 ∧ FilterMode.parse mode = some m ∧ (axis = 0 ∨ axis = -1) ∧
      ∀ p, g p = ∑ k ∈ Finset.Icc (-(R : ℤ)) R, fermiWeight σ R k * extended m cval p.pos f (p - k) := by
  obtain ⟨R, a, m, hr, hσ, ha, hm, hy⟩ := fermi_inv h
  refine ⟨R, m, hr, hσ, hm, ?_, fun p => ?_⟩
  · have hb := normAxis_bounds ha
    simp only [Scan.shape, List.length_cons, List.length_nil] at hb
    omega
  · simp only [filterAlong, Scan.d1.injEq, heq_eq_eq, true_and] at hy
    rw [hy]
    rfl

theorem fermi_run {x : Scan ℝ} {σ : ℝ} (hσ : σ ≠ 0) {axis : ℤ} {a : ℕ} (ha : normAxis x.shape.length axis = some a) {mode : String}
    {m : FilterMode} (hm : FilterMode.parse mode = some m) (cval : ℝ) {radius : Option ℤ} {R : ℕ} (hr : RadiusOf σ radius R) :
    fermiFilter x σ axis mode cval radius = .ok (some (filterAlong m cval ⟨R, fermiWeight σ R⟩ a x)) := by
  unfold fermiFilter
  rw [fermiFilterKernel_eq hr, if_neg (by omega), if_neg hσ]
  simp only [Int.toNat_natCast, ha, hm, Option.map_some]

theorem weights_sum (σ : ℝ) (R : ℕ) : ∑ k ∈ Finset.Icc (-(R : ℤ)) R, fermiWeight σ R k = 1 := (fermiWeight_weights σ R).sum

theorem weights_nonneg (σ : ℝ) (R : ℕ) (k : ℤ) : 0 ≤ fermiWeight σ R k := (fermiWeight_weights σ R).nonneg k

theorem weights_symm (σ : ℝ) (R : ℕ) (k : ℤ) : fermiWeight σ R (-k) = fermiWeight σ R k := (fermiWeight_weights σ R).symm k

/-- The values of an extended line are values of the line or the constant. -/
theorem extended_mem (m : FilterMode) (cval : ℝ) {n : ℕ} (hn : 0 < n) (f : Fin n → ℝ) (k : ℤ) :
    (∃ q, extended m cval hn f k = f q) ∨ m = .constant ∧ extended m cval hn f k = cval := by
  cases m with
  | constant =>
    simp only [extended]
    by_cases hk : 0 ≤ k ∧ k < n
    · rw [dif_pos hk]
      exact Or.inl ⟨_, rfl⟩
    · rw [dif_neg hk]
      exact Or.inr ⟨trivial, rfl⟩
  | reflect => exact Or.inl ⟨_, rfl⟩
  | nearest => exact Or.inl ⟨_, rfl⟩
  | mirror => exact Or.inl ⟨_, rfl⟩
  | wrap => exact Or.inl ⟨_, rfl⟩

theorem parse_constant_iff {mode : String} (h : FilterMode.parse mode = some .constant) : ConstantMode mode := by
  unfold FilterMode.parse at h
  unfold ConstantMode
  split at h <;> first | (simp; done) | cases h

end SimCATS
