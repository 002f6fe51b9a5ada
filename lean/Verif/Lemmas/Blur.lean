import Verif.Model.Blur
import Verif.Spec.Blur
import Mathlib.Algebra.Order.BigOperators.Group.Finset
import Mathlib.Algebra.BigOperators.Field
import Mathlib.Tactic.Positivity
import Mathlib.Algebra.Order.Group.MinMax

/-!
Lemmas about filters with reflected borders.
-/

namespace SimCATS

open Spec

/-- A kernel of weights: nonnegative, symmetric, with sum 1. -/
structure Kernel.Weights (K : Kernel) : Prop where
  nonneg : ∀ k, 0 ≤ K.w k
  symm : ∀ k, K.w (-k) = K.w k
  sum : ∑ k ∈ Finset.Icc (-(K.radius : ℤ)) K.radius, K.w k = 1

/-- The weight of pixel `q` in the filtered pixel `p`. -/
noncomputable def Kernel.mat (K : Kernel) (n : ℕ) (p q : Fin n) : ℝ :=
  ∑ k ∈ Finset.Icc (-(K.radius : ℤ)) K.radius, if reflectIdx n (p - k) = q then K.w k else 0

theorem convolve_eq {n : ℕ} (K : Kernel) (f : Fin n → ℝ) (p : Fin n) : convolve K f p = average (K.mat n) f p := by
  unfold convolve average Kernel.mat
  simp only [Finset.sum_mul]
  rw [Finset.sum_comm]
  refine Finset.sum_congr rfl fun k _ => ?_
  rw [Finset.sum_eq_single ⟨reflectIdx n (p - k), reflectIdx_lt p.pos _⟩]
  · simp
  · intro q _ hq
    rw [if_neg, zero_mul]
    intro e
    exact hq (Fin.ext e.symm)
  · simp

theorem reflectIdx_iff {n : ℕ} (k : ℤ) {q : ℕ} (hq : q < n) :
    reflectIdx n k = q ↔ k % (2 * n) = q ∨ k % (2 * n) = 2 * n - 1 - q := by
  have h1 := Int.emod_nonneg k (show (2 * n : ℤ) ≠ 0 by omega)
  have h2 := Int.emod_lt_of_pos k (show (0 : ℤ) < 2 * n by omega)
  unfold reflectIdx
  simp only
  split_ifs <;> omega

/-- The entry `(p, q)` as condition that is symmetric in `p` and `q`. -/
theorem reflect_sub_iff {n : ℕ} (p : ℕ) {q : ℕ} (hq : q < n) (k : ℤ) : reflectIdx n (p - k) = q ↔
    ((2 * n : ℤ) ∣ p - k - q ∨ (2 * n : ℤ) ∣ p - k + q + 1) := by
  rw [reflectIdx_iff _ hq]
  have hq1 : (q : ℤ) = q % (2 * n) := (Int.emod_eq_of_lt (by omega) (by omega)).symm
  have hq2 : (2 * n - 1 - q : ℤ) = (-1 - q) % (2 * n) := by
    have : (-1 - q : ℤ) = (2 * n - 1 - q) + (2 * n) * (-1) := by ring
    rw [this, Int.add_mul_emod_self_left, Int.emod_eq_of_lt (by omega) (by omega)]
  have hd : ∀ a b : ℤ, a % (2 * n) = b % (2 * n) ↔ (2 * n : ℤ) ∣ a - b := fun a b => by
    rw [Int.emod_eq_emod_iff_emod_sub_eq_zero, Int.dvd_iff_emod_eq_zero]
  have a1 : ((p : ℤ) - k) % (2 * n) = q ↔ (2 * n : ℤ) ∣ p - k - q := by
    rw [← hd, ← hq1]
  have a2 : ((p : ℤ) - k) % (2 * n) = 2 * n - 1 - q ↔ (2 * n : ℤ) ∣ p - k + q + 1 := by
    rw [hq2, hd, show (p : ℤ) - k + q + 1 = (p - k) - (-1 - q) by ring]
  rw [a1, a2]

theorem sum_neg_Icc (R : ℕ) (F : ℤ → ℝ) : ∑ k ∈ Finset.Icc (-(R : ℤ)) R, F (-k) = ∑ k ∈ Finset.Icc (-(R : ℤ)) R, F k := by
  refine Finset.sum_nbij' (fun k => -k) (fun k => -k) ?_ ?_ ?_ ?_ ?_
  · intro k hk
    rw [Finset.mem_Icc] at hk ⊢
    omega
  · intro k hk
    rw [Finset.mem_Icc] at hk ⊢
    omega
  · intro k _
    exact neg_neg k
  · intro k _
    exact neg_neg k
  · intro k _
    rfl

theorem mat_split {n : ℕ} (K : Kernel) (p q : Fin n) : K.mat n p q =
    (∑ k ∈ Finset.Icc (-(K.radius : ℤ)) K.radius, if (2 * n : ℤ) ∣ p - k - q then K.w k else 0) +
    ∑ k ∈ Finset.Icc (-(K.radius : ℤ)) K.radius, if (2 * n : ℤ) ∣ p - k + q + 1 then K.w k else 0 := by
  unfold Kernel.mat
  rw [← Finset.sum_add_distrib]
  refine Finset.sum_congr rfl fun k _ => ?_
  have hiff := reflect_sub_iff p q.2 k
  by_cases h1 : (2 * n : ℤ) ∣ p - k - q
  · have h2 : ¬ (2 * n : ℤ) ∣ p - k + q + 1 := by
      intro h2
      have h3 := dvd_sub h2 h1
      have h4 : (2 : ℤ) ∣ (p - k + q + 1) - (p - k - q) := dvd_trans ⟨n, rfl⟩ h3
      omega
    rw [if_pos (hiff.mpr (.inl h1)), if_pos h1, if_neg h2, add_zero]
  · by_cases h2 : (2 * n : ℤ) ∣ p - k + q + 1
    · rw [if_pos (hiff.mpr (.inr h2)), if_neg h1, if_pos h2, zero_add]
    · rw [if_neg (fun e => (hiff.mp e).elim h1 h2), if_neg h1, if_neg h2, add_zero]

theorem mat_symm {n : ℕ} {K : Kernel} (hK : K.Weights) (p q : Fin n) : K.mat n p q = K.mat n q p := by
  rw [mat_split, mat_split]
  congr 1
  · rw [← sum_neg_Icc]
    refine Finset.sum_congr rfl fun k _ => ?_
    rw [hK.symm]
    refine if_congr ?_ rfl rfl
    rw [← dvd_neg]
    ring_nf
  · refine Finset.sum_congr rfl fun k _ => ?_
    refine if_congr ?_ rfl rfl
    ring_nf

theorem mat_mirror {n : ℕ} {K : Kernel} (hK : K.Weights) (p q : Fin n) : K.mat n p.rev q.rev = K.mat n p q := by
  have hp : ((p.rev : ℕ) : ℤ) = n - 1 - p := by rw [Fin.val_rev]; omega
  have hq : ((q.rev : ℕ) : ℤ) = n - 1 - q := by rw [Fin.val_rev]; omega
  rw [mat_split, mat_split]
  rw [← sum_neg_Icc K.radius (fun k => if (2 * n : ℤ) ∣ (p.rev : ℕ) - k - (q.rev : ℕ) then K.w k else 0),
    ← sum_neg_Icc K.radius (fun k => if (2 * n : ℤ) ∣ (p.rev : ℕ) - k + (q.rev : ℕ) + 1 then K.w k else 0)]
  congr 1
  · refine Finset.sum_congr rfl fun k _ => ?_
    rw [hK.symm, hp, hq]
    refine if_congr ?_ rfl rfl
    rw [← dvd_neg]
    ring_nf
  · refine Finset.sum_congr rfl fun k _ => ?_
    rw [hK.symm, hp, hq]
    refine if_congr ?_ rfl rfl
    rw [← dvd_neg, ← dvd_add_right (dvd_refl (2 * n : ℤ))]
    ring_nf

theorem mat_averaging {n : ℕ} {K : Kernel} (hK : K.Weights) : Averaging (K.mat n) := by
  have hrow : ∀ p, ∑ q, K.mat n p q = 1 := by
    intro p
    unfold Kernel.mat
    rw [Finset.sum_comm, ← hK.sum]
    refine Finset.sum_congr rfl fun k _ => ?_
    rw [Finset.sum_eq_single ⟨reflectIdx n (p - k), reflectIdx_lt p.pos _⟩]
    · simp
    · intro q _ hq
      rw [if_neg]
      intro e
      exact hq (Fin.ext e.symm)
    · simp
  constructor
  · intro p q
    unfold Kernel.mat
    refine Finset.sum_nonneg fun k _ => ?_
    split_ifs
    · exact hK.nonneg k
    · exact le_refl _
  · exact hrow
  · intro q
    rw [← hrow q]
    exact Finset.sum_congr rfl fun p _ => mat_symm hK p q
  · exact mat_mirror hK

theorem reflectIdx_self {n q : ℕ} (hq : q < n) : reflectIdx n q = q := by
  rw [reflectIdx_iff _ hq]
  exact .inl (Int.emod_eq_of_lt (by omega) (by omega))

/-- Away from the borders the weights are those of the kernel. -/
theorem mat_interior {n : ℕ} (K : Kernel) (p q : Fin n) (h1 : K.radius ≤ p) (h2 : p + K.radius < n) :
    K.mat n p q = if |(p : ℤ) - q| ≤ K.radius then K.w (p - q) else 0 := by
  have hidx : ∀ k ∈ Finset.Icc (-(K.radius : ℤ)) K.radius, reflectIdx n (p - k) = q ↔ k = p - q := by
    intro k hk
    rw [Finset.mem_Icc] at hk
    obtain ⟨m, hm⟩ : ∃ m : ℕ, (m : ℤ) = p - k := ⟨(p - k : ℤ).toNat, by omega⟩
    rw [← hm, reflectIdx_self (by omega)]
    omega
  unfold Kernel.mat
  rw [Finset.sum_congr rfl fun k hk => if_congr (hidx k hk) rfl rfl, Finset.sum_ite_eq']
  exact if_congr (by rw [Finset.mem_Icc, abs_le]) rfl rfl

/-- A filter cannot move values further than its radius. -/
theorem mat_local {n : ℕ} (K : Kernel) (p q : Fin n) (h : (K.radius : ℤ) < |(p : ℤ) - q|) : K.mat n p q = 0 := by
  unfold Kernel.mat
  refine Finset.sum_eq_zero fun k hk => ?_
  rw [if_neg]
  rw [Finset.mem_Icc] at hk
  rw [lt_abs] at h
  have hp := p.2
  have hq := q.2
  intro e
  rcases (reflect_sub_iff p q.2 k).mp e with ⟨t, ht⟩ | ⟨t, ht⟩
  · rcases lt_trichotomy t 0 with h0 | h0 | h0
    · have : (2 * n : ℤ) * t ≤ (2 * n : ℤ) * (-1) := Int.mul_le_mul_of_nonneg_left (by omega) (by omega)
      omega
    · subst h0
      omega
    · have : (2 * n : ℤ) * 1 ≤ (2 * n : ℤ) * t := Int.mul_le_mul_of_nonneg_left (by omega) (by omega)
      omega
  · rcases lt_trichotomy t 0 with h0 | h0 | h0
    · have : (2 * n : ℤ) * t ≤ (2 * n : ℤ) * (-1) := Int.mul_le_mul_of_nonneg_left (by omega) (by omega)
      omega
    · subst h0
      omega
    · rcases eq_or_lt_of_le (show 1 ≤ t by omega) with h1 | h1
      · subst h1
        omega
      · have : (2 * n : ℤ) * 2 ≤ (2 * n : ℤ) * t := Int.mul_le_mul_of_nonneg_left (by omega) (by omega)
        omega

theorem normalized_weights (R : ℕ) (v : ℤ → ℝ) (hv : ∀ k, 0 < v k) (hs : ∀ k, v (-k) = v k) : (normalized R v).Weights := by
  have hpos : 0 < ∑ i ∈ Finset.Icc (-(R : ℤ)) R, v i := by
    refine Finset.sum_pos (fun k _ => hv k) ⟨0, ?_⟩
    rw [Finset.mem_Icc]
    omega
  constructor
  · intro k
    exact div_nonneg (hv k).le hpos.le
  · intro k
    unfold normalized
    simp only [hs]
  · unfold normalized
    simp only
    rw [← Finset.sum_div, div_self hpos.ne']

theorem fermiKernel_weights {σ : ℝ} (hσ : 0 < σ) : (fermiKernel σ).Weights := by
  refine normalized_weights _ _ (fun k => ?_) fun k => ?_
  · unfold fermiDeriv
    have := Real.cosh_pos ((k : ℝ) / σ)
    positivity
  · unfold fermiDeriv
    push_cast
    rw [neg_div, Real.cosh_neg]

theorem pyRound_bounds (x : ℝ) : x - 1 / 2 ≤ pyRound x ∧ pyRound x ≤ x + 1 / 2 := by
  have h1 := Int.floor_le x
  have h2 := Int.lt_floor_add_one x
  unfold pyRound
  split_ifs <;> push_cast <;> constructor <;> linarith

theorem normalized_profile (R : ℕ) (u : ℤ → ℝ) (hu : ∀ k, 0 < u k) (a : ℝ) (ha : 0 < a) (v : ℝ → ℝ) (hv : ∀ k : ℤ, u k = a * v k)
    (lo hi : ℝ) (h1 : lo ≤ R) (h2 : R ≤ hi) (n : ℕ) :
    Profile lo hi v ((normalized R u).mat n) ∧ Reach hi ((normalized R u).mat n) := by
  have hpos : 0 < ∑ i ∈ Finset.Icc (-(R : ℤ)) R, u i := by
    refine Finset.sum_pos (fun k _ => hu k) ⟨0, ?_⟩
    rw [Finset.mem_Icc]
    omega
  constructor
  · refine ⟨R, h1, h2, a / ∑ i ∈ Finset.Icc (-(R : ℤ)) R, u i, div_pos ha hpos, fun p q hp hq => ?_⟩
    rw [mat_interior _ p q hp hq, show (normalized R u).radius = R from rfl]
    constructor
    · intro h
      rw [if_pos h]
      unfold normalized
      simp only
      rw [hv]
      push_cast
      ring
    · intro h
      rw [if_neg (not_le.2 h)]
  · intro p q h
    apply mat_local
    have h' : ((R : ℤ) : ℝ) < ((|(p : ℤ) - q| : ℤ) : ℝ) := by
      push_cast
      linarith
    exact_mod_cast h'

theorem fermiKernel_profile {σ : ℝ} (hσ : 0 < σ) (n : ℕ) :
    Profile (4 * σ - 1 / 2) (4 * σ + 1 / 2) (fermiProfile σ) ((fermiKernel σ).mat n) ∧
      Reach (4 * σ + 1 / 2) ((fermiKernel σ).mat n) := by
  have hb := pyRound_bounds (4 * σ)
  have h0 : 0 ≤ pyRound (4 * σ) := by
    have : (-1 : ℝ) < pyRound (4 * σ) := by linarith
    have : (-1 : ℤ) < pyRound (4 * σ) := by exact_mod_cast this
    omega
  have hc : (((pyRound (4 * σ)).toNat : ℕ) : ℝ) = (pyRound (4 * σ) : ℝ) := by
    have := Int.toNat_of_nonneg h0
    exact_mod_cast this
  refine normalized_profile _ _ (fun k => ?_) (0.5 / σ) (by positivity) _ (fun k => ?_) _ _ ?_ ?_ n
  · unfold fermiDeriv
    have := Real.cosh_pos ((k : ℝ) / σ)
    positivity
  · unfold fermiDeriv fermiProfile
    ring
  · rw [hc]; exact hb.1
  · rw [hc]; exact hb.2

theorem gaussKernel_profile {σ : ℝ} (hσ : 0 < σ) (n : ℕ) :
    Profile (4 * σ - 1 / 2) (4 * σ + 1 / 2) (gaussProfile σ) ((gaussKernel σ).mat n) ∧
      Reach (4 * σ + 1 / 2) ((gaussKernel σ).mat n) := by
  have h0 : 0 ≤ ⌊4 * σ + 1 / 2⌋ := Int.floor_nonneg.2 (by positivity)
  have hc : ((⌊4 * σ + 1 / 2⌋.toNat : ℕ) : ℝ) = (⌊4 * σ + 1 / 2⌋ : ℝ) := by
    have := Int.toNat_of_nonneg h0
    exact_mod_cast this
  have h1 := Int.floor_le (4 * σ + 1 / 2)
  have h2 := Int.lt_floor_add_one (4 * σ + 1 / 2)
  refine normalized_profile _ _ (fun k => Real.exp_pos _) 1 one_pos _ (fun k => ?_) _ _ ?_ ?_ n
  · rw [one_mul]
    rfl
  · rw [hc]; linarith
  · rw [hc]; exact h1

theorem gaussKernel_weights {σ : ℝ} : (gaussKernel σ).Weights := by
  refine normalized_weights _ _ (fun k => Real.exp_pos _) fun k => ?_
  push_cast
  rw [neg_sq]

theorem blurFactor_nonneg {g1 g2 : ℝ × ℝ} {x : Scan (ℝ × ℝ)} {k : ℝ} (h : blurFactor g1 g2 x = some k) :
    0 ≤ k ∧ (0 < k ∨ match x with | .d0 _ => False | .d1 n _ => n = 0 | .d2 r _ _ => r = 0) := by
  have hp : ∀ (n : ℕ) (g : ℝ × ℝ) (k : ℝ), pxPerVolt n g = some k → 0 ≤ k ∧ (0 < k ∨ n = 0) := by
    intro n g k h
    unfold pxPerVolt at h
    split_ifs at h with h0
    rw [Option.some.injEq] at h
    have hpos : 0 < max g.1 g.2 - min g.1 g.2 := lt_of_le_of_ne (sub_nonneg.2 (min_le_max)) (Ne.symm h0)
    subst h
    refine ⟨by positivity, ?_⟩
    rcases Nat.eq_zero_or_pos n with hn | hn
    · exact .inr hn
    · exact .inl (by positivity)
  cases x with
  | d0 v => simp [blurFactor] at h
  | d1 n f =>
    simp only [blurFactor] at h
    split_ifs at h
    · exact hp _ _ _ h
    · exact hp _ _ _ h
    · unfold optMax at h
      obtain ⟨a, ha, h⟩ := Option.bind_eq_some_iff.1 h
      obtain ⟨b, hb, rfl⟩ := Option.map_eq_some_iff.1 h
      have h1 := hp _ _ _ ha
      have h2 := hp _ _ _ hb
      exact ⟨le_max_of_le_left h1.1, h1.2.imp (fun h => lt_max_of_lt_left h) id⟩
  | d2 r c f => exact hp _ _ _ h

/-- What averaging along the rows means for a 2D scan: constant rows stay constant, values stay within the range of their
row, the total occupation is averaged with the same weights, and the sum over each row is kept. -/
theorem blurred_2d {A : (n : ℕ) → Fin n → Fin n → ℝ} {r c : ℕ} {f g : Fin r → Fin c → ℝ × ℝ} (hA : Averaging (A c))
    (h : Blurred A (.d2 r c f) (.d2 r c g)) (i : Fin r) :
    (∀ v, (∀ q, f i q = v) → ∀ p, g i p = v) ∧
    (∀ a b, (∀ q, a ≤ (f i q).1 ∧ (f i q).1 ≤ b) → ∀ p, a ≤ (g i p).1 ∧ (g i p).1 ≤ b) ∧
    (∀ a b, (∀ q, a ≤ (f i q).2 ∧ (f i q).2 ≤ b) → ∀ p, a ≤ (g i p).2 ∧ (g i p).2 ≤ b) ∧
    (∀ p, (g i p).1 + (g i p).2 = average (A c) (fun q => (f i q).1 + (f i q).2) p) ∧
    ∑ p, (g i p).1 = ∑ q, (f i q).1 ∧ ∑ p, (g i p).2 = ∑ q, (f i q).2 := by
  obtain ⟨g', e, h⟩ := h
  cases e
  have hc : ∀ v p, average (A c) (fun _ => v) p = v := by
    intro v p
    unfold average
    rw [← Finset.sum_mul, hA.rows, one_mul]
  have hle : ∀ (u v : Fin c → ℝ), (∀ q, u q ≤ v q) → ∀ p, average (A c) u p ≤ average (A c) v p := by
    intro u v huv p
    exact Finset.sum_le_sum fun q _ => mul_le_mul_of_nonneg_left (huv q) (hA.nonneg p q)
  have hs : ∀ u : Fin c → ℝ, ∑ p, average (A c) u p = ∑ q, u q := by
    intro u
    unfold average
    rw [Finset.sum_comm]
    refine Finset.sum_congr rfl fun q _ => ?_
    rw [← Finset.sum_mul, hA.cols, one_mul]
  refine ⟨?_, ?_, ?_, ?_, ?_, ?_⟩
  · intro v hv p
    refine Prod.ext ?_ ?_
    · rw [(h i p).1]; simp only [hv]; exact hc _ _
    · rw [(h i p).2]; simp only [hv]; exact hc _ _
  · intro a b hv p
    rw [(h i p).1]
    exact ⟨(hc a p).symm.le.trans (hle _ _ (fun q => (hv q).1) p), (hle _ _ (fun q => (hv q).2) p).trans (hc b p).le⟩
  · intro a b hv p
    rw [(h i p).2]
    exact ⟨(hc a p).symm.le.trans (hle _ _ (fun q => (hv q).1) p), (hle _ _ (fun q => (hv q).2) p).trans (hc b p).le⟩
  · intro p
    rw [(h i p).1, (h i p).2]
    unfold average
    rw [← Finset.sum_add_distrib]
    exact Finset.sum_congr rfl fun q _ => by ring
  · rw [← hs (fun q => (f i q).1)]
    exact Finset.sum_congr rfl fun p _ => (h i p).1
  · rw [← hs (fun q => (f i q).2)]
    exact Finset.sum_congr rfl fun p _ => (h i p).2

end SimCATS
