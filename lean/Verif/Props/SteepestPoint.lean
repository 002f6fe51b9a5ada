import Verif.Props.SensorPlacement
import Verif.Props.Peaks

/-!
Property theorems: the offset of sampled sensors at the steepest point (C65).
-/

namespace SimCATS

open Spec

variable {τ : Type}

theorem sumPeaks_lt {ps : List Peak} (hne : ps ≠ []) {u v : ℝ} (h : ∀ p ∈ ps, p.eval u < p.eval v) : sumPeaks ps u < sumPeaks ps v := by
  induction ps with
  | nil => exact absurd rfl hne
  | cons p ps ih =>
    by_cases hp : ps = []
    · subst hp
      simpa [sumPeaks] using h p (by simp)
    · have h1 := h p (by simp)
      have h2 := ih hp fun q hq => h q (List.mem_cons_of_mem _ hq)
      simp only [sumPeaks, List.map_cons, List.sum_cons] at h2 ⊢
      linarith

/-- The range of potentials of a sensor with several separated peaks is not empty. -/
theorem range_pos {lo hi : ℝ} {ps : List Peak} (h : GenericPeaks lo hi ps) : lo < hi := by
  match ps, h with
  | [], h => exact absurd h.count.1 (by simp)
  | [_], h => exact absurd h.count.1 (by simp)
  | a :: b :: rest, h =>
    have ha := h.position a (by simp)
    have hb := h.position b (by simp)
    refine lt_of_le_of_ne (ha.1.trans ha.2) fun e => ?_
    have := (List.pairwise_cons.1 h.apart).1 b (by simp)
    unfold Apart at this
    rw [e, sub_self, zero_div, show a.mu0 - b.mu0 = 0 by linarith, abs_zero] at this
    exact lt_irrefl _ this

/-- C65: with the option to start at the steepest point, the sensor offset is a point of the extended potential range on a rising
flank: the response increases from some `u` to some `v` at most one grid step `δ` away, and nowhere inside of the grid is the central
difference quotient with the same step larger. -/
theorem C65_steepest (rng : CfgRng τ) (hv : rng.Valid) (q : ℝ) (h0 : 0 < q) (h1 : q ≤ 1) (comp : Bool) (s s' : τ) (d : SensorGeneric)
    (h : sampleSensorGeneric rng q comp true s (.ok d, s')) :
    ∃ ps lo hi δ, d.peaks = some ps ∧ lo = potLow d.alphaGate d.alphaDot ∧ hi = potHigh d.alphaGate d.alphaDot ∧ 0 < δ ∧
      δ = 1.4 * (hi - lo) / 999999 ∧ lo - 0.2 * (hi - lo) ≤ d.offset ∧ d.offset ≤ hi + 0.2 * (hi - lo) ∧
      ∃ u v, d.offset - δ ≤ u ∧ u ≤ d.offset ∧ d.offset ≤ v ∧ v ≤ d.offset + δ ∧ u < v ∧ sumPeaks ps u < sumPeaks ps v ∧
        ∀ k : ℕ, 1 ≤ k → k ≤ 999998 → ∀ z, z = lo - 0.2 * (hi - lo) + k * δ →
          (sumPeaks ps (z + δ) - sumPeaks ps (z - δ)) / (2 * δ) ≤ (sumPeaks ps v - sumPeaks ps u) / (v - u) := by
  obtain ⟨d', s'', e, -, ps, hp, hg, -, hst⟩ := sampleSensorGeneric_spec hv h0 h1 comp true s _ h
  cases e
  obtain ⟨i, him, ho⟩ := hst rfl
  have hR := range_pos hg
  set lo := potLow d.alphaGate d.alphaDot
  set hi := potHigh d.alphaGate d.alphaDot
  set δ := 1.4 * (hi - lo) / 999999 with hδ
  have hδ0 : 0 < δ := by rw [hδ]; apply div_pos _ (by norm_num); exact mul_pos (by norm_num) (by linarith)
  have hgrid : ∀ j : Fin 1000000, steepGrid lo hi j = lo - 0.2 * (hi - lo) + (j : ℕ) * δ := by
    intro j
    unfold steepGrid linspace linAt
    rw [hδ]
    push_cast
    ring
  have htop : hi + 0.2 * (hi - lo) = lo - 0.2 * (hi - lo) + 999999 * δ := by rw [hδ]; ring
  set a := lo - 0.2 * (hi - lo) with ha
  have hi' : ((i : ℕ) : ℝ) ≤ 999999 := by
    have := i.2
    exact_mod_cast (by omega : (i : ℕ) ≤ 999999)
  have hi0 : (0 : ℝ) ≤ (i : ℕ) := Nat.cast_nonneg _
  refine ⟨ps, lo, hi, δ, hp, rfl, rfl, hδ0, rfl, ?_, ?_, ?_⟩
  · rw [ho, hgrid]; nlinarith
  · rw [ho, hgrid, htop]; nlinarith
  -- difference quotients are gradients divided by the step
  have hpos : 0 < gradient 999998 (fun j => sumPeaks ps (steepGrid lo hi j)) i := by
    refine lt_of_lt_of_le ?_ (him.1 ⟨0, by norm_num⟩)
    unfold gradient
    rw [dif_pos rfl]
    refine sub_pos.2 (sumPeaks_lt (by rintro rfl; exact absurd hg.count.1 (by simp)) fun p hpm => ?_)
    have hw := (hg.width p hpm).1
    have hh : 0 < p.height := by
      obtain ⟨t, t1, -, -, t2⟩ := hg.height
      have := (t2 p hpm).1
      norm_num at t1 this
      linarith
    norm_num at hw
    have hm := (hg.position p hpm).1
    refine (C20_peak p p (mk?_ok (by linarith)) hh).2.2.2.1 _ _ ?_
    rw [hgrid, hgrid]
    simp only [Nat.cast_one, one_mul, Nat.cast_zero, zero_mul, add_zero]
    have hal : a + δ < lo := by
      rw [ha, hδ]
      norm_num
      linarith
    rw [abs_of_neg (by linarith), abs_of_neg (by linarith)]
    linarith
  have hint : ∀ k : ℕ, 1 ≤ k → k ≤ 999998 → ∀ z, z = a + k * δ →
      (sumPeaks ps (z + δ) - sumPeaks ps (z - δ)) / (2 * δ) ≤
        gradient 999998 (fun j => sumPeaks ps (steepGrid lo hi j)) i / δ := by
    intro k k1 k2 z hz
    have := him.1 ⟨k, by omega⟩
    unfold gradient at this ⊢
    rw [dif_neg (by simp; omega), dif_neg (by simp; omega)] at this
    rw [div_le_div_iff₀ (by linarith) hδ0]
    have e1 : steepGrid lo hi ⟨k + 1, by omega⟩ = z + δ := by rw [hgrid, hz]; push_cast; ring
    have e2 : steepGrid lo hi ⟨k - 1, by omega⟩ = z - δ := by
      rw [hgrid, hz]
      simp only
      rw [Nat.cast_sub k1]
      push_cast
      ring
    simp only at this
    rw [e1, e2] at this
    nlinarith
  obtain ⟨u, v, b1, b2, b3, b4, huv, he⟩ : ∃ u v, d.offset - δ ≤ u ∧ u ≤ d.offset ∧ d.offset ≤ v ∧ v ≤ d.offset + δ ∧ u < v ∧
      gradient 999998 (fun j => sumPeaks ps (steepGrid lo hi j)) i / δ = (sumPeaks ps v - sumPeaks ps u) / (v - u) := by
    rw [ho, hgrid]
    unfold gradient
    by_cases c0 : i.val = 0
    · refine ⟨a, a + δ, ?_, ?_, ?_, ?_, by linarith, ?_⟩
      · rw [c0]; push_cast; linarith
      · rw [c0]; push_cast; linarith
      · rw [c0]; push_cast; linarith
      · rw [c0]; push_cast; linarith
      · rw [dif_pos c0]
        simp only [hgrid]
        push_cast
        rw [zero_mul, add_zero, one_mul, add_sub_cancel_left]
    · by_cases c1 : i.val = 999998 + 1
      · refine ⟨a + 999998 * δ, a + 999999 * δ, ?_, ?_, ?_, ?_, by linarith, ?_⟩
        · rw [c1]; push_cast; linarith
        · rw [c1]; push_cast; linarith
        · rw [c1]; push_cast; linarith
        · rw [c1]; push_cast; linarith
        · rw [dif_neg c0, dif_pos c1]
          simp only [hgrid]
          push_cast
          rw [show a + 999999 * δ - (a + 999998 * δ) = δ by ring]
      · refine ⟨a + (i : ℕ) * δ - δ, a + (i : ℕ) * δ + δ, le_rfl, by linarith, by linarith, le_rfl, by linarith, ?_⟩
        rw [dif_neg c0, dif_neg c1]
        simp only [hgrid]
        rw [Nat.cast_sub (by omega)]
        push_cast
        rw [show a + ((i : ℕ) + 1) * δ = a + (i : ℕ) * δ + δ by ring, show a + ((i : ℕ) - 1) * δ = a + (i : ℕ) * δ - δ by ring,
          show a + (i : ℕ) * δ + δ - (a + (i : ℕ) * δ - δ) = 2 * δ by ring]
        field_simp
  refine ⟨u, v, b1, b2, b3, b4, huv, ?_, fun k k1 k2 z hz => ?_⟩
  · have := div_pos hpos hδ0
    rw [he] at this
    have := (div_pos_iff_of_pos_right (sub_pos.2 huv)).1 this
    linarith
  · rw [← he]
    exact hint k k1 k2 z hz

/-- The theorem is not empty. -/
example : ∃ d s', sampleSensorGeneric fairRng 0.5 true true 0 (.ok d, s') ∧ ∃ ps, d.peaks = some ps ∧ 3 ≤ ps.length := by
  obtain ⟨d, s', h⟩ := fair_returns true
  obtain ⟨_, _, ps, e, -, hp, hg⟩ := C46_sensor_generic fairRng fairRng_valid 0.5 (by norm_num) (by norm_num) true true 0 _ h
  cases e
  exact ⟨d, s', h, ps, hp, hg.count.1⟩

end SimCATS
