import Verif.Lemmas.Glf
import Mathlib.Analysis.SpecialFunctions.Pow.Deriv

/-! The derivative of the generalized logistic function, and sums of such functions. -/

namespace SimCATS

open Filter

theorem glf_hasDerivAt (g : GlfParams) (hQ : 0 < g.Q) (hC : 0 < g.C) (off t : ℝ) :
    HasDerivAt (glf g off) ((g.K - g.A) * g.B / g.nu * (g.Q * Real.exp (-g.B * (t - off))) *
      (g.C + g.Q * Real.exp (-g.B * (t - off))) ^ (-(1 + 1 / g.nu))) t := by
  have hpos : 0 < g.C + g.Q * Real.exp (-g.B * (t - off)) := by positivity
  have h1 : HasDerivAt (fun t => g.C + g.Q * Real.exp (-g.B * (t - off))) (g.Q * (Real.exp (-g.B * (t - off)) * -g.B)) t := by
    have h0 : HasDerivAt (fun t => -g.B * (t - off)) (-g.B) t := by
      simpa using ((hasDerivAt_id t).sub_const off).const_mul (-g.B)
    exact (h0.exp.const_mul g.Q).const_add g.C
  have h2 := h1.rpow_const (p := -(1 / g.nu)) (Or.inl hpos.ne')
  have h3 := (h2.const_mul (g.K - g.A)).const_add g.A
  refine (h3.congr_deriv ?_).congr_of_eventuallyEq ?_
  · rw [show -(1 / g.nu) - 1 = -(1 + 1 / g.nu) by ring]
    ring
  · refine Eventually.of_forall fun s => ?_
    have : 0 ≤ g.C + g.Q * Real.exp (-g.B * (s - off)) := by positivity
    show glf g off s = g.A + (g.K - g.A) * (g.C + g.Q * Real.exp (-g.B * (s - off))) ^ (-(1 / g.nu))
    unfold glf
    rw [Real.rpow_neg this, div_eq_mul_inv]

/-- The `k`-th group of seven parameters. -/
theorem sumGlf_groups (t : ℝ) (n : ℕ) : ∀ l : List ℝ, l.length = 7 * n → sumGlf t l = ((List.range n).map fun k =>
    glf ⟨l.getD (7 * k) 0, l.getD (7 * k + 1) 0, l.getD (7 * k + 2) 0, l.getD (7 * k + 3) 0, l.getD (7 * k + 4) 0, l.getD (7 * k + 5) 0⟩
      (l.getD (7 * k + 6) 0) t).sum := by
  induction n with
  | zero =>
    intro l hl
    rw [List.length_eq_zero_iff.1 (by omega : l.length = 0)]
    simp [sumGlf]
  | succ n ih =>
    intro l hl
    obtain ⟨a, b, c, d, e, f, g, r, rfl⟩ : ∃ a b c d e f g r, l = a :: b :: c :: d :: e :: f :: g :: r := by
      match l, hl with
      | a :: b :: c :: d :: e :: f :: g :: r, _ => exact ⟨a, b, c, d, e, f, g, r, rfl⟩
      | [], h | [_], h | [_, _], h | [_, _, _], h | [_, _, _, _], h | [_, _, _, _, _], h | [_, _, _, _, _, _], h =>
        simp only [List.length_cons, List.length_nil] at h
        omega
    have hr : r.length = 7 * n := by
      simp only [List.length_cons] at hl
      omega
    rw [List.range_succ_eq_map, List.map_cons, List.sum_cons, List.map_map, sumGlf, ih r hr]
    congr 1

end SimCATS
