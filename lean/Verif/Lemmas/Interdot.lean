import Verif.Lemmas.Occupation
import Verif.Spec.Interdot
import Verif.Props.Cdf
import Mathlib.Algebra.BigOperators.Fin

/-! Helper lemmas on the distribution of the electrons over the dots. -/

namespace SimCATS
open Spec

theorem everyOther_getElem? {α : Type} : ∀ (l : List α) (j : ℕ), (everyOther l)[j]? = l[2 * j]?
  | [], j => by simp [everyOther]
  | [a], j => by
    cases j with
    | zero => simp [everyOther]
    | succ j => simp [everyOther]
  | a :: b :: l, j => by
    cases j with
    | zero => simp [everyOther]
    | succ j =>
      have := everyOther_getElem? l j
      simp only [everyOther, List.getElem?_cons_succ, this]
      rw [show 2 * (j + 1) = 2 * j + 1 + 1 by ring, List.getElem?_cons_succ, List.getElem?_cons_succ]

theorem everyOther_ofFn {α : Type} {l : List α} {k : ℕ} (hl : l.length = 2 * k - 1) {T : Fin k → α}
    (h : ∀ j : Fin k, l[2 * (j : ℕ)]? = some (T j)) : everyOther l = List.ofFn T := by
  apply List.ext_getElem?
  intro j
  rw [everyOther_getElem?]
  by_cases hj : j < k
  · rw [h ⟨j, hj⟩, List.getElem?_ofFn]
    simp [hj]
  · rw [List.getElem?_eq_none (by omega), List.getElem?_eq_none (by simp; omega)]

theorem sumPairs_flatMap {α : Type} (cdf : ℝ → ℝ → ℝ → ℝ) (x : ℝ) (f g : α → ℝ) :
    ∀ l : List α, sumPairs cdf x (l.flatMap fun a => [f a, g a]) = (l.map fun a => cdf x (f a) (g a)).sum
  | [] => by simp [sumPairs]
  | a :: l => by
    have := sumPairs_flatMap cdf x f g l
    simp only [List.flatMap_cons, List.cons_append, List.nil_append, sumPairs, this, List.map_cons, List.sum_cons]

theorem occupationFunc_first {l0 l1 : ℝ × ℝ} {params : List ℝ} {cdf : CdfType} {pt : ℝ × ℝ} {o : ℝ × ℝ}
    (h : occupationFunc l0 l1 params cdf pt = .ok o) : o.1 = sumPairs (cdfOf cdf) (signedDist l0 l1 pt) params := by
  unfold occupationFunc at h
  rcases cdf with _ | _ | _ <;> simp only [multiCdf] at h
  · by_cases hp : params.length % 2 ≠ 0
    · simp [hp] at h
    · simp only [hp, if_false, Except.ok.injEq] at h
      rw [← h]; rfl
  · by_cases hp : params.length % 2 ≠ 0
    · simp [hp] at h
    · simp only [hp, if_false, Except.ok.injEq] at h
      rw [← h]; rfl
  · cases h

theorem signedDist_rightOf (V P a : ℝ × ℝ) : signedDist V P a = -rightOf P V a := by
  unfold signedDist rightOf cross2 area2 norm2 Spec.dist
  simp only [Prod.fst_sub, Prod.snd_sub]
  rw [show (V.1 - P.1) ^ 2 + (V.2 - P.2) ^ 2 = (P.1 - V.1) ^ 2 + (P.2 - V.2) ^ 2 by ring]
  ring

/-- Mirroring position, centre and width leaves a non-degenerate CDF unchanged. -/
theorem cdfOf_neg (cdf : CdfType) (x x0 g : ℝ) (hg : 1e-8 < |g|) :
    cdfOf cdf (-x) (-x0) (-g) = cdfOf cdf x x0 g := by
  have e : (-x - -x0) / -g = (x - x0) / g := by
    rw [show -x - -x0 = -(x - x0) by ring, neg_div_neg_eq]
  have h1 : ¬ isCloseZero g := not_le.2 hg
  have h2 : ¬ isCloseZero (-g) := by unfold isCloseZero; rw [abs_neg]; exact not_le.2 hg
  rcases cdf with _ | _ | _
  · simp only [cdfOf, sigmoidCdf, h1, h2, if_false, e]
  · simp only [cdfOf, cauchyCdf, h1, h2, if_false, e]
  · rfl

theorem cdfOf_symm {cdf : CdfType} (hc : cdf ≠ .other) (x0 g : ℝ) (h : 1e-8 < g) :
    IsSymmCdf (fun x => cdfOf cdf x x0 g) x0 := by
  rcases cdf with _ | _ | _
  · exact C16_sigmoid_cdf _ _ h
  · exact C16_cauchy_cdf _ _ h
  · exact absurd rfl hc

theorem cdfOf_step {cdf : CdfType} (hc : cdf ≠ .other) (x x0 g : ℝ) (h : |g| ≤ 1e-8) :
    cdfOf cdf x x0 g = if x0 < x then 1 else 0 := by
  rcases cdf with _ | _ | _
  · exact (C16_step _ _ _ h).1
  · exact (C16_step _ _ _ h).2
  · exact absurd rfl hc

variable {params : List TctParams} {rot : ℝ} {k : ℕ} {P V : ℝ × ℝ} {T : Fin k → Anchor}

theorem interdots_exist (h0 : 0 < k) (h1 : k < params.length) :
    ∃ P V T, Interdots (allAnchors params 1 rot) k P V T := by
  obtain ⟨up, e1, l1⟩ := allAnchors_some (rot := rot) (Nat.succ_pos k) h1
  obtain ⟨rows, e2, l2⟩ := allAnchors_some (params := params) (rot := rot) h0 h1.le
  have hj : ∀ j : Fin k, 2 * (j : ℕ) < rows.length := fun j => by have := j.2; omega
  exact ⟨rows[0].center, up[1].center, fun j => rows[2 * (j : ℕ)]'(hj j),
    ⟨up, _, e1, List.getElem?_eq_getElem (by omega), rfl⟩, ⟨rows, _, e2, List.getElem?_eq_getElem (by omega), rfl⟩,
    rows, e2, fun j => List.getElem?_eq_getElem (hj j)⟩

theorem regionOcc_first (h0 : 0 < k) (hI : Interdots (allAnchors params 1 rot) k P V T) {cdf : CdfType} {gf : ℝ}
    {pt o : ℝ × ℝ} (h : regionOcc (allAnchors params 1 rot) cdf gf k pt = .ok o) :
    o.1 = ∑ j, cdfOf cdf (-rightOf P V pt) (-rightOf P V (T j).center) (-(coupling P V (T j) / gf)) := by
  obtain ⟨⟨up, v, a1, a2, rfl⟩, ⟨rows, p, b1, b2, rfl⟩, rows', c1, c2⟩ := hI
  obtain rfl : rows = rows' := by rw [b1] at c1; exact Option.some.inj c1
  have hlen : rows.length = 2 * k - 1 := by
    by_cases hk : k ≤ params.length
    · obtain ⟨r, e, l⟩ := allAnchors_some (params := params) (rot := rot) h0 hk
      rw [b1] at e; rw [Option.some.inj e]; exact l
    · rw [allAnchors_none (by omega)] at b1; cases b1
  unfold regionOcc at h
  rw [if_neg h0.ne', a1, b1] at h
  simp only [a2, b2] at h
  rw [occupationFunc_first h]
  unfold occParams
  rw [sumPairs_flatMap, everyOther_ofFn hlen c2, List.map_ofFn, List.sum_ofFn]
  refine Finset.sum_congr rfl fun j _ => ?_
  simp only [Function.comp, signedDist_rightOf, coupling]
  congr 1
  ring

end SimCATS
