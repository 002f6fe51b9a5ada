import Verif.Spec.ImageDecision
import Verif.Lemmas.LastTransition

/-! The images that are returned are those that do not see the last transition. -/

namespace SimCATS

open Spec

variable {cfg : IdealCfg} {curves : List (ℝ → ℝ)}

theorem pixelSide_eq (g : ℝ × ℝ) (n : ℕ) : pixStep (sortLim g) n = pixelSide g n := by
  unfold pixStep sortLim pixelSide
  rw [max_sub_min_eq_abs]

theorem along_eq (rot : ℝ) (v : ℝ × ℝ) : (rotatePoint (-rot) v).1 = alongTransition rot v := by
  unfold rotatePoint alongTransition
  simp only [Real.cos_neg, Real.sin_neg]
  ring

/-- The smallest and largest corner do not depend on the sweep directions. -/
theorem corners_sort (F : ℝ × ℝ → ℝ) (g1 g2 : ℝ × ℝ) :
    min (min (F ((sortLim g1).1, (sortLim g2).1)) (F ((sortLim g1).1, (sortLim g2).2))) (min (F ((sortLim g1).2, (sortLim g2).1))
      (F ((sortLim g1).2, (sortLim g2).2))) = min (min (F (g1.1, g2.1)) (F (g1.1, g2.2))) (min (F (g1.2, g2.1)) (F (g1.2, g2.2))) ∧
    max (max (F ((sortLim g1).1, (sortLim g2).1)) (F ((sortLim g1).1, (sortLim g2).2))) (max (F ((sortLim g1).2, (sortLim g2).1))
      (F ((sortLim g1).2, (sortLim g2).2))) = max (max (F (g1.1, g2.1)) (F (g1.1, g2.2))) (max (F (g1.2, g2.1)) (F (g1.2, g2.2))) := by
  unfold sortLim
  rcases le_total g1.1 g1.2 with h1 | h1 <;> rcases le_total g2.1 g2.2 with h2 | h2 <;>
    simp only [min_eq_left h1, min_eq_right h1, max_eq_left h1, max_eq_right h1, min_eq_left h2, min_eq_right h2, max_eq_left h2, max_eq_right h2]
  · exact ⟨trivial, trivial⟩
  · simp only [min_comm (F (g1.1, g2.2)), min_comm (F (g1.2, g2.2)), max_comm (F (g1.1, g2.2)), max_comm (F (g1.2, g2.2)), and_self]
  · exact ⟨min_comm _ _, max_comm _ _⟩
  · rw [min_comm (min _ _), max_comm (max _ _)]
    simp only [min_comm (F (g1.1, g2.2)), min_comm (F (g1.2, g2.2)), max_comm (F (g1.1, g2.2)), max_comm (F (g1.2, g2.2)), and_self]

theorem sample_eq (rot : ℝ) (g1 g2 : ℝ × ℝ) {r c : ℕ} (m : Fin ((c + r) * 4)) :
    sampleXs rot (sortLim g1) (sortLim g2) c r m = samplePosition rot g1 g2 r c m := by
  obtain ⟨h1, h2⟩ := corners_sort (alongTransition rot) g1 g2
  have e1 : listMin (cornersX rot (sortLim g1) (sortLim g2)) = min (min (alongTransition rot (g1.1, g2.1)) (alongTransition rot (g1.1, g2.2)))
      (min (alongTransition rot (g1.2, g2.1)) (alongTransition rot (g1.2, g2.2))) := by
    rw [← h1]
    unfold cornersX
    simp only [along_eq, List.map_cons, List.map_nil, listMin, List.foldl_cons, List.foldl_nil, min_assoc]
  have e2 : listMax (cornersX rot (sortLim g1) (sortLim g2)) = max (max (alongTransition rot (g1.1, g2.1)) (alongTransition rot (g1.1, g2.2)))
      (max (alongTransition rot (g1.2, g2.1)) (alongTransition rot (g1.2, g2.2))) := by
    rw [← h2]
    unfold cornersX
    simp only [along_eq, List.map_cons, List.map_nil, listMax, List.foldl_cons, List.foldl_nil, max_assoc]
  unfold sampleXs samplePosition
  rw [e1, e2, pixelSide_eq]
  unfold linspace linAt
  dsimp only
  push_cast
  rw [show ((c : ℝ) + r) * 4 - 1 = 4 * (r + c) - 1 by ring]

/-- The sampled points of a transition. -/
theorem samples_inside {f : ℝ → ℝ} (rot : ℝ) (g1 g2 : ℝ × ℝ) {r c : ℕ} : SamplesInside rot f g1 g2 r c ↔
    ∃ m : Fin ((c + r) * 4), inImage (sortLim g1) (sortLim g2) (pixStep (sortLim g1) c) (pixStep (sortLim g2) r)
      (rotatePoint rot (sampleXs rot (sortLim g1) (sortLim g2) c r m, f (sampleXs rot (sortLim g1) (sortLim g2) c r m))) := by
  have hP : ∀ x y, rotatePoint rot (x, y) = gateVoltages rot x y := by
    intro x y
    unfold rotatePoint gateVoltages
    simp only [neg_mul, sub_eq_add_neg]
  have hI : ∀ P : ℝ × ℝ, inImage (sortLim g1) (sortLim g2) (pixStep (sortLim g1) c) (pixStep (sortLim g2) r) P ↔
      (min g1.1 g1.2 - pixelSide g1 c / 2 < P.1 ∧ P.1 < max g1.1 g1.2 + pixelSide g1 c / 2 ∧
        min g2.1 g2.2 - pixelSide g2 r / 2 < P.2 ∧ P.2 < max g2.1 g2.2 + pixelSide g2 r / 2) := by
    intro P
    rw [pixelSide_eq, pixelSide_eq]
    unfold inImage sortLim
    rw [show 0.5 * pixelSide g1 c = pixelSide g1 c / 2 by norm_num; ring, show 0.5 * pixelSide g2 r = pixelSide g2 r / 2 by norm_num; ring]
  constructor
  · rintro ⟨m, hm, x, P, rfl, rfl, h⟩
    refine ⟨⟨m, by omega⟩, ?_⟩
    rw [hI, sample_eq rot g1 g2, hP]
    exact h
  · rintro ⟨m, h⟩
    rw [hI, sample_eq rot g1 g2, hP] at h
    exact ⟨m, by omega, _, _, rfl, rfl, h⟩

theorem lastLabel_mark {near : ℝ × ℝ → Prop} : ∀ {l : List (ℕ × List (ℝ × ℝ))}, lastLabel near l ≠ 0 →
    ∃ s ∈ l, s.1 = lastLabel near l ∧ ∃ p ∈ s.2, near p
  | [], h => absurd rfl h
  | a :: l, h => by
    rw [lastLabel] at h ⊢
    by_cases hl : ∃ kp ∈ l, ∃ p ∈ kp.2, near p
    · rw [if_pos hl] at h ⊢
      obtain ⟨s, hs, h1, h2⟩ := lastLabel_mark h
      exact ⟨s, List.mem_cons_of_mem _ hs, h1, h2⟩
    · rw [if_neg hl] at h ⊢
      by_cases ha : ∃ p ∈ a.2, near p
      · rw [if_pos ha]
        exact ⟨a, List.mem_cons_self, rfl, ha⟩
      · rw [if_neg ha] at h
        exact absurd rfl h

/-- An image below the last transition is returned if and only if no sampled point of this transition lies in it. -/
theorem ideal2d_iff (ok : CfgOk cfg) {pre : List (ℝ → ℝ)} {f : ℝ → ℝ} (hcv : curves = pre ++ [f])
    (h : IsCurves cfg.lut 1 cfg.params curves) (lab : Labelling) {g1 g2 : ℝ × ℝ} (h1 : g1.1 ≠ g1.2) (h2 : g2.1 ≠ g2.2)
    {r c : ℕ} (hr : 2 ≤ r) (hc : 2 ≤ c)
    (hpix : ∀ P : ℝ × ℝ, (sortLim g1).1 ≤ P.1 → P.1 ≤ (sortLim g1).2 → (sortLim g2).1 ≤ P.2 → P.2 ≤ (sortLim g2).2 →
      (tctCoord cfg P).2 < f (tctCoord cfg P).1) :
    (SamplesInside cfg.rotation f g1 g2 r c → ideal2d cfg lab g1 g2 r c = .error .indexError) ∧
    (¬ SamplesInside cfg.rotation f g1 g2 r c → ∃ o, ideal2d cfg lab g1 g2 r c = .ok o) := by
  constructor
  · intro hs
    obtain ⟨m, hm⟩ := (samples_inside cfg.rotation g1 g2).1 hs
    exact ideal2d_touch ok hcv h lab h1 h2 hr hc m hm
  intro hs
  obtain ⟨img, him, hlab⟩ := C13_mask_2d cfg curves h (sortLim g1) (sortLim g2) c r hc hr (sortLim_lt h1) (sortLim_lt h2)
  have hlen : curves.length = pre.length + 1 := by rw [hcv]; simp
  have hplen := h.length
  have hl : ∀ i : Fin r × Fin c, img ((i.1 : ℤ), (i.2 : ℤ)) ≠ 0 → img ((i.1 : ℤ), (i.2 : ℤ)) < cfg.params.length := by
    intro i hi
    have e := hlab i.1 i.2 i.1.2 i.2.2
    rw [e] at hi ⊢
    obtain ⟨s, hsm, hs1, p, hp, hmark⟩ := lastLabel_mark hi
    rw [← hs1]
    obtain ⟨⟨f', k⟩, hk, rfl⟩ := List.mem_map.1 hsm
    dsimp only at hp ⊢
    obtain ⟨hk1, hk2, hk3⟩ := List.mem_zipIdx hk
    by_contra hn
    have hkl : k - 1 = pre.length := by omega
    refine hs ((samples_inside cfg.rotation g1 g2).2 ?_)
    have hf : curves[k - 1]'(by omega) = f := by
      have : curves[k - 1]? = some f := by
        rw [hcv, hkl, List.getElem?_append_right le_rfl]
        simp
      exact (List.getElem?_eq_some_iff.1 this).2
    rw [hk3, hf] at hp
    unfold samplePoints at hp
    rw [List.mem_ofFn] at hp
    obtain ⟨m, rfl⟩ := hp
    refine ⟨m, ?_⟩
    obtain ⟨b1, b2, b3, b4⟩ := near_inBox hc hr (sortLim_lt h1) (sortLim_lt h2) i.1.2 i.2.2 hmark.1
    have n1 := hmark.2.1
    have n2 := hmark.2.2
    change (sortLim g1).1 - pixStep (sortLim g1) c / 2 ≠ _ at n1
    change (sortLim g2).1 - pixStep (sortLim g2) r / 2 ≠ _ at n2
    unfold inImage
    norm_num
    have t1 := lt_of_le_of_ne b1 n1
    have t3 := lt_of_le_of_ne b3 n2
    exact ⟨by linarith, by linarith, by linarith, by linarith⟩
  have hb : ∀ q : Fin r × Fin c, ∃ f ∈ curves, (tctCoord cfg (pts2d (sortLim g1) (sortLim g2) r c q)).2 <
      f (tctCoord cfg (pts2d (sortLim g1) (sortLim g2) r c q)).1 := by
    intro q
    refine ⟨f, by rw [hcv]; simp, ?_⟩
    obtain ⟨a1, a2⟩ := axis_le hc (sortLim_lt h1) q.2.2
    obtain ⟨b1, b2⟩ := axis_le hr (sortLim_lt h2) q.1.2
    exact hpix _ a1 a2 b1 b2
  obtain ⟨occ, ho, -⟩ := C04_2d cfg ok curves h (pts2d (sortLim g1) (sortLim g2) r c)
    (fun ij : Fin r × Fin c => img ((ij.1 : ℤ), (ij.2 : ℤ)))
    (lab r c fun ij : Fin r × Fin c => img ((ij.1 : ℤ), (ij.2 : ℤ))) (fun i hi => hl i hi) (fun i _ => hb _)
  unfold ideal2d
  rw [him]
  simp only
  rw [ho]
  exact ⟨_, rfl⟩

end SimCATS
