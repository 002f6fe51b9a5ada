import Verif.Props.LeadMask
import Verif.Props.IdealCsd
import Verif.Spec.Components
import Mathlib.Topology.Order.IntermediateValue
import Mathlib.Topology.Algebra.Order.Field
import Mathlib.Topology.Order.LiminfLimsup
import Mathlib.Topology.MetricSpace.Pseudo.Defs
import Mathlib.Algebra.Order.Round

/-! Regions of unlabelled pixels do not reach across a transition if the transition is sampled densely enough. -/

namespace SimCATS

open Spec

theorem rotatePoint_sub (a : ℝ) (P Q : ℝ × ℝ) :
    (rotatePoint a P).1 - (rotatePoint a Q).1 = (rotatePoint a (P.1 - Q.1, P.2 - Q.2)).1 ∧
      (rotatePoint a P).2 - (rotatePoint a Q).2 = (rotatePoint a (P.1 - Q.1, P.2 - Q.2)).2 := by
  unfold rotatePoint
  constructor <;> ring

theorem abs_rotate_le (a : ℝ) (u : ℝ × ℝ) {d : ℝ} (hd : 0 ≤ d) (h : u.1 ^ 2 + u.2 ^ 2 ≤ d ^ 2) :
    |(rotatePoint a u).1| ≤ d ∧ |(rotatePoint a u).2| ≤ d := by
  have hs := Real.sin_sq_add_cos_sq a
  have e : (rotatePoint a u).1 ^ 2 + (rotatePoint a u).2 ^ 2 = u.1 ^ 2 + u.2 ^ 2 := by
    unfold rotatePoint
    simp only
    linear_combination (u.1 ^ 2 + u.2 ^ 2) * hs
  constructor
  · exact abs_le_of_sq_le_sq (by nlinarith [sq_nonneg (rotatePoint a u).2]) hd
  · exact abs_le_of_sq_le_sq (by nlinarith [sq_nonneg (rotatePoint a u).1]) hd

theorem rotate_back_pos (a : ℝ) (P : ℝ × ℝ) : rotatePoint a (rotatePoint (-a) P) = P := by
  have hs := Real.sin_sq_add_cos_sq a
  unfold rotatePoint
  simp only [Real.cos_neg, Real.sin_neg]
  ext
  · simp only; linear_combination P.1 * hs
  · simp only; linear_combination P.2 * hs

/-- Every point between the ends of an equidistant grid is at most half a step away from the grid. -/
theorem linspace_nearest {A B x : ℝ} {n : ℕ} (hn : 2 ≤ n) (hx : A ≤ x) (hx' : x ≤ B) :
    ∃ m : Fin n, |linspace A B n m - x| ≤ (B - A) / ((n : ℝ) - 1) / 2 := by
  have hn' : (0 : ℝ) < (n : ℝ) - 1 := by
    have : (2 : ℝ) ≤ n := by exact_mod_cast hn
    linarith
  rcases (hx.trans hx').eq_or_lt with hAB | hAB
  · refine ⟨⟨0, by omega⟩, ?_⟩
    have : x = A := le_antisymm (by linarith) hx
    simp [linspace, linAt, this, hAB]
  · set δ := (B - A) / ((n : ℝ) - 1) with hδ
    have hδ0 : 0 < δ := div_pos (by linarith) hn'
    have hmul : δ * ((n : ℝ) - 1) = B - A := by rw [hδ, div_mul_cancel₀ _ hn'.ne']
    set u := (x - A) / δ with hu
    have hu0 : 0 ≤ u := div_nonneg (by linarith) hδ0.le
    have hu1 : u ≤ (n : ℝ) - 1 := by rw [hu, div_le_iff₀ hδ0]; linarith
    set z := ⌊u + 1 / 2⌋₊ with hz
    have z1 : (z : ℝ) ≤ u + 1 / 2 := Nat.floor_le (by linarith)
    have z2 : u + 1 / 2 < z + 1 := Nat.lt_floor_add_one _
    have hzn : z < n := by
      have : (z : ℝ) < n := by linarith
      exact_mod_cast this
    refine ⟨⟨z, hzn⟩, ?_⟩
    have hx0 : x - A = u * δ := by rw [hu, div_mul_cancel₀ _ hδ0.ne']
    have e : linspace A B n ⟨z, hzn⟩ - x = (z - u) * δ := by
      simp only [linspace, linAt, ← hδ]
      linear_combination -hx0
    rw [e, abs_mul, abs_of_pos hδ0]
    have : |(z : ℝ) - u| ≤ 1 / 2 := abs_le.2 ⟨by linarith, by linarith⟩
    nlinarith

/-- Points on different sides of a curve: the segment between them has a point on the curve (up to `ε`). -/
theorem crossing {L ε : ℝ} {F : ℝ → ℝ} (hF : ∀ x y, |F x - F y| ≤ L * |x - y|) (hε : 0 ≤ ε) {A B : ℝ × ℝ}
    (hA : A.2 ≤ F A.1 + ε) (hB : F B.1 - ε ≤ B.2) :
    ∃ t : ℝ, 0 ≤ t ∧ t ≤ 1 ∧ |A.2 + t * (B.2 - A.2) - F (A.1 + t * (B.1 - A.1))| ≤ ε := by
  set g : ℝ → ℝ := fun t => F (A.1 + t * (B.1 - A.1)) - (A.2 + t * (B.2 - A.2)) with hg
  by_cases h1 : g 0 ≤ ε
  · refine ⟨0, le_rfl, zero_le_one, ?_⟩
    simp only [hg, zero_mul, add_zero] at h1
    rw [zero_mul, add_zero, zero_mul, add_zero, abs_le]
    constructor <;> linarith
  by_cases h2 : -ε ≤ g 1
  · refine ⟨1, zero_le_one, le_rfl, ?_⟩
    simp only [hg, one_mul] at h2
    rw [one_mul, one_mul, abs_le]
    rw [add_sub_cancel] at h2
    rw [add_sub_cancel] at h2
    rw [add_sub_cancel, add_sub_cancel]
    constructor <;> linarith
  push Not at h1 h2
  have hFc : Continuous F := by
    have hL : ∀ x y, dist (F x) (F y) ≤ L * dist x y := by
      intro x y
      rw [Real.dist_eq, Real.dist_eq]
      exact hF x y
    rw [Metric.continuous_iff]
    intro b e he
    refine ⟨e / (|L| + 1), by positivity, fun a ha => ?_⟩
    rw [lt_div_iff₀ (by positivity)] at ha
    have := hL a b
    have : L * dist a b ≤ |L| * dist a b := mul_le_mul_of_nonneg_right (le_abs_self L) dist_nonneg
    nlinarith [dist_nonneg (x := a) (y := b)]
  have hc : ContinuousOn g (Set.Icc 0 1) := by
    apply Continuous.continuousOn
    rw [hg]
    fun_prop
  obtain ⟨t, ⟨t0, t1⟩, ht⟩ := intermediate_value_Icc' zero_le_one hc (show (0 : ℝ) ∈ Set.Icc (g 1) (g 0) from ⟨by linarith, by linarith⟩)
  refine ⟨t, t0, t1, ?_⟩
  simp only [hg] at ht
  rw [abs_sub_comm, ht, abs_zero]
  exact hε

/-- Regions of two points differ only if some curve separates the points. -/
theorem region_differ {curves : List (ℝ → ℝ)} {A B : ℝ × ℝ} (h : Spec.region curves A ≠ Spec.region curves B) :
    ∃ f ∈ curves, (A.2 < f A.1 ∧ f B.1 ≤ B.2) ∨ (B.2 < f B.1 ∧ f A.1 ≤ A.2) := by
  by_contra hc
  push Not at hc
  refine h ?_
  unfold Spec.region
  have : ∀ f ∈ curves, (decide (A.2 < f A.1)) = decide (B.2 < f B.1) := by
    intro f hf
    obtain ⟨h1, h2⟩ := hc f hf
    rw [decide_eq_decide]
    exact ⟨h1, h2⟩
  clear hc h
  induction curves with
  | nil => rfl
  | cons f fs ih =>
    simp only [List.findIdx_cons]
    rw [this f (by simp), ih fun g hg => this g (List.mem_cons_of_mem _ hg)]

/-- The sampled range is not wider than the width of the rotated image plus two pixels. -/
theorem sample_step_le (rot : ℝ) {xl yl : ℝ × ℝ} {xRes yRes : ℕ} (hx : 2 ≤ xRes) (hxl : xl.1 ≤ xl.2) (hyl : yl.1 ≤ yl.2) :
    ((listMax (cornersX rot xl yl) + pixStep xl xRes) - (listMin (cornersX rot xl yl) - pixStep xl xRes)) /
      ((((xRes + yRes) * 4 : ℕ) : ℝ) - 1) ≤ sampleDistance rot (xl.2 - xl.1) (yl.2 - yl.1) yRes xRes := by
  unfold sampleDistance
  have hx' : (2 : ℝ) ≤ xRes := by exact_mod_cast hx
  have e : (((xRes + yRes) * 4 : ℕ) : ℝ) - 1 = 4 * ((xRes : ℝ) + yRes) - 1 := by push_cast; ring
  rw [e]
  refine div_le_div_of_nonneg_right ?_ (by have : (0 : ℝ) ≤ yRes := Nat.cast_nonneg _; linarith)
  have lin : ∀ a b : ℝ, (rotatePoint (-rot) (a, b)).1 = Real.cos rot * a + Real.sin rot * b := by
    intro a b; simp [rotatePoint]
  have hw : 0 ≤ xl.2 - xl.1 := by linarith
  have hh : 0 ≤ yl.2 - yl.1 := by linarith
  have key : listMax (cornersX rot xl yl) - listMin (cornersX rot xl yl) ≤
      (xl.2 - xl.1) * |Real.cos rot| + (yl.2 - yl.1) * |Real.sin rot| := by
    simp only [listMax, listMin, cornersX, List.map_cons, List.map_nil, List.foldl_cons, List.foldl_nil, lin]
    have c1 := le_abs_self (Real.cos rot); have c2 := neg_abs_le (Real.cos rot)
    have s1 := le_abs_self (Real.sin rot); have s2 := neg_abs_le (Real.sin rot)
    have p1 := mul_nonneg hw (sub_nonneg.2 c1); have p2 := mul_nonneg hw (sub_nonneg.2 c2)
    have p3 := mul_nonneg hh (sub_nonneg.2 s1); have p4 := mul_nonneg hh (sub_nonneg.2 s2)
    have p5 := mul_nonneg hw (abs_nonneg (Real.cos rot)); have p6 := mul_nonneg hh (abs_nonneg (Real.sin rot))
    rw [sub_le_iff_le_add]
    refine max_le (max_le (max_le ?_ ?_) ?_) ?_ <;>
    · rw [← sub_le_iff_le_add']
      refine le_min (le_min (le_min ?_ ?_) ?_) ?_ <;> nlinarith
  unfold pixStep
  linarith

variable {cfg : IdealCfg} {curves : List (ℝ → ℝ)} {xl yl : ℝ × ℝ} {xRes yRes : ℕ}

/-- A point of the image on a curve has a sampled point of the curve nearby. -/
theorem sample_near {L ε η : ℝ} {f F : ℝ → ℝ} (hF : ∀ x y, |F x - F y| ≤ L * |x - y|) (hf : ∀ x, |f x - F x| ≤ ε)
    (hx : 2 ≤ xRes) (hxl : xl.1 < xl.2) (hyl : yl.1 ≤ yl.2)
    (hd : Real.sqrt (1 + L ^ 2) * sampleDistance cfg.rotation (xl.2 - xl.1) (yl.2 - yl.1) yRes xRes + 4 * ε < η) {X Y : ℝ}
    (h1 : xl.1 ≤ X) (h2 : X ≤ xl.2) (h3 : yl.1 ≤ Y) (h4 : Y ≤ yl.2)
    (hc : |(tctCoord cfg (X, Y)).2 - F (tctCoord cfg (X, Y)).1| ≤ ε) :
    ∃ p ∈ samplePoints cfg xl yl xRes yRes f, |p.1 - X| < η / 2 ∧ |p.2 - Y| < η / 2 := by
  obtain ⟨b1, b2⟩ := C13_sampling_covers cfg.rotation xl yl xRes yRes hx hxl (by omega) X Y h1 h2 h3 h4
  set C := tctCoord cfg (X, Y) with hC
  set A := listMin (cornersX cfg.rotation xl yl) - pixStep xl xRes with hA
  set B := listMax (cornersX cfg.rotation xl yl) + pixStep xl xRes with hB
  have hn : 2 ≤ (xRes + yRes) * 4 := by omega
  have hn' : (((xRes + yRes) * 4 : ℕ) : ℝ) - 1 ≠ 0 := by
    have : (2 : ℝ) ≤ (((xRes + yRes) * 4 : ℕ) : ℝ) := by exact_mod_cast hn
    linarith
  have e0 : sampleXs cfg.rotation xl yl xRes yRes ⟨0, by omega⟩ = A := by
    simp [sampleXs, linspace, linAt, hA]
  have e1 : sampleXs cfg.rotation xl yl xRes yRes ⟨(xRes + yRes) * 4 - 1, by omega⟩ = B := by
    unfold sampleXs linspace linAt
    simp only
    rw [Nat.cast_sub (by omega), Nat.cast_one, mul_div_cancel₀ _ hn']
    ring
  rw [e0] at b1
  rw [e1] at b2
  obtain ⟨m, hm⟩ := linspace_nearest hn b1.le b2.le
  have hstep := sample_step_le cfg.rotation (yRes := yRes) hx hxl.le hyl
  set D := sampleDistance cfg.rotation (xl.2 - xl.1) (yl.2 - yl.1) yRes xRes with hD
  set x := sampleXs cfg.rotation xl yl xRes yRes m with hxm
  have hxC : |x - C.1| ≤ D / 2 := hm.trans (by linarith)
  have hε : 0 ≤ ε := (abs_nonneg _).trans (hf 0)
  have hyC : |f x - C.2| ≤ |L| * (D / 2) + 2 * ε := by
    have t1 := abs_le.1 (hf x)
    have t2 := abs_le.1 ((hF x C.1).trans ((mul_le_mul_of_nonneg_right (le_abs_self L) (abs_nonneg _)).trans
      (mul_le_mul_of_nonneg_left hxC (abs_nonneg L))))
    have t3 := abs_le.1 hc
    rw [abs_le]
    constructor <;> linarith
  refine ⟨rotatePoint cfg.rotation (x, f x), ?_, ?_⟩
  · unfold samplePoints
    rw [List.mem_ofFn]
    exact ⟨m, rfl⟩
  · have hback : rotatePoint cfg.rotation C = (X, Y) := rotate_back_pos _ _
    obtain ⟨r1, r2⟩ := rotatePoint_sub cfg.rotation (x, f x) C
    rw [hback] at r1 r2
    simp only at r1 r2
    rw [r1, r2]
    have hs : Real.sqrt (1 + L ^ 2) ^ 2 = 1 + L ^ 2 := Real.sq_sqrt (by positivity)
    have hs0 := Real.sqrt_nonneg (1 + L ^ 2)
    have hsL : |L| ≤ Real.sqrt (1 + L ^ 2) := Real.abs_le_sqrt (by linarith)
    have hD0 : 0 ≤ D := by linarith [abs_nonneg (x - C.1)]
    have hL2 : |L| ^ 2 = L ^ 2 := sq_abs L
    have hle := abs_rotate_le cfg.rotation (x - C.1, f x - C.2) (d := Real.sqrt (1 + L ^ 2) * (D / 2) + 2 * ε)
      (by positivity) (by
        have q1 : (x - C.1) ^ 2 ≤ (D / 2) ^ 2 := sq_le_sq' (abs_le.1 hxC).1 (abs_le.1 hxC).2
        have q2 : (f x - C.2) ^ 2 ≤ (|L| * (D / 2) + 2 * ε) ^ 2 := sq_le_sq' (abs_le.1 hyC).1 (abs_le.1 hyC).2
        simp only
        have q3 : (Real.sqrt (1 + L ^ 2) * (D / 2) + 2 * ε) ^ 2 - (D / 2) ^ 2 - (|L| * (D / 2) + 2 * ε) ^ 2 =
            4 * ε * (D / 2) * (Real.sqrt (1 + L ^ 2) - |L|) := by
          linear_combination (D / 2) ^ 2 * hs - (D / 2) ^ 2 * hL2
        have q4 : 0 ≤ 4 * ε * (D / 2) * (Real.sqrt (1 + L ^ 2) - |L|) := by
          apply mul_nonneg (by positivity) (by linarith)
        linarith)
    constructor
    · exact hle.1.trans_lt (by linarith)
    · exact hle.2.trans_lt (by linarith)

theorem lastLabel_ne_zero {near : ℝ × ℝ → Prop} : ∀ {l : List (ℕ × List (ℝ × ℝ))}, (∀ s ∈ l, s.1 ≠ 0) →
    (∃ s ∈ l, ∃ p ∈ s.2, near p) → lastLabel near l ≠ 0
  | [], _, ⟨s, hs, _⟩ => absurd hs (by simp)
  | a :: l, h0, ⟨s, hs, p, hp, hn⟩ => by
    rw [lastLabel]
    by_cases hl : ∃ kp ∈ l, ∃ p ∈ kp.2, near p
    · rw [if_pos hl]
      exact lastLabel_ne_zero (fun s hs => h0 s (List.mem_cons_of_mem _ hs)) hl
    · rw [if_neg hl]
      rcases List.mem_cons.1 hs with rfl | hs
      · rw [if_pos ⟨p, hp, hn⟩]
        exact h0 _ (by simp)
      · exact absurd ⟨s, hs, p, hp, hn⟩ hl

/-- A point close to the horizontal or vertical segment between two adjacent pixels marks one of them. -/
theorem marks_pair (hx : 2 ≤ xRes) (hy : 2 ≤ yRes) (hxl : xl.1 < xl.2) (hyl : yl.1 < yl.2) {i j i' j' : ℕ}
    (hij : (i = i' ∧ j + 1 = j') ∨ (j = j' ∧ i + 1 = i')) {X Y : ℝ}
    (hX : axisVolt xl xRes j ≤ X) (hX' : X ≤ axisVolt xl xRes j') (hY : axisVolt yl yRes i ≤ Y) (hY' : Y ≤ axisVolt yl yRes i')
    {p : ℝ × ℝ} (h1 : |p.1 - X| < pixStep xl xRes / 2) (h2 : |p.2 - Y| < pixStep yl yRes / 2) :
    Marks xl yl xRes yRes i j p ∨ Marks xl yl xRes yRes i' j' p := by
  have sx := pixStep_pos hx hxl
  have sy := pixStep_pos hy hyl
  have a1 : ∀ n, xl.1 ≤ axisVolt xl xRes n := fun n => by
    unfold axisVolt
    exact le_add_of_nonneg_right (mul_nonneg (Nat.cast_nonneg _) sx.le)
  have a2 : ∀ n, yl.1 ≤ axisVolt yl yRes n := fun n => by
    unfold axisVolt
    exact le_add_of_nonneg_right (mul_nonneg (Nat.cast_nonneg _) sy.le)
  have b1 : ∀ n, axisVolt xl xRes (n + 1) = axisVolt xl xRes n + pixStep xl xRes := fun n => by
    unfold axisVolt pixStep
    push_cast
    ring
  have b2 : ∀ n, axisVolt yl yRes (n + 1) = axisVolt yl yRes n + pixStep yl yRes := fun n => by
    unfold axisVolt pixStep
    push_cast
    ring
  have x0 := a1 j
  have y0 := a2 i
  rw [abs_lt] at h1 h2
  unfold Marks NearPixel
  change (_ - pixStep xl xRes / 2 ≤ _ ∧ _ < _ + pixStep xl xRes / 2 ∧ _ - pixStep yl yRes / 2 ≤ _ ∧ _ < _ + pixStep yl yRes / 2) ∧
    _ - pixStep xl xRes / 2 ≠ _ ∧ _ - pixStep yl yRes / 2 ≠ _ ∨
    (_ - pixStep xl xRes / 2 ≤ _ ∧ _ < _ + pixStep xl xRes / 2 ∧ _ - pixStep yl yRes / 2 ≤ _ ∧ _ < _ + pixStep yl yRes / 2) ∧
    _ - pixStep xl xRes / 2 ≠ _ ∧ _ - pixStep yl yRes / 2 ≠ _
  have n1 : xl.1 - pixStep xl xRes / 2 ≠ p.1 := by
    intro h; linarith
  have n2 : yl.1 - pixStep yl yRes / 2 ≠ p.2 := by
    intro h; linarith
  rcases hij with ⟨rfl, rfl⟩ | ⟨rfl, rfl⟩
  · rw [b1] at hX' ⊢
    rcases lt_or_ge p.1 (axisVolt xl xRes j + pixStep xl xRes / 2) with h | h
    · exact Or.inl ⟨⟨by linarith, h, by linarith, by linarith⟩, n1, n2⟩
    · exact Or.inr ⟨⟨by linarith, by linarith, by linarith, by linarith⟩, n1, n2⟩
  · rw [b2] at hY' ⊢
    rcases lt_or_ge p.2 (axisVolt yl yRes i + pixStep yl yRes / 2) with h | h
    · exact Or.inl ⟨⟨by linarith, by linarith, by linarith, h⟩, n1, n2⟩
    · exact Or.inr ⟨⟨by linarith, by linarith, by linarith, by linarith⟩, n1, n2⟩

/-- The transitions are sampled densely enough: a curve within `ε` of slopes at most `L` cannot pass between the sampled points of two
neighbouring pixels. -/
def DenseSampling (cfg : IdealCfg) (curves : List (ℝ → ℝ)) (L ε : ℝ) (xl yl : ℝ × ℝ) (xRes yRes : ℕ) : Prop :=
  (∀ f ∈ curves, NearLipschitz L ε f) ∧
    Real.sqrt (1 + L ^ 2) * sampleDistance cfg.rotation (xl.2 - xl.1) (yl.2 - yl.1) yRes xRes + 4 * ε <
      min (pixStep xl xRes) (pixStep yl yRes)

theorem axisVolt_mem {lim : ℝ × ℝ} {n : ℕ} (hn : 2 ≤ n) (h : lim.1 ≤ lim.2) {k : ℕ} (hk : k < n) :
    lim.1 ≤ axisVolt lim n k ∧ axisVolt lim n k ≤ lim.2 := by
  have hn' : (0 : ℝ) < (n : ℝ) - 1 := by
    have : (2 : ℝ) ≤ n := by exact_mod_cast hn
    linarith
  have hs : 0 ≤ (lim.2 - lim.1) / ((n : ℝ) - 1) := div_nonneg (by linarith) hn'.le
  have hk' : (k : ℝ) ≤ (n : ℝ) - 1 := by
    have : (k : ℝ) + 1 ≤ n := by exact_mod_cast hk
    linarith
  unfold axisVolt
  constructor
  · exact le_add_of_nonneg_right (mul_nonneg (Nat.cast_nonneg _) hs)
  · have := mul_le_mul_of_nonneg_right hk' hs
    rw [mul_div_cancel₀ _ hn'.ne'] at this
    linarith

theorem rotatePoint_segment (a : ℝ) (P Q : ℝ × ℝ) (t : ℝ) :
    rotatePoint a (P.1 + t * (Q.1 - P.1), P.2 + t * (Q.2 - P.2)) =
      ((rotatePoint a P).1 + t * ((rotatePoint a Q).1 - (rotatePoint a P).1),
        (rotatePoint a P).2 + t * ((rotatePoint a Q).2 - (rotatePoint a P).2)) := by
  unfold rotatePoint
  ext <;> simp only <;> ring

/-- No curve passes between two unlabelled pixels in order. -/
theorem not_separated {L ε : ℝ} (h : IsCurves cfg.lut 1 cfg.params curves) (hd : DenseSampling cfg curves L ε xl yl xRes yRes)
    (hx : 2 ≤ xRes) (hy : 2 ≤ yRes) (hxl : xl.1 < xl.2) (hyl : yl.1 < yl.2) {img : ℤ × ℤ → ℕ}
    (him : leadMask2d cfg xl yl xRes yRes = .ok img) {i j i' j' : ℕ} (hi : i < yRes) (hj : j < xRes) (hi' : i' < yRes) (hj' : j' < xRes)
    (hij : (i = i' ∧ j + 1 = j') ∨ (j = j' ∧ i + 1 = i')) (h0 : img (i, j) = 0) (h0' : img (i', j') = 0) :
    Spec.region curves (tctCoord cfg (axisVolt xl xRes j, axisVolt yl yRes i)) =
      Spec.region curves (tctCoord cfg (axisVolt xl xRes j', axisVolt yl yRes i')) := by
  by_contra hne
  obtain ⟨f, hf, hs⟩ := region_differ hne
  obtain ⟨img', e, hl⟩ := C13_mask_2d cfg curves h xl yl xRes yRes hx hy hxl hyl
  rw [him] at e
  cases e
  rw [hl i j hi hj] at h0
  rw [hl i' j' hi' hj'] at h0'
  obtain ⟨F, hF, hFf⟩ := hd.1 f hf
  have hε : 0 ≤ ε := (abs_nonneg _).trans (hFf 0)
  set P : ℝ × ℝ := (axisVolt xl xRes j, axisVolt yl yRes i) with hP
  set Q : ℝ × ℝ := (axisVolt xl xRes j', axisVolt yl yRes i') with hQ
  obtain ⟨t, t0, t1, ht⟩ : ∃ t : ℝ, 0 ≤ t ∧ t ≤ 1 ∧
      |(tctCoord cfg (P.1 + t * (Q.1 - P.1), P.2 + t * (Q.2 - P.2))).2 -
        F (tctCoord cfg (P.1 + t * (Q.1 - P.1), P.2 + t * (Q.2 - P.2))).1| ≤ ε := by
    have f1 := abs_le.1 (hFf (tctCoord cfg P).1)
    have f2 := abs_le.1 (hFf (tctCoord cfg Q).1)
    rcases hs with ⟨s1, s2⟩ | ⟨s1, s2⟩
    · obtain ⟨t, t0, t1, ht⟩ := crossing hF hε (A := tctCoord cfg P) (B := tctCoord cfg Q) (by linarith) (by linarith)
      refine ⟨t, t0, t1, ?_⟩
      rw [tctCoord, rotatePoint_segment]
      exact ht
    · obtain ⟨t, t0, t1, ht⟩ := crossing hF hε (A := tctCoord cfg Q) (B := tctCoord cfg P) (by linarith) (by linarith)
      refine ⟨1 - t, by linarith, by linarith, ?_⟩
      rw [tctCoord, rotatePoint_segment]
      have e1 : ∀ a b : ℝ, a + (1 - t) * (b - a) = b + t * (a - b) := by intro a b; ring
      simp only [e1]
      exact ht
  have mono1 : axisVolt xl xRes j ≤ axisVolt xl xRes j' := by
    have sx := pixStep_pos hx hxl
    unfold axisVolt
    have : (j : ℝ) ≤ j' := by
      have : j ≤ j' := by omega
      exact_mod_cast this
    have := mul_le_mul_of_nonneg_right this sx.le
    unfold pixStep at this
    linarith
  have mono2 : axisVolt yl yRes i ≤ axisVolt yl yRes i' := by
    have sy := pixStep_pos hy hyl
    unfold axisVolt
    have : (i : ℝ) ≤ i' := by
      have : i ≤ i' := by omega
      exact_mod_cast this
    have := mul_le_mul_of_nonneg_right this sy.le
    unfold pixStep at this
    linarith
  have X1 : axisVolt xl xRes j ≤ P.1 + t * (Q.1 - P.1) := by
    simp only [hP, hQ]; nlinarith
  have X2 : P.1 + t * (Q.1 - P.1) ≤ axisVolt xl xRes j' := by
    simp only [hP, hQ]; nlinarith
  have Y1 : axisVolt yl yRes i ≤ P.2 + t * (Q.2 - P.2) := by
    simp only [hP, hQ]; nlinarith
  have Y2 : P.2 + t * (Q.2 - P.2) ≤ axisVolt yl yRes i' := by
    simp only [hP, hQ]; nlinarith
  obtain ⟨p, hp, q1, q2⟩ := sample_near (cfg := cfg) hF hFf hx hxl hyl.le hd.2
    ((axisVolt_mem hx hxl.le hj).1.trans X1) (X2.trans (axisVolt_mem hx hxl.le hj').2)
    ((axisVolt_mem hy hyl.le hi).1.trans Y1) (Y2.trans (axisVolt_mem hy hyl.le hi').2) ht
  have m1 := min_le_left (pixStep xl xRes) (pixStep yl yRes)
  have m2 := min_le_right (pixStep xl xRes) (pixStep yl yRes)
  obtain ⟨n, hn⟩ := List.mem_iff_getElem?.1 hf
  have hmem : (n + 1, samplePoints cfg xl yl xRes yRes f) ∈
      (curves.zipIdx 1).map fun fi => (fi.2, samplePoints cfg xl yl xRes yRes fi.1) := by
    rw [List.mem_map]
    refine ⟨(f, n + 1), ?_, rfl⟩
    rw [List.mem_iff_getElem?]
    exact ⟨n, by rw [List.getElem?_zipIdx, hn]; simp [Nat.add_comm]⟩
  have hlab : ∀ s ∈ (curves.zipIdx 1).map fun fi => (fi.2, samplePoints cfg xl yl xRes yRes fi.1), s.1 ≠ 0 := by
    intro s hs
    rw [List.mem_map] at hs
    obtain ⟨⟨g, k⟩, hk, rfl⟩ := hs
    have := List.le_snd_of_mem_zipIdx hk
    simp only at this ⊢
    omega
  rcases marks_pair hx hy hxl hyl hij X1 X2 Y1 Y2 (q1.trans_le (by linarith)) (q2.trans_le (by linarith)) with hm | hm
  · exact lastLabel_ne_zero hlab ⟨_, hmem, p, hp, hm⟩ h0
  · exact lastLabel_ne_zero hlab ⟨_, hmem, p, hp, hm⟩ h0'

/-- All pixels of a connected unlabelled region lie in the same charge region. -/
theorem linked_region {L ε : ℝ} (h : IsCurves cfg.lut 1 cfg.params curves) (hd : DenseSampling cfg curves L ε xl yl xRes yRes)
    (hx : 2 ≤ xRes) (hy : 2 ≤ yRes) (hxl : xl.1 < xl.2) (hyl : yl.1 < yl.2) {img : ℤ × ℤ → ℕ}
    (him : leadMask2d cfg xl yl xRes yRes = .ok img) {p q : Fin yRes × Fin xRes}
    (hpq : Linked (fun ij : Fin yRes × Fin xRes => img ((ij.1 : ℤ), (ij.2 : ℤ))) p q) :
    Spec.region curves (tctCoord cfg (pts2d xl yl yRes xRes p)) = Spec.region curves (tctCoord cfg (pts2d xl yl yRes xRes q)) := by
  induction hpq with
  | refl => rfl
  | tail _ hs ih =>
    rename_i u w _
    rw [ih]
    obtain ⟨hadj, h0, h0'⟩ := hs
    rcases hadj with ⟨e, h1 | h1⟩ | ⟨e, h1 | h1⟩
    · exact not_separated h hd hx hy hxl hyl him u.1.2 u.2.2 w.1.2 w.2.2 (Or.inl ⟨congrArg Fin.val e, h1⟩) h0 h0'
    · exact (not_separated h hd hx hy hxl hyl him w.1.2 w.2.2 u.1.2 u.2.2 (Or.inl ⟨(congrArg Fin.val e).symm, h1⟩) h0' h0).symm
    · exact not_separated h hd hx hy hxl hyl him u.1.2 u.2.2 w.1.2 w.2.2 (Or.inr ⟨congrArg Fin.val e, h1⟩) h0 h0'
    · exact (not_separated h hd hx hy hxl hyl him w.1.2 w.2.2 u.1.2 u.2.2 (Or.inr ⟨(congrArg Fin.val e).symm, h1⟩) h0' h0).symm

end SimCATS
