import Verif.Model.Support
import Verif.Spec.Geometry
import Verif.Lemmas.Quadratic
import Mathlib.Tactic.LinearCombination
import Mathlib.Tactic.Positivity
import Mathlib.Tactic.FieldSimp

/-! Properties C12, C40, C41, C42, C45. -/

namespace SimCATS
open Spec

/-! ### C12 rotation -/

/-- C12: rotation preserves distances. -/
theorem C12_rotate_isometry (angle : ℝ) (p q : ℝ × ℝ) :
    Spec.dist (rotatePoint angle p) (rotatePoint angle q) = Spec.dist p q := by
  unfold Spec.dist rotatePoint
  congr 1
  have h := Real.sin_sq_add_cos_sq angle
  simp only
  linear_combination ((p.1 - q.1) ^ 2 + (p.2 - q.2) ^ 2) * h

/-- C12: rotation preserves signed areas (so it never mirrors). -/
theorem C12_rotate_area (angle : ℝ) (a b c : ℝ × ℝ) :
    area2 (rotatePoint angle a) (rotatePoint angle b) (rotatePoint angle c) = area2 a b c := by
  unfold area2 rotatePoint
  have h := Real.sin_sq_add_cos_sq angle
  simp only
  linear_combination ((b.1 - a.1) * (c.2 - a.2) - (b.2 - a.2) * (c.1 - a.1)) * h

/-- C12: rotating by a sum of angles is rotating twice, for whole point lists. -/
theorem C12_rotate_add (a b : ℝ) (ps : List (ℝ × ℝ)) :
    rotatePoints (rotatePoints ps a) b = rotatePoints ps (a + b) := by
  unfold rotatePoints
  rw [List.map_map]
  apply List.map_congr_left
  intro p _
  simp only [Function.comp, rotatePoint, Real.cos_add, Real.sin_add, Prod.mk.injEq]
  constructor <;> ring

/-- C12: rotating by an angle and back is the identity, for whole point lists. -/
theorem C12_rotate_inverse (a : ℝ) (ps : List (ℝ × ℝ)) :
    rotatePoints (rotatePoints ps a) (-a) = ps := by
  rw [C12_rotate_add]
  unfold rotatePoints
  conv_rhs => rw [← List.map_id ps]
  apply List.map_congr_left
  intro p _
  simp [rotatePoint]

/-- C12: rotation by a quarter turn is counter-clockwise (fixes the orientation of the angle). -/
theorem C12_rotate_quarter (p : ℝ × ℝ) : rotatePoint (Real.pi / 2) p = (-p.2, p.1) := by
  simp [rotatePoint]

example : rotatePoint (Real.pi / 2) (1, 2) = (-2, 1) := by simp [rotatePoint]

/-! ### C40 intersections -/

/-- C40: two sloped lines with different slopes: the result is their unique common point. -/
theorem C40_line_line (m1 b1 m2 b2 : ℝ) (h : m1 ≠ m2) :
    ∃ p, lineLineIntersection (.tuple [m1, b1]) (.tuple [m2, b2]) = .ok p ∧
      ∀ q, (OnLine m1 b1 q ∧ OnLine m2 b2 q) ↔ q = p := by
  have hd : m1 - m2 ≠ 0 := sub_ne_zero.mpr h
  refine ⟨((b2 - b1) / (m1 - m2), m1 * ((b2 - b1) / (m1 - m2)) + b1), ?_, ?_⟩
  · simp [lineLineIntersection, h]
  · rintro ⟨x, y⟩
    simp only [OnLine, Prod.mk.injEq]
    constructor
    · rintro ⟨h1, h2⟩
      have hx : x = (b2 - b1) / (m1 - m2) := by
        rw [eq_div_iff hd]; linear_combination h2 - h1
      exact ⟨hx, by rw [← hx]; exact h1⟩
    · rintro ⟨hx, hy⟩
      subst hx hy
      refine ⟨rfl, ?_⟩
      field_simp
      ring

/-- C40: parallel or identical sloped lines are rejected with `ValueError`. -/
theorem C40_line_line_parallel (m b1 b2 : ℝ) :
    lineLineIntersection (.tuple [m, b1]) (.tuple [m, b2]) = .error .valueError := by
  simp [lineLineIntersection]

/-- C40: a sloped and a vertical line, in both argument orders and for int and float arguments. -/
theorem C40_line_vertical (m b c : ℝ) (v : LineArg) (hv : v = .float c ∨ ∃ k : ℤ, v = .int k ∧ (k : ℝ) = c) :
    ∃ p, lineLineIntersection (.tuple [m, b]) v = .ok p ∧ lineLineIntersection v (.tuple [m, b]) = .ok p ∧
      ∀ q, (OnLine m b q ∧ OnVertical c q) ↔ q = p := by
  refine ⟨(c, m * c + b), ?_, ?_, ?_⟩
  · rcases hv with rfl | ⟨k, rfl, rfl⟩ <;> simp [lineLineIntersection]
  · rcases hv with rfl | ⟨k, rfl, rfl⟩ <;> simp [lineLineIntersection]
  · rintro ⟨x, y⟩
    simp only [OnLine, OnVertical, Prod.mk.injEq]
    constructor
    · rintro ⟨h1, rfl⟩; exact ⟨rfl, h1⟩
    · rintro ⟨rfl, rfl⟩; exact ⟨rfl, rfl⟩

/-- C40: two vertical lines are rejected. -/
theorem C40_vertical_vertical (a b : ℝ) (k l : ℤ) :
    lineLineIntersection (.float a) (.float b) = .error .valueError ∧
    lineLineIntersection (.int k) (.float b) = .error .valueError ∧
    lineLineIntersection (.float a) (.int l) = .error .valueError ∧
    lineLineIntersection (.int k) (.int l) = .error .valueError := by
  simp [lineLineIntersection]

/-- C40: sequences of the wrong length are rejected. -/
theorem C40_bad_length (xs : List ℝ) (l : LineArg) (h : xs.length ≠ 2) :
    lineLineIntersection (.tuple xs) l = .error .valueError ∧
    lineLineIntersection l (.tuple xs) = .error .valueError := by
  simp [lineLineIntersection, h]

example : lineLineIntersection (.tuple [1, 0]) (.tuple [-1, 2]) = .ok (1, 1) := by
  have : (1 : ℝ) ≠ -1 := by norm_num
  simp [lineLineIntersection, this]; norm_num

/-- C40: a sloped line and a circle: exactly the common points are returned, without duplicates. -/
theorem C40_line_circle (m b cx cy r : ℝ) (hr : 0 < r) :
    ∃ l, lineCircleIntersection (.slope m b) cx cy r = .ok l ∧ l.Nodup ∧
      ∀ q, q ∈ l ↔ OnLine m b q ∧ OnCircle (cx, cy) r q := by
  have key : ∀ x y : ℝ, (OnLine m b (x, y) ∧ OnCircle (cx, cy) r (x, y)) ↔
      y = m * x + b ∧ (1 + m ^ 2) * x ^ 2 + (2 * (m * b - m * cy - cx)) * x +
        (cx ^ 2 + cy ^ 2 + b ^ 2 - 2 * b * cy - r ^ 2) = 0 := by
    intro x y
    simp only [OnLine, OnCircle]
    constructor
    · rintro ⟨rfl, h⟩; exact ⟨rfl, by linear_combination h⟩
    · rintro ⟨rfl, h⟩; exact ⟨rfl, by linear_combination h⟩
  have hA : (0 : ℝ) < 1 + m ^ 2 := by positivity
  unfold lineCircleIntersection
  rw [if_neg (not_le.mpr hr)]
  simp only
  generalize 2 * (m * b - m * cy - cx) = B at *
  generalize cx ^ 2 + cy ^ 2 + b ^ 2 - 2 * b * cy - r ^ 2 = C at *
  generalize 1 + m ^ 2 = A at *
  have h2A : (2 * A) ≠ 0 := by positivity
  split_ifs with h1 h2
  · refine ⟨[], rfl, by simp, ?_⟩
    rintro ⟨x, y⟩
    rw [key]
    simp only [List.not_mem_nil, false_iff, not_and]
    intro _ h
    nlinarith [sq_nonneg (2 * A * x + B)]
  · refine ⟨_, rfl, by simp, ?_⟩
    rintro ⟨x, y⟩
    rw [key, quad_roots hA h2.ge, h2]
    simp only [List.mem_singleton, Prod.mk.injEq, Real.sqrt_zero, add_zero, sub_zero, or_self]
    constructor
    · rintro ⟨rfl, rfl⟩; exact ⟨rfl, rfl⟩
    · rintro ⟨rfl, rfl⟩; exact ⟨rfl, rfl⟩
  · have hd : 0 < B ^ 2 - 4 * A * C := lt_of_le_of_ne (not_lt.mp h1) (Ne.symm h2)
    refine ⟨_, rfl, ?_, ?_⟩
    · have hs := Real.sqrt_pos.mpr hd
      simp only [List.nodup_cons, List.mem_singleton, Prod.mk.injEq, not_and, List.not_mem_nil,
        not_false_eq_true, List.nodup_nil, and_self, and_true]
      intro h
      rw [div_left_inj' h2A] at h
      linarith
    · rintro ⟨x, y⟩
      rw [key, quad_roots hA hd.le]
      simp only [List.mem_cons, Prod.mk.injEq, List.not_mem_nil, or_false]
      constructor
      · rintro (⟨rfl, rfl⟩ | ⟨rfl, rfl⟩)
        · exact ⟨rfl, Or.inl rfl⟩
        · exact ⟨rfl, Or.inr rfl⟩
      · rintro ⟨rfl, rfl | rfl⟩
        · exact Or.inl ⟨rfl, rfl⟩
        · exact Or.inr ⟨rfl, rfl⟩

/-- C40: a vertical line and a circle: exactly the common points are returned, without duplicates. -/
theorem C40_vertical_circle (c cx cy r : ℝ) (hr : 0 < r) :
    ∃ l, lineCircleIntersection (.vertical c) cx cy r = .ok l ∧ l.Nodup ∧
      ∀ q, q ∈ l ↔ OnVertical c q ∧ OnCircle (cx, cy) r q := by
  have key : ∀ x y : ℝ, (OnVertical c (x, y) ∧ OnCircle (cx, cy) r (x, y)) ↔
      x = c ∧ 1 * y ^ 2 + (-2 * cy) * y + (cy ^ 2 + (c - cx) ^ 2 - r ^ 2) = 0 := by
    intro x y
    simp only [OnVertical, OnCircle]
    constructor
    · rintro ⟨rfl, h⟩; exact ⟨rfl, by linear_combination h⟩
    · rintro ⟨rfl, h⟩; exact ⟨rfl, by linear_combination h⟩
  have hA : (0 : ℝ) < 1 := one_pos
  unfold lineCircleIntersection
  rw [if_neg (not_le.mpr hr)]
  simp only
  generalize -2 * cy = B at *
  generalize cy ^ 2 + (c - cx) ^ 2 - r ^ 2 = C at *
  have h2A : (2 * 1 : ℝ) ≠ 0 := by norm_num
  split_ifs with h1 h2
  · refine ⟨[], rfl, by simp, ?_⟩
    rintro ⟨x, y⟩
    rw [key]
    simp only [List.not_mem_nil, false_iff, not_and]
    intro _ h
    nlinarith [sq_nonneg (2 * y + B)]
  · refine ⟨_, rfl, by simp, ?_⟩
    rintro ⟨x, y⟩
    rw [key, quad_roots hA h2.ge, h2]
    simp
  · have hd : 0 < B ^ 2 - 4 * 1 * C := lt_of_le_of_ne (not_lt.mp h1) (Ne.symm h2)
    refine ⟨_, rfl, ?_, ?_⟩
    · have hs := Real.sqrt_pos.mpr hd
      simp only [List.nodup_cons, List.mem_singleton, Prod.mk.injEq, not_and, List.not_mem_nil,
        not_false_eq_true, List.nodup_nil, and_self, and_true]
      intro _ h
      rw [div_left_inj' h2A] at h
      linarith
    · rintro ⟨x, y⟩
      rw [key, quad_roots hA hd.le]
      simp only [List.mem_cons, Prod.mk.injEq, List.not_mem_nil, or_false]
      constructor
      · rintro (⟨rfl, rfl⟩ | ⟨rfl, rfl⟩)
        · exact ⟨rfl, Or.inl rfl⟩
        · exact ⟨rfl, Or.inr rfl⟩
      · rintro ⟨rfl, rfl | rfl⟩
        · exact Or.inl ⟨rfl, rfl⟩
        · exact Or.inr ⟨rfl, rfl⟩

/-- C40: non-positive radii are rejected with `ValueError`, all others are accepted. -/
theorem C40_radius (line : CircLine) (cx cy r : ℝ) :
    lineCircleIntersection line cx cy r = .error .valueError ↔ r ≤ 0 := by
  constructor
  · intro h
    by_contra hr
    cases line with
    | slope m b => obtain ⟨l, hl, _⟩ := C40_line_circle m b cx cy r (not_le.mp hr); rw [hl] at h; cases h
    | vertical c => obtain ⟨l, hl, _⟩ := C40_vertical_circle c cx cy r (not_le.mp hr); rw [hl] at h; cases h
  · intro h; simp [lineCircleIntersection, h]

/-- Non-vacuity: the line `y = x` meets the circle of radius `√2` around 0 in `(1, 1)`. -/
example : OnLine 1 0 (1, 1) ∧ OnCircle (0, 0) (Real.sqrt 2) (1, 1) ∧ (0 : ℝ) < Real.sqrt 2 := by
  refine ⟨by simp [OnLine], ?_, by positivity⟩
  simp only [OnCircle]
  rw [Real.sq_sqrt (by norm_num)]
  norm_num

/-! ### C41 is_point_below_line -/

/-- C41 (part that holds): integer horizontal lines and slope/intercept tuples are decided correctly.
Missing: horizontal lines given as `float`, see `C41_float_line_rejected`. -/
theorem C41_point_below_line_partial (p : ℝ × ℝ) (k : ℤ) (m b : ℝ) :
    (∃ r, isPointBelowLine p (.int k) = .ok r ∧ (r = true ↔ p.2 < k)) ∧
    (∃ r, isPointBelowLine p (.tuple [m, b]) = .ok r ∧
      (r = true ↔ ∃ q, OnLine m b q ∧ q.1 = p.1 ∧ p.2 < q.2)) := by
  refine ⟨⟨_, rfl, by simp⟩, ⟨_, rfl, ?_⟩⟩
  rw [decide_eq_true_iff]
  constructor
  · intro h; exact ⟨(p.1, m * p.1 + b), rfl, rfl, h⟩
  · rintro ⟨q, h1, h2, h3⟩
    rw [OnLine, h2] at h1
    rwa [h1] at h3

/-- C41 refuted: every horizontal line given as a `float` (as documented) raises `ValueError`. -/
theorem C41_float_line_rejected (p : ℝ × ℝ) (b : ℝ) :
    isPointBelowLine p (.float b) = .error .valueError := rfl

/-- C41, full statement: false of the code. -/
theorem C41_refuted :
    ¬ ∀ (p : ℝ × ℝ) (b : ℝ), ∃ r, isPointBelowLine p (.float b) = .ok r := by
  intro h
  obtain ⟨r, hr⟩ := h (0, 0) 1
  cases hr

/-! ### C42 signed distance -/

/-- C42: the absolute value is the distance to the line: it is attained and is a lower bound. -/
theorem C42_signed_dist_is_distance (l0 l1 p : ℝ × ℝ) (h : l0 ≠ l1) :
    (∃ t, Spec.dist p (linePoint l0 l1 t) = |signedDist l0 l1 p|) ∧
    ∀ t, |signedDist l0 l1 p| ≤ Spec.dist p (linePoint l0 l1 t) := by
  obtain ⟨a, b⟩ := l0
  obtain ⟨c, d⟩ := l1
  obtain ⟨x, y⟩ := p
  have hn : 0 < (c - a) ^ 2 + (d - b) ^ 2 := by
    rcases eq_or_ne c a with h1 | h1
    · rcases eq_or_ne d b with h2 | h2
      · exact absurd (by rw [h1, h2]) h
      · have : d - b ≠ 0 := sub_ne_zero.mpr h2
        positivity
    · have : c - a ≠ 0 := sub_ne_zero.mpr h1
      positivity
  have habs : |signedDist (a, b) (c, d) (x, y)| =
      Real.sqrt (((c - a) * (y - b) - (d - b) * (x - a)) ^ 2 / ((c - a) ^ 2 + (d - b) ^ 2)) := by
    rw [Real.sqrt_div (sq_nonneg _), Real.sqrt_sq_eq_abs]
    simp only [signedDist, cross2, norm2, Prod.mk_sub_mk, abs_div, abs_neg]
    rw [abs_of_nonneg (Real.sqrt_nonneg _)]
  rw [habs]
  constructor
  · refine ⟨((c - a) * (x - a) + (d - b) * (y - b)) / ((c - a) ^ 2 + (d - b) ^ 2), ?_⟩
    simp only [Spec.dist, linePoint]
    congr 1
    field_simp
    ring
  · intro t
    simp only [Spec.dist, linePoint]
    apply Real.sqrt_le_sqrt
    rw [div_le_iff₀ hn]
    nlinarith [sq_nonneg ((x - (a + t * (c - a))) * (c - a) + (y - (b + t * (d - b))) * (d - b))]

/-- C42: the sign is negative exactly left of the directed line `l0 → l1` (counter-clockwise triangle),
positive exactly on the right, zero exactly on the line. -/
theorem C42_signed_dist_sign (l0 l1 p : ℝ × ℝ) (h : l0 ≠ l1) :
    (signedDist l0 l1 p < 0 ↔ 0 < area2 l0 l1 p) ∧ (0 < signedDist l0 l1 p ↔ area2 l0 l1 p < 0) ∧
    (signedDist l0 l1 p = 0 ↔ ∃ t, p = linePoint l0 l1 t) := by
  obtain ⟨a, b⟩ := l0
  obtain ⟨c, d⟩ := l1
  obtain ⟨x, y⟩ := p
  have hn : 0 < (c - a) ^ 2 + (d - b) ^ 2 := by
    rcases eq_or_ne c a with h1 | h1
    · rcases eq_or_ne d b with h2 | h2
      · exact absurd (by rw [h1, h2]) h
      · have : d - b ≠ 0 := sub_ne_zero.mpr h2
        positivity
    · have : c - a ≠ 0 := sub_ne_zero.mpr h1
      positivity
  have hs := Real.sqrt_pos.mpr hn
  simp only [signedDist, cross2, norm2, area2, linePoint, Prod.mk_sub_mk, Prod.mk.injEq]
  refine ⟨?_, ?_, ?_⟩
  · rw [div_neg_iff]
    constructor
    · rintro (⟨_, h⟩ | ⟨h, _⟩) <;> linarith
    · intro h; right; exact ⟨by linarith, hs⟩
  · rw [div_pos_iff]
    constructor
    · rintro (⟨h, _⟩ | ⟨_, h⟩) <;> linarith
    · intro h; left; exact ⟨by linarith, hs⟩
  · rw [div_eq_zero_iff, or_iff_left hs.ne', neg_eq_zero]
    constructor
    · intro h
      refine ⟨((c - a) * (x - a) + (d - b) * (y - b)) / ((c - a) ^ 2 + (d - b) ^ 2), ?_, ?_⟩
      · field_simp
        linear_combination -(d - b) * h
      · field_simp
        linear_combination (c - a) * h
    · rintro ⟨t, rfl, rfl⟩
      ring

/-- C42: the value does not change when the support points move along the line without reversing it. -/
theorem C42_signed_dist_support (l0 l1 p : ℝ × ℝ) (s t : ℝ) (h : l0 ≠ l1) (hst : s < t) :
    signedDist (linePoint l0 l1 s) (linePoint l0 l1 t) p = signedDist l0 l1 p := by
  obtain ⟨a, b⟩ := l0
  obtain ⟨c, d⟩ := l1
  obtain ⟨x, y⟩ := p
  have hn : 0 < (c - a) ^ 2 + (d - b) ^ 2 := by
    rcases eq_or_ne c a with h1 | h1
    · rcases eq_or_ne d b with h2 | h2
      · exact absurd (by rw [h1, h2]) h
      · have : d - b ≠ 0 := sub_ne_zero.mpr h2
        positivity
    · have : c - a ≠ 0 := sub_ne_zero.mpr h1
      positivity
  have hts : 0 < t - s := sub_pos.mpr hst
  have hs := Real.sqrt_pos.mpr hn
  simp only [signedDist, cross2, norm2, linePoint, Prod.mk_sub_mk]
  have e : (a + t * (c - a) - (a + s * (c - a))) ^ 2 + (b + t * (d - b) - (b + s * (d - b))) ^ 2 =
      (t - s) ^ 2 * ((c - a) ^ 2 + (d - b) ^ 2) := by ring
  rw [e, Real.sqrt_mul (sq_nonneg _), Real.sqrt_sq hts.le]
  field_simp
  ring

/-- C42: reversing the line flips the sign. -/
theorem C42_signed_dist_reverse (l0 l1 p : ℝ × ℝ) :
    signedDist l1 l0 p = -signedDist l0 l1 p := by
  obtain ⟨a, b⟩ := l0
  obtain ⟨c, d⟩ := l1
  obtain ⟨x, y⟩ := p
  simp only [signedDist, cross2, norm2, Prod.mk_sub_mk]
  have e : (a - c) ^ 2 + (b - d) ^ 2 = (c - a) ^ 2 + (d - b) ^ 2 := by ring
  rw [e, ← neg_div]
  congr 1
  ring

example : signedDist (0, 0) (1, 0) (3, 2) = -2 ∧ ((0, 0) : ℝ × ℝ) ≠ (1, 0) := by
  constructor
  · simp [signedDist, cross2, norm2]
  · simp

/-! ### C45 pixel / voltage conversion -/

/-- C45: with `pixel_num = n - 1` (as the sensor calls it) the conversion gives the `np.linspace` grid of the sweep
for every pixel of every resolution of at least two; first and last pixel get the ends of the sweep. -/
theorem C45_pixel_to_volt (v0 v1 : ℝ) (n : ℕ) (hn : 2 ≤ n) (i : Fin n) :
    pixelToVolt (i : ℕ) (n - 1) v0 v1 = .ok (linspace v0 v1 n i) ∧
    linspace v0 v1 n ⟨0, by omega⟩ = v0 ∧ linspace v0 v1 n ⟨n - 1, by omega⟩ = v1 := by
  have h1 : n - 1 ≠ 0 := by omega
  have hc : ((n - 1 : ℕ) : ℝ) = (n : ℝ) - 1 := by
    rw [Nat.cast_sub (by omega)]; simp
  have hne : (n : ℝ) - 1 ≠ 0 := by rw [← hc]; exact_mod_cast h1
  refine ⟨?_, ?_, ?_⟩
  · simp only [pixelToVolt, h1, if_false, linspace, linAt, hc]
    congr 2
    ring
  · simp [linspace, linAt]
  · simp only [linspace, linAt, hc]
    field_simp
    ring

/-- C45: the grid is linear: neighbouring pixels differ by the same step in both sweep directions. -/
theorem C45_pixel_step (v0 v1 : ℝ) (n : ℕ) (i : ℕ) :
    linAt v0 v1 n (i + 1) - linAt v0 v1 n i = (v1 - v0) / ((n : ℝ) - 1) := by
  simp only [linAt]; push_cast; ring

/-- C45, boundary: a resolution of one pixel makes the conversion raise `ZeroDivisionError`. -/
theorem C45_single_pixel (pixel v0 v1 : ℝ) :
    pixelToVolt pixel (1 - 1) v0 v1 = .error .zeroDivisionError := by
  simp [pixelToVolt]

example : pixelToVolt (1 : ℕ) (3 - 1) 5 1 = .ok 3 := by
  simp [pixelToVolt]; norm_num

end SimCATS
