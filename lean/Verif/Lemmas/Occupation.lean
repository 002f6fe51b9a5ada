import Verif.Model.IdealCsd
import Verif.Lemmas.Cdf
import Verif.Lemmas.Anchors
import Verif.Spec.Region

/-! Helper lemmas on occupations and regions. -/

namespace SimCATS

theorem sigmoidCdf_mem (x x0 gam : ℝ) : 0 ≤ sigmoidCdf x x0 gam ∧ sigmoidCdf x x0 gam ≤ 1 := by
  unfold sigmoidCdf
  split_ifs
  · rw [stepCdf_eq]; split_ifs <;> norm_num
  · constructor <;> linarith [neg_one_lt_tanh' ((x - x0) / gam), tanh_lt_one' ((x - x0) / gam)]

theorem cauchyCdf_mem (x x0 gam : ℝ) : 0 ≤ cauchyCdf x x0 gam ∧ cauchyCdf x x0 gam ≤ 1 := by
  unfold cauchyCdf
  split_ifs
  · rw [stepCdf_eq]; split_ifs <;> norm_num
  · have hpi := Real.pi_pos
    have h1 := Real.neg_pi_div_two_lt_arctan ((x - x0) / gam)
    have h2 := Real.arctan_lt_pi_div_two ((x - x0) / gam)
    generalize Real.arctan ((x - x0) / gam) = a at *
    have e : 1 / Real.pi * a = a / Real.pi := by ring
    rw [e]
    have l : -(1 / 2) ≤ a / Real.pi := by rw [le_div_iff₀ hpi]; linarith
    have u : a / Real.pi ≤ 1 / 2 := by rw [div_le_iff₀ hpi]; linarith
    constructor <;> linarith

theorem sumPairs_mem {cdf : ℝ → ℝ → ℝ → ℝ} (h : ∀ x x0 g, 0 ≤ cdf x x0 g ∧ cdf x x0 g ≤ 1) (x : ℝ) :
    ∀ l : List ℝ, 0 ≤ sumPairs cdf x l ∧ sumPairs cdf x l ≤ (l.length : ℝ) / 2
  | [] => by simp [sumPairs]
  | [a] => by simp [sumPairs]
  | a :: b :: l => by
    have ih := sumPairs_mem h x l
    have := h x a b
    simp only [sumPairs, List.length_cons]
    push_cast
    constructor <;> linarith [ih.1, ih.2, this.1, this.2]

theorem everyOther_length {α : Type} : ∀ l : List α, (everyOther l).length = (l.length + 1) / 2
  | [] => by simp [everyOther]
  | [_] => by simp [everyOther]
  | a :: b :: l => by
    have := everyOther_length l
    simp only [everyOther, List.length_cons, this]; omega

theorem occParams_length (l0 l1 : ℝ × ℝ) (gf : ℝ) (rows : List Anchor) :
    (occParams l0 l1 gf rows).length = 2 * ((rows.length + 1) / 2) := by
  unfold occParams
  rw [← everyOther_length]
  induction everyOther rows with
  | nil => rfl
  | cons a l ih => simp only [List.flatMap_cons, List.length_append, ih, List.length_cons, List.length_nil]; ring

theorem anchorLoop_length (p : TctParams) (a b : ℝ) : ∀ n i A, (anchorLoop p a b n i A).length = n
  | 0, _, _ => rfl
  | n + 1, i, A => by rw [anchorLoop, List.length_cons, anchorLoop_length]

theorem allAnchors_some {params : List TctParams} {rot : ℝ} {k : ℕ} (h0 : 0 < k) (h1 : k ≤ params.length) :
    ∃ rows, allAnchors params 1 rot k = some rows ∧ rows.length = 2 * k - 1 := by
  unfold allAnchors
  rw [if_pos (by omega)]
  have : k - 1 < params.length := by omega
  rw [List.getElem?_eq_getElem this]
  refine ⟨_, rfl, ?_⟩
  rw [List.length_map, anchorsRaw, anchorLoop_length]; omega

theorem allAnchors_none {params : List TctParams} {rot : ℝ} {k : ℕ} (h1 : params.length < k) :
    allAnchors params 1 rot k = none := by
  unfold allAnchors
  rw [if_pos (by omega), List.getElem?_eq_none (by omega)]
  rfl

theorem occupationFunc_ok {l0 l1 : ℝ × ℝ} {params : List ℝ} {cdf : CdfType} (hc : cdf ≠ .other) {n : ℕ}
    (hn : params.length = 2 * n) (pt : ℝ × ℝ) :
    ∃ o, occupationFunc l0 l1 params cdf pt = .ok o ∧ Spec.Distributes n o := by
  have hlen : (params.length : ℝ) / 2 = n := by rw [hn]; push_cast; ring
  have hp : ¬ params.length % 2 ≠ 0 := by omega
  unfold occupationFunc
  rcases cdf with _ | _ | _
  · simp only [multiCdf, hp, if_false]
    refine ⟨_, rfl, ?_⟩
    have := sumPairs_mem sigmoidCdf_mem (signedDist l0 l1 pt) params
    rw [hlen] at this ⊢
    exact ⟨this.1, sub_nonneg.2 this.2, by simp⟩
  · simp only [multiCdf, hp, if_false]
    refine ⟨_, rfl, ?_⟩
    have := sumPairs_mem cauchyCdf_mem (signedDist l0 l1 pt) params
    rw [hlen] at this ⊢
    exact ⟨this.1, sub_nonneg.2 this.2, by simp⟩
  · exact absurd rfl hc

theorem regionOcc_ok {params : List TctParams} {rot : ℝ} {cdf : CdfType} (hc : cdf ≠ .other) (gf : ℝ) {reg : ℕ}
    (hr : reg = 0 ∨ reg + 1 ≤ params.length) (pt : ℝ × ℝ) :
    ∃ o, regionOcc (allAnchors params 1 rot) cdf gf reg pt = .ok o ∧ Spec.Distributes reg o := by
  unfold regionOcc
  by_cases h0 : reg = 0
  · subst h0
    exact ⟨(0, 0), by simp, by simp [Spec.Distributes]⟩
  · rw [if_neg h0]
    have h1 : reg + 1 ≤ params.length := hr.resolve_left h0
    obtain ⟨up, e1, l1⟩ := allAnchors_some (rot := rot) (Nat.succ_pos reg) h1
    obtain ⟨rows, e2, l2⟩ := allAnchors_some (params := params) (rot := rot) (Nat.pos_of_ne_zero h0) (by omega)
    rw [e1, e2]
    simp only
    rw [List.getElem?_eq_getElem (by omega : 1 < up.length), List.getElem?_eq_getElem (by omega : 0 < rows.length)]
    simp only
    apply occupationFunc_ok hc
    rw [occParams_length]; omega

theorem regionOcc_error {params : List TctParams} {rot : ℝ} (cdf : CdfType) (gf : ℝ) {reg : ℕ} (h0 : 0 < reg)
    (h1 : params.length ≤ reg) (pt : ℝ × ℝ) :
    regionOcc (allAnchors params 1 rot) cdf gf reg pt = .error .indexError := by
  unfold regionOcc
  rw [if_neg h0.ne', allAnchors_none (by omega)]

/-- With a supported CDF type, the only error a region can raise is `IndexError`. -/
theorem regionOcc_error_eq {params : List TctParams} {rot : ℝ} {cdf : CdfType} (hc : cdf ≠ .other) {gf : ℝ} {reg : ℕ}
    {pt : ℝ × ℝ} {e : PyErr} (h : regionOcc (allAnchors params 1 rot) cdf gf reg pt = .error e) : e = .indexError := by
  by_cases hr : reg = 0 ∨ reg + 1 ≤ params.length
  · obtain ⟨o, ho, -⟩ := regionOcc_ok (rot := rot) hc gf hr pt
    rw [ho] at h; cases h
  · push Not at hr
    rw [regionOcc_error cdf gf (by omega) (by omega)] at h
    cases h; rfl

theorem mem_uniqueSorted {ι : Type} [Fintype ι] (mask : ι → ℕ) (k : ℕ) : k ∈ uniqueSorted mask ↔ ∃ i, mask i = k := by
  unfold uniqueSorted
  simp

theorem firstError_none {ι : Type} {f : ℕ → ι → Py (ℝ × ℝ)} {mask : ι → ℕ} :
    ∀ {l : List ℕ}, firstError f mask l = none ↔ ∀ reg ∈ l, ∀ i, mask i = reg → ∀ e, f reg i ≠ .error e
  | [] => by simp [firstError]
  | reg :: rest => by
    rw [firstError]
    split_ifs with h
    · constructor
      · intro h'; cases h'
      · intro h'
        obtain ⟨e, i, h1, h2⟩ := h
        exact absurd h2 (h' reg (by simp) i h1 e)
    · rw [firstError_none]
      push Not at h
      constructor
      · intro h' r hr i hi e
        rcases List.mem_cons.1 hr with rfl | hr
        · exact h e i hi
        · exact h' r hr i hi e
      · intro h' r hr
        exact h' r (List.mem_cons_of_mem _ hr)

theorem firstError_some {ι : Type} {f : ℕ → ι → Py (ℝ × ℝ)} {mask : ι → ℕ} {e : PyErr} :
    ∀ {l : List ℕ}, firstError f mask l = some e → ∃ reg ∈ l, ∃ i, mask i = reg ∧ f reg i = .error e
  | [], h => by cases h
  | reg :: rest, h => by
    rw [firstError] at h
    split_ifs at h with h'
    · obtain ⟨i, hi⟩ := h'.choose_spec
      rw [Option.some.injEq] at h
      rw [h] at hi
      exact ⟨reg, by simp, i, hi⟩
    · obtain ⟨r, hr, rest⟩ := firstError_some h
      exact ⟨r, List.mem_cons_of_mem _ hr, rest⟩

variable {ι : Type} [Fintype ι] {coords : ℕ → Option (List Anchor)} {cdf : CdfType} {gf : ℝ} {pts : ι → ℝ × ℝ}
  {mask : ι → ℕ}

/-- The loop succeeds exactly if every pixel does, and then returns the pixel values. -/
theorem occupationsOfMask_ok {occ : ι → ℝ × ℝ} :
    occupationsOfMask coords cdf gf pts mask = .ok occ ↔
      ∀ i, regionOcc coords cdf gf (mask i) (pts i) = .ok (occ i) := by
  unfold occupationsOfMask
  constructor
  · intro h i
    split at h
    · cases h
    · rename_i hn
      rw [firstError_none] at hn
      have := hn (mask i) ((mem_uniqueSorted _ _).2 ⟨i, rfl⟩) i rfl
      rw [Except.ok.injEq] at h
      subst h
      simp only
      cases hh : regionOcc coords cdf gf (mask i) (pts i) with
      | ok o => rfl
      | error e => exact absurd hh (this e)
  · intro h
    have hn : firstError (fun reg i => regionOcc coords cdf gf reg (pts i)) mask (uniqueSorted mask) = none := by
      rw [firstError_none]
      intro reg _ i hi e he
      rw [← hi, h i] at he
      cases he
    rw [hn]
    simp only [Except.ok.injEq]
    funext i
    rw [h i]

theorem occupationsOfMask_error {e : PyErr} (h : occupationsOfMask coords cdf gf pts mask = .error e) :
    ∃ i, regionOcc coords cdf gf (mask i) (pts i) = .error e := by
  unfold occupationsOfMask at h
  split at h
  · rename_i e' he
    obtain ⟨reg, -, i, h1, h2⟩ := firstError_some he
    cases h
    exact ⟨i, by rw [h1]; exact h2⟩
  · cases h

omit [Fintype ι] in
theorem gammaFactor_ok {cdf : CdfType} (hc : cdf ≠ .other) (gf : Option ℝ) : ∃ g, gammaFactor cdf gf = .ok g := by
  rcases gf with _ | g
  · rcases cdf with _ | _ | _
    · exact ⟨_, rfl⟩
    · exact ⟨_, rfl⟩
    · exact absurd rfl hc
  · exact ⟨_, rfl⟩

/-! ### Regions -/

/-- `curves` are the graphs of the transitions with parameters `params`, the first one with `k` peaks: both the scalar
and the array interface of `tct_bezier` return their values. -/
def IsCurves (lut : Option ℕ) : ℕ → List TctParams → List (ℝ → ℝ) → Prop
  | _, [], [] => True
  | k, p :: ps, f :: fs =>
    (∀ x, tctBezierAt p lut (some k) x = .ok (f x)) ∧
    (∀ (ι : Type) (xs : ι → ℝ), tctBezier p lut (some k) xs = .ok fun i => f (xs i)) ∧ IsCurves lut (k + 1) ps fs
  | _, _, _ => False

theorem IsCurves.length {lut : Option ℕ} : ∀ {k : ℕ} {ps : List TctParams} {fs : List (ℝ → ℝ)},
    IsCurves lut k ps fs → fs.length = ps.length
  | _, [], [], _ => rfl
  | _, _ :: _, _ :: _, h => by simp [IsCurves.length h.2.2]
  | _, [], _ :: _, h => absurd h (by simp [IsCurves])
  | _, _ :: _, [], h => absurd h (by simp [IsCurves])

/-- A valid transition parameter set: the assertions of the code pass, it describes a maximum, the period is positive. -/
def TctOk (p : TctParams) : Prop := (∃ c, tctCenter p = .ok c) ∧ p.gradR < p.gradL ∧ 0 < p.lenL + p.lenR

theorem tct_pointwise {p : TctParams} (h : TctOk p) {lut : Option ℕ} (hl : lut ≠ some 1) (n : ℕ) :
    ∃ f : ℝ → ℝ, (∀ x, tctBezierAt p lut (some (n + 1)) x = .ok (f x)) ∧
      ∀ (ι : Type) (xs : ι → ℝ), tctBezier p lut (some (n + 1)) xs = .ok fun i => f (xs i) := by
  obtain ⟨⟨c, hc⟩, hg, hper⟩ := h
  have h := tctCenter_ok hc
  have hb : p.x0 < p.x2 → bezierValue p c lut p.x0 = p.y0 ∧ bezierValue p c lut p.x2 = p.y2 := by
    intro hlt
    rcases lut with _ | _ | _ | m
    · exact ⟨explicitRoot_left h hg hlt, explicitRoot_right h hg hlt⟩
    · exact ⟨explicitRoot_left h hg hlt, explicitRoot_right h hg hlt⟩
    · exact absurd rfl hl
    · exact lut_exact h hlt (by omega)
  have hb0 := fun hlt => (hb hlt).1
  have hb2 := fun hlt => (hb hlt).2
  refine ⟨fun x => if x ≤ p.x0 then p.y0 + (x - p.x0) * p.gradL
      else if waveEnd p (n + 1) ≤ x then p.y2 - n * yOffPeriod p c + (x - waveEnd p (n + 1)) * p.gradR
      else waveValue p c (bezierValue p c lut) x, fun x => ?_, fun ι xs => ?_⟩
  · rw [tctBezierAt_eq hc, tctEntry_eq h hper hb0 hb2 n x _ id]
  · rw [tctBezier_eq hc]
    congr 1
    funext i
    exact tctEntry_eq h hper hb0 hb2 n (xs i) _ fun ho => ⟨i, ho⟩

theorem exists_curves {lut : Option ℕ} (hl : lut ≠ some 1) : ∀ (k : ℕ) (params : List TctParams),
    (∀ p ∈ params, TctOk p) → ∃ curves, IsCurves lut (k + 1) params curves
  | _, [], _ => ⟨[], trivial⟩
  | k, p :: ps, h => by
    obtain ⟨fs, hfs⟩ := exists_curves hl (k + 1) ps fun q hq => h q (List.mem_cons_of_mem _ hq)
    obtain ⟨f, h1, h2⟩ := tct_pointwise (h p (by simp)) hl k
    exact ⟨f :: fs, h1, h2, hfs⟩

theorem tctDict_cons (p : TctParams) (ps : List TctParams) (k : ℕ) :
    tctDict (p :: ps) k = (k, p) :: tctDict ps (k + 1) := by
  unfold tctDict
  rw [List.zipIdx_cons, List.map_cons]
  congr 1
  rw [zero_add, List.zipIdx_succ, List.map_map]
  apply List.map_congr_left
  rintro ⟨q, i⟩ -
  simp only [Function.comp_apply]
  congr 1
  omega

theorem region_cons (f : ℝ → ℝ) (fs : List (ℝ → ℝ)) (q : ℝ × ℝ) :
    Spec.region (f :: fs) q = if q.2 < f q.1 then 0 else Spec.region fs q + 1 := by
  unfold Spec.region
  rw [List.findIdx_cons]
  by_cases h : q.2 < f q.1 <;> simp [h]

theorem region_le (fs : List (ℝ → ℝ)) (q : ℝ × ℝ) : Spec.region fs q ≤ fs.length := List.findIdx_le_length

theorem region_lt {fs : List (ℝ → ℝ)} {q : ℝ × ℝ} : Spec.region fs q < fs.length ↔ ∃ f ∈ fs, q.2 < f q.1 := by
  unfold Spec.region
  rw [List.findIdx_lt_length]
  simp

theorem regionLoop2d_eq {lut : Option ℕ} (q : ℝ × ℝ) : ∀ {k : ℕ} {ps : List TctParams} {fs : List (ℝ → ℝ)},
    IsCurves lut (k + 1) ps fs → regionLoop2d lut q (tctDict ps (k + 1)) k = .ok (k + Spec.region fs q)
  | k, [], [], _ => rfl
  | k, p :: ps, f :: fs, h => by
    rw [tctDict_cons, regionLoop2d, h.1, region_cons]
    simp only
    by_cases hq : q.2 < f q.1
    · rw [if_neg (not_le.2 hq), if_pos hq]; rfl
    · rw [if_pos (not_lt.1 hq), if_neg hq, regionLoop2d_eq q h.2.2]
      congr 1; omega
  | _, [], _ :: _, h => absurd h (by simp [IsCurves])
  | _, _ :: _, [], h => absurd h (by simp [IsCurves])

theorem regionLoop1d_append {ι : Type} {lut : Option ℕ} {pts : ι → ℝ × ℝ} :
    ∀ (l l' : List (ℕ × TctParams)) (m : ι → ℕ), regionLoop1d lut pts (l ++ l') m =
      match regionLoop1d lut pts l m with
      | .error e => .error e
      | .ok m' => regionLoop1d lut pts l' m'
  | [], l', m => rfl
  | (k, p) :: l, l', m => by
    rw [List.cons_append, regionLoop1d, regionLoop1d]
    cases tctBezier p lut (some k) (fun i => (pts i).1) with
    | error e => rfl
    | ok y => exact regionLoop1d_append l l' _

theorem regionLoop1d_eq {ι : Type} {lut : Option ℕ} (pts : ι → ℝ × ℝ) (m : ι → ℕ) :
    ∀ {k : ℕ} {ps : List TctParams} {fs : List (ℝ → ℝ)}, IsCurves lut (k + 1) ps fs →
      regionLoop1d lut pts (tctDict ps (k + 1)).reverse m =
        .ok fun i => if Spec.region fs (pts i) = fs.length then m i else k + Spec.region fs (pts i)
  | k, [], [], _ => rfl
  | k, p :: ps, f :: fs, h => by
    rw [tctDict_cons, List.reverse_cons, regionLoop1d_append, regionLoop1d_eq pts m h.2.2]
    simp only
    rw [regionLoop1d, h.2.1]
    simp only [regionLoop1d]
    congr 1
    funext i
    rw [region_cons]
    by_cases hq : (pts i).2 < f (pts i).1
    · simp [hq]
    · have : (Spec.region fs (pts i) + 1 = (f :: fs).length) ↔ Spec.region fs (pts i) = fs.length := by simp
      simp only [hq, if_false, this]
      split_ifs
      · rfl
      · omega
  | _, [], _ :: _, h => absurd h (by simp [IsCurves])
  | _, _ :: _, [], h => absurd h (by simp [IsCurves])

end SimCATS
