import Verif.Props.LeadMask

/-! Property C15: reversing sweeps mirrors the ideal data; further end-to-end properties of the ideal CSD. -/

namespace SimCATS

/-- Apply `f` to the returned value; exceptions stay as they are. -/
def mapOk {α β : Type} (f : α → β) : Py α → Py β
  | .ok a => .ok (f a)
  | .error e => .error e

/-- Image mirrored along the first axis (rows). -/
def mirrorRows {r c : ℕ} {α : Type} (a : Fin r → Fin c → α) : Fin r → Fin c → α := fun i j => a i.rev j

/-- Image mirrored along the second axis (columns). -/
def mirrorCols {r c : ℕ} {α : Type} (a : Fin r → Fin c → α) : Fin r → Fin c → α := fun i j => a i j.rev

theorem sortLim_swap (g : ℝ × ℝ) : sortLim g.swap = sortLim g := by
  unfold sortLim
  simp only [Prod.fst_swap, Prod.snd_swap, min_comm, max_comm]

/-- C15 (2D): reversing the sweep of gate 1 mirrors occupations and transition mask along the second axis. -/
theorem C15_2d_gate1 (cfg : IdealCfg) (lab : Labelling) (g1 g2 : ℝ × ℝ) (r c : ℕ) (h : g1.1 ≠ g1.2) :
    ideal2d cfg lab g1.swap g2 r c =
      mapOk (fun o => (mirrorCols o.1, mirrorCols o.2)) (ideal2d cfg lab g1 g2 r c) := by
  unfold ideal2d
  rw [sortLim_swap]
  cases leadMask2d cfg (sortLim g1) (sortLim g2) c r with
  | error e => rfl
  | ok img =>
    simp only
    cases occupation2d cfg (pts2d (sortLim g1) (sortLim g2) r c) (fun ij => img ((ij.1 : ℤ), (ij.2 : ℤ)))
        (lab r c fun ij => img ((ij.1 : ℤ), (ij.2 : ℤ))) with
    | error e => rfl
    | ok occ =>
      simp only [mapOk, Prod.fst_swap, Prod.snd_swap, flipCols]
      rcases lt_or_gt_of_ne h with hlt | hgt
      · rw [if_pos hlt, if_pos hlt, if_neg (not_lt.2 hlt.le), if_neg (not_lt.2 hlt.le)]; rfl
      · rw [if_neg (not_lt.2 (le_of_lt hgt)), if_neg (not_lt.2 (le_of_lt hgt)), if_pos hgt, if_pos hgt]
        unfold mirrorCols
        simp only [Fin.rev_rev]

/-- C15 (2D): reversing the sweep of gate 2 mirrors occupations and transition mask along the first axis. -/
theorem C15_2d_gate2 (cfg : IdealCfg) (lab : Labelling) (g1 g2 : ℝ × ℝ) (r c : ℕ) (h : g2.1 ≠ g2.2) :
    ideal2d cfg lab g1 g2.swap r c =
      mapOk (fun o => (mirrorRows o.1, mirrorRows o.2)) (ideal2d cfg lab g1 g2 r c) := by
  unfold ideal2d
  rw [sortLim_swap]
  cases leadMask2d cfg (sortLim g1) (sortLim g2) c r with
  | error e => rfl
  | ok img =>
    simp only
    cases occupation2d cfg (pts2d (sortLim g1) (sortLim g2) r c) (fun ij => img ((ij.1 : ℤ), (ij.2 : ℤ)))
        (lab r c fun ij => img ((ij.1 : ℤ), (ij.2 : ℤ))) with
    | error e => rfl
    | ok occ =>
      simp only [mapOk, Prod.fst_swap, Prod.snd_swap, flipCols, flipRows]
      rcases lt_or_gt_of_ne h with hlt | hgt
      · simp only [gt_iff_lt, hlt, if_true, not_lt.2 hlt.le, if_false]
        split_ifs <;> rfl
      · have hgt' : g2.2 < g2.1 := hgt
        simp only [gt_iff_lt, hgt', if_true, not_lt.2 hgt'.le, if_false]
        unfold mirrorRows
        split_ifs <;> simp only [Fin.rev_rev]

/-- C15 (2D): reversing both sweeps rotates the data by 180 degrees. -/
theorem C15_2d_both (cfg : IdealCfg) (lab : Labelling) (g1 g2 : ℝ × ℝ) (r c : ℕ) (h1 : g1.1 ≠ g1.2) (h2 : g2.1 ≠ g2.2) :
    ideal2d cfg lab g1.swap g2.swap r c =
      mapOk (fun o => (fun i j => o.1 i.rev j.rev, fun i j => o.2 i.rev j.rev)) (ideal2d cfg lab g1 g2 r c) := by
  rw [C15_2d_gate1 _ _ _ _ _ _ h1, C15_2d_gate2 _ _ _ _ _ _ h2]
  cases ideal2d cfg lab g1 g2 r c <;> rfl

/-- C15 (2D): the data of descending sweeps belong to the descending voltages: for sweeps in any direction, the pixel
(i, j) of the returned data is the pixel of the ascending image that has the same voltages. -/
theorem C15_2d_voltages (g1 g2 : ℝ × ℝ) (r c : ℕ) (hr : 2 ≤ r) (hc : 2 ≤ c) (i : Fin r) (j : Fin c) :
    pts2d g1 g2 r c (i, j) = pts2d (sortLim g1) (sortLim g2) r c
      (if g2.1 > g2.2 then i.rev else i, if g1.1 > g1.2 then j.rev else j) := by
  have key : ∀ (g : ℝ × ℝ) (n : ℕ), 2 ≤ n → ∀ k : Fin n,
      linspace g.1 g.2 n k = linspace (sortLim g).1 (sortLim g).2 n (if g.1 > g.2 then k.rev else k) := by
    intro g n hn k
    unfold sortLim
    split_ifs with h
    · have hn1 : ((n : ℝ) - 1) ≠ 0 := by
        have : (2 : ℝ) ≤ n := by exact_mod_cast hn
        linarith
      have hk : k.1 + 1 ≤ n := k.2
      simp only [linspace, linAt, min_eq_right (le_of_lt h), max_eq_left (le_of_lt h), Fin.val_rev]
      rw [Nat.cast_sub hk]
      push_cast
      field_simp
      ring
    · simp only [min_eq_left (not_lt.1 h), max_eq_right (not_lt.1 h)]
  unfold pts2d
  simp only
  rw [key g1 c hc j, key g2 r hr i]

/-! ### 1D -/

theorem pts1d_swap (g1 g2 : ℝ × ℝ) {n : ℕ} (hn : n ≠ 1) (i : Fin n) : pts1d g1.swap g2.swap n i = pts1d g1 g2 n i.rev := by
  have hn2 : 2 ≤ n := by have := i.2; omega
  have hn1 : ((n : ℝ) - 1) ≠ 0 := by
    have : (2 : ℝ) ≤ n := by exact_mod_cast hn2
    linarith
  have hk : i.1 + 1 ≤ n := i.2
  unfold pts1d linspace linAt
  simp only [Prod.fst_swap, Prod.snd_swap, Fin.val_rev]
  rw [Nat.cast_sub hk]
  push_cast
  ext <;> simp only <;> field_simp <;> ring

theorem tctBezier_reindex {ι : Type} (e : ι ≃ ι) (p : TctParams) (lut mp : Option ℕ) (xs : ι → ℝ) :
    tctBezier p lut mp (fun i => xs (e i)) = mapOk (fun y i => y (e i)) (tctBezier p lut mp xs) := by
  unfold tctBezier
  cases tctCenter p with
  | error _ => rfl
  | ok c =>
    simp only [mapOk]
    have : (∃ j, outsideWave p mp (xs (e j))) = ∃ j, outsideWave p mp (xs j) :=
      propext ⟨fun ⟨j, h⟩ => ⟨e j, h⟩, fun ⟨j, h⟩ => ⟨e.symm j, by simpa using h⟩⟩
    simp only [this]

theorem regionLoop1d_reindex {ι : Type} (e : ι ≃ ι) (lut : Option ℕ) (pts : ι → ℝ × ℝ) :
    ∀ (l : List (ℕ × TctParams)) (m : ι → ℕ),
      regionLoop1d lut (fun i => pts (e i)) l (fun i => m (e i)) =
        mapOk (fun y i => y (e i)) (regionLoop1d lut pts l m)
  | [], m => rfl
  | (k, p) :: l, m => by
    rw [regionLoop1d, regionLoop1d, tctBezier_reindex e p lut (some k) fun i => (pts i).1]
    cases tctBezier p lut (some k) (fun i => (pts i).1) with
    | error _ => rfl
    | ok y =>
      simp only [mapOk]
      exact regionLoop1d_reindex e lut pts l fun i => if (pts i).2 < y i then k - 1 else m i

theorem choose_congr {P Q : PyErr → Prop} (h : P = Q) (x : Option PyErr) :
    (open Classical in if h : ∃ e, P e then some h.choose else x) =
      open Classical in if h : ∃ e, Q e then some h.choose else x := by
  subst h; rfl

theorem firstError_reindex {ι : Type} (e : ι ≃ ι) (f : ℕ → ι → Py (ℝ × ℝ)) (mask : ι → ℕ) :
    ∀ l, firstError (fun r i => f r (e i)) (fun i => mask (e i)) l = firstError f mask l
  | [] => rfl
  | reg :: rest => by
    have hp : (fun x => ∃ i, mask (e i) = reg ∧ f reg (e i) = .error x) =
        fun x => ∃ i, mask i = reg ∧ f reg i = .error x := by
      funext x
      exact propext ⟨fun ⟨j, h⟩ => ⟨e j, h⟩, fun ⟨j, h⟩ => ⟨e.symm j, by simpa using h⟩⟩
    rw [firstError, firstError, firstError_reindex e f mask rest]
    exact choose_congr hp _

theorem uniqueSorted_reindex {ι : Type} [Fintype ι] (e : ι ≃ ι) (mask : ι → ℕ) :
    uniqueSorted (fun i => mask (e i)) = uniqueSorted mask := by
  classical
  unfold uniqueSorted
  have : Finset.univ.image (fun i => mask (e i)) = Finset.univ.image mask := by
    ext k
    simp only [Finset.mem_image, Finset.mem_univ, true_and]
    exact ⟨fun ⟨j, h⟩ => ⟨e j, h⟩, fun ⟨j, h⟩ => ⟨e.symm j, by simpa using h⟩⟩
  convert congrArg (fun s => Finset.sort s (· ≤ ·)) this

theorem occupationsOfMask_reindex {ι : Type} [Fintype ι] (e : ι ≃ ι) (coords : ℕ → Option (List Anchor)) (cdf : CdfType)
    (gf : ℝ) (pts : ι → ℝ × ℝ) (mask : ι → ℕ) :
    occupationsOfMask coords cdf gf (fun i => pts (e i)) (fun i => mask (e i)) =
      mapOk (fun y i => y (e i)) (occupationsOfMask coords cdf gf pts mask) := by
  unfold occupationsOfMask
  rw [uniqueSorted_reindex, firstError_reindex e (fun reg i => regionOcc coords cdf gf reg (pts i)) mask]
  split <;> rfl

theorem occupation1d_reindex (cfg : IdealCfg) {n : ℕ} (e : Fin n ≃ Fin n) (pts : Fin n → ℝ × ℝ) :
    occupation1d cfg n (fun i => pts (e i)) = mapOk (fun y i => y (e i)) (occupation1d cfg n pts) := by
  unfold occupation1d
  cases gammaFactor cfg.cdf cfg.gf with
  | error _ => rfl
  | ok gf =>
    simp only
    rw [regionLoop1d_reindex e cfg.lut (fun i => rotatePoint (-cfg.rotation) (pts i)) _ fun _ => 0]
    cases regionLoop1d cfg.lut (fun i => rotatePoint (-cfg.rotation) (pts i)) (tctDict cfg.params 1).reverse
        (fun _ => 0) with
    | error _ => rfl
    | ok mask =>
      simp only [mapOk]
      exact occupationsOfMask_reindex e _ _ _ _ _

/-- C15 (1D): reversing a 1D scan (both limits swapped, at least two pixels) mirrors occupations and transition mask. -/
theorem C15_1d (cfg : IdealCfg) (g1 g2 : ℝ × ℝ) (n : ℕ) (hn : n ≠ 1) :
    ideal1d cfg g1.swap g2.swap n =
      mapOk (fun o => (fun i => o.1 i.rev, fun i => o.2 i.rev)) (ideal1d cfg g1 g2 n) := by
  unfold ideal1d
  have hp : pts1d g1.swap g2.swap n = fun i => pts1d g1 g2 n (Fin.revPerm i) := by
    funext i; rw [pts1d_swap g1 g2 hn]; rfl
  rw [hp, occupation1d_reindex]
  cases occupation1d cfg n (pts1d g1 g2 n) with
  | error _ => rfl
  | ok occ =>
    simp only [mapOk, Fin.revPerm_apply, Except.ok.injEq, Prod.mk.injEq, true_and]
    funext i
    rw [C14_mask_general _ _ _ i.2, C14_mask_general _ _ _ i.rev.2]
    set T : ℕ → ℝ := fun k => if h : k < n then (occ ⟨k, h⟩).1 + (occ ⟨k, h⟩).2 else 0 with hT
    have hT' : ∀ k : ℕ, (if h : k < n then (occ (Fin.rev ⟨k, h⟩)).1 + (occ (Fin.rev ⟨k, h⟩)).2 else 0) =
        if k < n then T (n - 1 - k) else 0 := by
      intro k
      by_cases h : k < n
      · have h' : n - 1 - k < n := by omega
        have e : Fin.rev ⟨k, h⟩ = (⟨n - 1 - k, h'⟩ : Fin n) := by
          ext; simp only [Fin.val_rev]; omega
        rw [dif_pos h, if_pos h, hT]
        simp only
        rw [dif_pos h', e]
      · rw [dif_neg h, if_neg h]
    have hi := i.2
    have e2 : n - 1 - (i : ℕ) = (i.rev : ℕ) := by rw [Fin.val_rev]; omega
    classical
    refine if_congr ?_ (by rw [hT', if_pos hi, e2]) rfl
    constructor
    · rintro ⟨j, ⟨-, hj, h⟩, hlt⟩
      rw [hT', hT', if_pos hi, if_pos hj, e2] at hlt
      refine ⟨n - 1 - j, ⟨i.rev.2, by omega, ?_⟩, hlt⟩
      rw [← e2]; omega
    · rintro ⟨j, ⟨-, hj, h⟩, hlt⟩
      refine ⟨n - 1 - j, ⟨hi, by omega, ?_⟩, ?_⟩
      · rw [← e2] at h; omega
      · rw [hT', hT', if_pos hi, e2, if_pos (by omega), show n - 1 - (n - 1 - j) = j by omega]; exact hlt

/-- Non-vacuity: for the sample configuration a descending scan between the transitions returns data. -/
example : ∃ o, ideal1d sampleCfg (-1, -1) (3, 2) 5 = .ok o := by
  obtain ⟨curves, hc⟩ := C05_curves_exist _ sampleCfg_ok
  obtain ⟨f, g, rfl, hf, hg⟩ := sampleCfg_curves hc
  obtain ⟨occ, ho, -⟩ := C04_1d sampleCfg sampleCfg_ok _ hc (pts1d (-1, -1) (3, 2) 5) (by
    intro i
    refine ⟨g, by simp, ?_⟩
    have hi : (0 : ℝ) ≤ ((i : ℕ) : ℝ) := Nat.cast_nonneg _
    have : pts1d (-1, -1) (3, 2) 5 i = (-1, 3 - (i : ℝ) / 4) := by
      ext
      · simp [pts1d, linspace, linAt]
      · simp [pts1d, linspace, linAt]; ring
    rw [this, sampleCfg_point]
    simp only
    rw [hg _ (by norm_num)]
    linarith)
  exact ⟨_, by unfold ideal1d; rw [ho]⟩

/-! ### Labels and regions -/

/-- In a 2D scan, the occupations of a pixel labelled with transition `k` add up to `k`: labelled pixels belong to the
region with the higher number of electrons. -/
theorem C13_label_is_region (cfg : IdealCfg) (ok : CfgOk cfg) (lab : Labelling) (g1 g2 : ℝ × ℝ) (r c : ℕ)
    (o : (Fin r → Fin c → ℝ × ℝ) × (Fin r → Fin c → ℕ)) (h : ideal2d cfg lab g1 g2 r c = .ok o) (i : Fin r) (j : Fin c)
    (hl : o.2 i j ≠ 0) : (o.1 i j).1 + (o.1 i j).2 = o.2 i j := by
  unfold ideal2d at h
  split at h
  · cases h
  rename_i img him
  simp only at h
  split at h
  · cases h
  rename_i occ hocc
  cases h
  have key : ∀ ij : Fin r × Fin c, img ((ij.1 : ℤ), (ij.2 : ℤ)) ≠ 0 →
      (occ ij).1 + (occ ij).2 = (img ((ij.1 : ℤ), (ij.2 : ℤ)) : ℝ) := by
    intro ij hne
    unfold occupation2d at hocc
    split at hocc
    · cases hocc
    rename_i gf hgf
    split at hocc
    · cases hocc
    rename_i mask hmask
    have hm : mask ij = img ((ij.1 : ℤ), (ij.2 : ℤ)) := by
      unfold mask2d at hmask
      simp only at hmask
      split at hmask
      · cases hmask
      · cases hmask
        simp only
        rw [if_pos hne]
    have := occupationsOfMask_ok.1 hocc ij
    by_cases hr : mask ij = 0 ∨ mask ij + 1 ≤ cfg.params.length
    · obtain ⟨o, h1, h2⟩ := regionOcc_ok (rot := cfg.rotation) ok.cdf gf hr (pts2d (sortLim g1) (sortLim g2) r c ij)
      rw [this] at h1
      rw [Except.ok.inj h1, h2.2.2, hm]
    · push Not at hr
      rw [regionOcc_error _ _ (by omega) (by omega)] at this
      cases this
  simp only [flipCols, flipRows] at hl ⊢
  split_ifs at hl ⊢
  all_goals exact key (_, _) hl

/-- The 2 x 2 image from (-8, -8) to (-4, -4): the pixel (-8, -8) is labelled with the first transition, no pixel with the second. -/
theorem sampleCfg_labels : ∃ img, leadMask2d sampleCfg (-8, -4) (-8, -4) 2 2 = .ok img ∧ img (0, 0) = 1 ∧
    ∀ i j : ℕ, i < 2 → j < 2 → img (i, j) < 2 := by
  obtain ⟨curves, hc⟩ := C05_curves_exist _ sampleCfg_ok
  obtain ⟨img, him, hl⟩ := C13_mask_2d sampleCfg curves hc (-8, -4) (-8, -4) 2 2 (by norm_num) (by norm_num) (by norm_num) (by norm_num)
  obtain ⟨f, g, rfl, hf, hg⟩ := sampleCfg_curves hc
  have hxs : ∀ m : Fin ((2 + 2) * 4), sampleXs sampleCfg.rotation (-8, -4) (-8, -4) 2 2 m = -12 + 0.8 * ((m : ℕ) : ℝ) := by
    intro m
    simp only [sampleXs, linspace, linAt, cornersX, sampleCfg, rotatePoint, listMin, listMax, pixStep, List.map_cons, List.map_nil,
      List.foldl_cons, List.foldl_nil]
    norm_num
    ring
  have hrot : ∀ q : ℝ × ℝ, rotatePoint sampleCfg.rotation q = q := by
    intro q
    simp [rotatePoint, sampleCfg]
  have hsec : ∀ i j : ℕ, i < 2 → j < 2 → ¬ ∃ p ∈ samplePoints sampleCfg (-8, -4) (-8, -4) 2 2 g, Marks (-8, -4) (-8, -4) 2 2 i j p := by
    rintro i j hi hj ⟨p, hp, ⟨a, b, c, d⟩, -⟩
    unfold samplePoints at hp
    rw [List.mem_ofFn] at hp
    obtain ⟨m, rfl⟩ := hp
    rw [hrot, hxs] at a b c d
    have hi1 : (i : ℝ) ≤ 1 := by
      have : i ≤ 1 := by omega
      exact_mod_cast this
    have hj1 : (j : ℝ) ≤ 1 := by
      have : j ≤ 1 := by omega
      exact_mod_cast this
    have hj0 : (0 : ℝ) ≤ j := Nat.cast_nonneg j
    simp only [axisVolt] at a b c d
    norm_num at a b c d
    have hm : (-12 : ℝ) + 4 / 5 * ((m : ℕ) : ℝ) < 0 := by linarith
    rw [show (-12 : ℝ) + 4 / 5 * ((m : ℕ) : ℝ) = -12 + 0.8 * ((m : ℕ) : ℝ) by norm_num] at *
    linarith [hg _ hm]
  have hlab : ∀ i j : ℕ, i < 2 → j < 2 → img (i, j) = open Classical in
      if ∃ p ∈ samplePoints sampleCfg (-8, -4) (-8, -4) 2 2 f, Marks (-8, -4) (-8, -4) 2 2 i j p then 1 else 0 := by
    intro i j hi hj
    rw [hl i j hi hj]
    simp only [List.zipIdx_cons, List.zipIdx_nil, List.map_cons, List.map_nil, lastLabel, List.mem_singleton, List.not_mem_nil,
      false_and, exists_false, if_false, exists_eq_left]
    rw [if_neg (hsec i j hi hj)]
    exact if_neg (by rintro ⟨kp, hk, h⟩; rw [List.mem_singleton] at hk; subst hk; exact hsec i j hi hj h)
  refine ⟨img, him, ?_, fun i j hi hj => ?_⟩
  · rw [show ((0 : ℤ), (0 : ℤ)) = (((0 : ℕ) : ℤ), ((0 : ℕ) : ℤ)) from rfl, hlab 0 0 (by norm_num) (by norm_num), if_pos]
    refine ⟨(-8, -8), ?_, ⟨?_, ?_, ?_, ?_⟩, ?_, ?_⟩
    · unfold samplePoints
      rw [List.mem_ofFn]
      refine ⟨⟨5, by norm_num⟩, ?_⟩
      rw [hrot, hxs]
      rw [show (-12 : ℝ) + 0.8 * ((5 : ℕ) : ℝ) = -8 by norm_num, hf _ (by norm_num)]
    all_goals norm_num [axisVolt]
  · rw [hlab i j hi hj]
    split_ifs <;> norm_num

example (lab : Labelling) : ∃ o, ideal2d sampleCfg lab (-8, -4) (-8, -4) 2 2 = .ok o ∧ o.2 0 0 = 1 ∧ (o.1 0 0).1 + (o.1 0 0).2 = 1 := by
  obtain ⟨curves, hc⟩ := C05_curves_exist _ sampleCfg_ok
  obtain ⟨f, g, rfl, -, hg⟩ := sampleCfg_curves hc
  obtain ⟨img, him, h0, h2⟩ := sampleCfg_labels
  have hs : sortLim (-8, -4) = (-8, -4) := by norm_num [sortLim]
  obtain ⟨occ, ho, -⟩ := C04_2d sampleCfg sampleCfg_ok _ hc (pts2d (-8, -4) (-8, -4) 2 2)
    (fun ij : Fin 2 × Fin 2 => img ((ij.1 : ℤ), (ij.2 : ℤ))) (lab 2 2 fun ij => img ((ij.1 : ℤ), (ij.2 : ℤ)))
    (fun i _ => h2 i.1 i.2 i.1.2 i.2.2) (by
      intro i _
      refine ⟨g, by simp, ?_⟩
      generalize lab 2 2 _ i = q
      have e : tctCoord sampleCfg (pts2d (-8, -4) (-8, -4) 2 2 q) = pts2d (-8, -4) (-8, -4) 2 2 q := by
        simp [tctCoord, rotatePoint, sampleCfg]
      rw [e]
      have hb : ∀ k : Fin 2, -8 ≤ linspace (-8) (-4) 2 k ∧ linspace (-8) (-4) 2 k ≤ -4 := by
        intro k
        fin_cases k <;> norm_num [linspace, linAt]
      have hx : pts2d (-8, -4) (-8, -4) 2 2 q = (linspace (-8) (-4) 2 q.2, linspace (-8) (-4) 2 q.1) := rfl
      rw [hx, hg _ (by linarith [(hb q.2).2])]
      linarith [(hb q.1).2, (hb q.2).1])
  have hr : ideal2d sampleCfg lab (-8, -4) (-8, -4) 2 2 = .ok (fun i j => occ (i, j), fun i j => img ((i : ℤ), (j : ℤ))) := by
    unfold ideal2d
    rw [hs, him]
    simp only
    rw [ho]
    norm_num [flipCols, flipRows]
  refine ⟨_, hr, h0, ?_⟩
  rw [C13_label_is_region sampleCfg sampleCfg_ok lab _ _ 2 2 _ hr 0 0 (by simp only; erw [h0]; norm_num)]
  simp only
  erw [h0]
  norm_num

/-! ### API level -/

/-- Mirror the data of a 2D result along columns and/or rows, those of a 1D result along its axis. -/
def IdealOut.mirror (cols rows : Bool) : IdealOut → IdealOut
  | .d1 n occ lead => .d1 n (fun i => occ i.rev) (fun i => lead i.rev)
  | .d2 r c occ lead =>
    .d2 r c (fun i j => occ (if rows then i.rev else i) (if cols then j.rev else j))
      (fun i j => lead (if rows then i.rev else i) (if cols then j.rev else j))

theorem idealCheck_2d (a1 b1 a2 b2 : ℝ) (c r : ℤ) : idealCheck [a1, b1] [a2, b2] [c, r] =
    if a1 = b1 ∨ a2 = b2 ∨ c ≤ 1 ∨ r ≤ 1 then .error .valueError else .ok () := by
  by_cases h1 : a1 = b1 <;> by_cases h2 : a2 = b2 <;> simp [idealCheck, fixed2d, fixedVolt, h1, h2]

theorem idealCheck_1d (a1 b1 a2 b2 : ℝ) (n : ℤ) : idealCheck [a1, b1] [a2, b2] [n] = .ok () := by
  simp [idealCheck, fixed2d]

/-- C15 at the API: calling `ideal_csd_geometric` for a 2D scan with one or both voltage ranges reversed returns the
mirrored result, or raises the same exception. -/
theorem C15_api_2d (cfg : IdealCfg) (lab : Labelling) (a1 b1 a2 b2 : ℝ) (c r : ℤ) :
    idealCsd cfg lab [b1, a1] [a2, b2] (.arr [c, r]) =
      mapOk (IdealOut.mirror true false) (idealCsd cfg lab [a1, b1] [a2, b2] (.arr [c, r])) ∧
    idealCsd cfg lab [a1, b1] [b2, a2] (.arr [c, r]) =
      mapOk (IdealOut.mirror false true) (idealCsd cfg lab [a1, b1] [a2, b2] (.arr [c, r])) ∧
    idealCsd cfg lab [b1, a1] [b2, a2] (.arr [c, r]) =
      mapOk (IdealOut.mirror true true) (idealCsd cfg lab [a1, b1] [a2, b2] (.arr [c, r])) := by
  unfold idealCsd
  simp only [Resolution.entries, idealCheck_2d, eq_comm (a := b1) (b := a1), eq_comm (a := b2) (b := a2)]
  by_cases hbad : a1 = b1 ∨ a2 = b2 ∨ c ≤ 1 ∨ r ≤ 1
  · rw [if_pos hbad]; exact ⟨rfl, rfl, rfl⟩
  · rw [if_neg hbad]
    simp only
    push Not at hbad
    have e1 := C15_2d_gate1 cfg lab (a1, b1) (a2, b2) r.toNat c.toNat hbad.1
    have e2 := C15_2d_gate2 cfg lab (a1, b1) (a2, b2) r.toNat c.toNat hbad.2.1
    have e3 := C15_2d_both cfg lab (a1, b1) (a2, b2) r.toNat c.toNat hbad.1 hbad.2.1
    simp only [Prod.swap_prod_mk] at e1 e2 e3
    rw [e1, e2, e3]
    cases ideal2d cfg lab (a1, b1) (a2, b2) r.toNat c.toNat with
    | error e => exact ⟨rfl, rfl, rfl⟩
    | ok o => exact ⟨rfl, rfl, rfl⟩

/-- C15 at the API: reversing a 1D scan of more than one pixel returns the mirrored result, or raises the same
exception. -/
theorem C15_api_1d (cfg : IdealCfg) (lab : Labelling) (a1 b1 a2 b2 : ℝ) (n : ℤ) (hn : n ≠ 1) :
    idealCsd cfg lab [b1, a1] [b2, a2] (.int n) =
      mapOk (IdealOut.mirror true true) (idealCsd cfg lab [a1, b1] [a2, b2] (.int n)) := by
  unfold idealCsd
  simp only [Resolution.entries, idealCheck_1d]
  by_cases h0 : n < 0
  · rw [if_pos h0, if_pos h0]; rfl
  · rw [if_neg h0, if_neg h0]
    have e := C15_1d cfg (a1, b1) (a2, b2) n.toNat (by omega)
    simp only [Prod.swap_prod_mk] at e
    rw [e]
    cases ideal1d cfg (a1, b1) (a2, b2) n.toNat with
    | error e => rfl
    | ok o => rfl

end SimCATS
