import Verif.Model.DotJumps
import Verif.Spec.DotJumps
import Verif.Lemmas.Monad
import Mathlib.Data.List.GetD

/-!
Lemmas about dot jumps.
-/

namespace SimCATS

open Spec

theorem jumpInner_lt {α : Type} (n : ℕ) (orig : ℕ → Option α) (nj j c : ℕ) : ∀ (todo k : ℕ) (s : ℕ → Option α), c < j + k →
    jumpInner n orig nj j todo k s c = s c := by
  intro todo
  induction todo with
  | zero => intros; rfl
  | succ todo ih =>
    intro k s h
    unfold jumpInner
    split_ifs
    · rfl
    · rw [ih _ _ (by omega), Function.update_of_ne (by omega)]

theorem jumpInner_first {α : Type} (n : ℕ) (orig : ℕ → Option α) (nj j todo : ℕ) (s : ℕ → Option α) (h : j < n) :
    jumpInner n orig nj j (todo + 1) 0 s j = if orig (j - nj) = none then orig j else orig (j - nj) := by
  unfold jumpInner
  rw [if_neg (by omega), jumpInner_lt _ _ _ _ _ _ _ _ (by omega)]
  have : (max 0 ((j : ℤ) - nj + (0 : ℕ))).toNat = j - nj := by omega
  simp only [this, Nat.add_zero, Function.update_self]

theorem jumpLane_lt {α : Type} (n : ℕ) (orig : ℕ → Option α) (noise : ℕ → ℕ) (c : ℕ) : ∀ (todo j : ℕ) (s : ℕ → Option α),
    c < j → jumpLane n orig noise todo j s c = s c := by
  intro todo
  induction todo with
  | zero => intros; rfl
  | succ todo ih =>
    intro j s h
    unfold jumpLane
    rw [ih _ _ (by omega), jumpInner_lt _ _ _ _ _ _ _ _ (by omega)]

theorem jumpLane_ge {α : Type} (n : ℕ) (orig : ℕ → Option α) (noise : ℕ → ℕ) (c : ℕ) (hc : c < n) : ∀ (todo j : ℕ)
    (s : ℕ → Option α), j ≤ c → c < j + todo →
    jumpLane n orig noise todo j s c = if orig (c - noise c) = none then orig c else orig (c - noise c) := by
  intro todo
  induction todo with
  | zero => intros; omega
  | succ todo ih =>
    intro j s h1 h2
    unfold jumpLane
    rcases Nat.eq_or_lt_of_le h1 with rfl | h
    · rw [jumpLane_lt _ _ _ _ _ _ _ (by omega), jumpInner_first _ _ _ _ _ _ hc]
    · exact ih _ _ (by omega) (by omega)

theorem jumpLane_shifted {α : Type} (n : ℕ) (orig : ℕ → Option α) (noise : ℕ → ℕ) (s : ℕ → Option α) :
    Shifted n orig noise (jumpLane n orig noise n 0 s) :=
  fun c hc => jumpLane_ge n orig noise c hc n 0 s (by omega) (by omega)

theorem foldl_max_spec : ∀ (xs : List ℕ) (x : ℕ), x ≤ xs.foldl max x ∧ ∀ y ∈ xs, y ≤ xs.foldl max x := by
  intro xs
  induction xs with
  | nil => intro x; simp
  | cons a xs ih =>
    intro x
    obtain ⟨h1, h2⟩ := ih (max x a)
    simp only [List.foldl_cons, List.mem_cons]
    refine ⟨le_trans (le_max_left _ _) h1, ?_⟩
    rintro y (rfl | hy)
    · exact le_trans (le_max_right _ _) h1
    · exact h2 y hy

theorem maxJump_spec (noise : List ℕ) (h : noise ≠ []) : ∃ m, maxJump noise = .ok m ∧ ∀ j, noise.getD j 0 ≤ m := by
  cases noise with
  | nil => exact absurd rfl h
  | cons x xs =>
    refine ⟨_, rfl, ?_⟩
    obtain ⟨h1, h2⟩ := foldl_max_spec xs x
    intro j
    cases j with
    | zero => simpa using h1
    | succ j =>
      simp only [List.getD_cons_succ]
      by_cases hj : j < xs.length
      · rw [List.getD_eq_getElem _ _ hj]
        exact h2 _ (List.getElem_mem hj)
      · rw [List.getD_eq_default _ _ (by omega)]
        exact Nat.zero_le _

theorem getD_pad (m j : ℕ) (noise : List ℕ) : (List.replicate m 0 ++ noise).getD (m + j) 0 = noise.getD j 0 := by
  simp [List.getD_eq_getElem?_getD, List.getElem?_append]

theorem blockwise_g1 {α : Type} (rows cols : ℕ) (scale : Option ℝ) (hs : scale ≠ some 0) (orig : ℕ → ℕ → Option α)
    (noise : List ℕ) (empty : ℕ → ℕ → Option α) (hl : cols ≤ noise.length) :
    ∃ res, dotJumpsBlockwise .g1 rows cols scale orig noise empty = .ok res ∧
      ∀ i, Shifted cols (orig i) (fun j => noise.getD j 0) (res i) := by
  unfold dotJumpsBlockwise
  simp only [if_neg hs]
  rw [if_neg (by omega)]
  exact ⟨_, rfl, fun i => jumpLane_shifted _ _ _ _⟩

theorem blockwise_g2 {α : Type} (rows cols : ℕ) (scale : Option ℝ) (hs : scale ≠ some 0) (orig : ℕ → ℕ → Option α)
    (noise : List ℕ) (empty : ℕ → ℕ → Option α) (hl : rows ≤ noise.length) :
    ∃ res, dotJumpsBlockwise .g2 rows cols scale orig noise empty = .ok res ∧
      ∀ i, Shifted rows (fun j => orig j i) (fun j => noise.getD j 0) (fun j => res j i) := by
  unfold dotJumpsBlockwise
  simp only [if_neg hs]
  rw [if_neg (by omega)]
  exact ⟨_, rfl, fun i => jumpLane_shifted _ _ _ _⟩

/-- Pixel of the stacked image that pixel `j` with jump `d` shows, relative to the image. -/
def srcPix {α : Type} (m j d : ℕ) (border img : ℕ → Option α) : Option α :=
  if d ≤ j then img (j - d) else border (m + j - d)

/-- The image after the jumps without the border. -/
theorem shiftImg_g1 {α : Type} (rows cols m : ℕ) (scale : Option ℝ) (hs : scale ≠ some 0) (border img : ℕ → ℕ → Option α)
    (noise : List ℕ) (hl : cols ≤ noise.length) (hm : ∀ j, noise.getD j 0 ≤ m)
    (hb : ∀ i < rows, ∀ k < m, border i k ≠ none) (hi : ∀ i < rows, ∀ j < cols, img i j ≠ none) :
    ∃ res, shiftImg .g1 rows cols m scale (stackImg .g1 m border img) noise = .ok res ∧
      ∀ i < rows, ∀ j < cols, res i j = srcPix m j (noise.getD j 0) (border i) (img i) := by
  obtain ⟨res, hres, hsh⟩ := blockwise_g1 rows (m + cols) scale hs (stackImg .g1 m border img) (List.replicate m 0 ++ noise)
    (fun _ _ => none) (by rw [List.length_append, List.length_replicate]; omega)
  unfold shiftImg
  simp only [hres]
  refine ⟨_, rfl, ?_⟩
  intro i hir j hj
  have h := hsh i (m + j) (by omega)
  simp only [getD_pad] at h
  refine h.trans ?_
  have hd := hm j
  unfold srcPix
  by_cases hdj : noise.getD j 0 ≤ j
  · have hsrc : stackImg .g1 m border img i (m + j - noise.getD j 0) = img i (j - noise.getD j 0) := by
      unfold stackImg
      simp only
      rw [if_neg (by omega), show m + j - noise.getD j 0 - m = j - noise.getD j 0 by omega]
    rw [hsrc, if_neg (hi i hir _ (by omega)), if_pos hdj]
  · have hsrc : stackImg .g1 m border img i (m + j - noise.getD j 0) = border i (m + j - noise.getD j 0) := by
      unfold stackImg
      simp only
      rw [if_pos (by omega)]
    rw [hsrc, if_neg (hb i hir _ (by omega)), if_neg hdj]

theorem shiftImg_g2 {α : Type} (rows cols m : ℕ) (scale : Option ℝ) (hs : scale ≠ some 0) (border img : ℕ → ℕ → Option α)
    (noise : List ℕ) (hl : rows ≤ noise.length) (hm : ∀ j, noise.getD j 0 ≤ m)
    (hb : ∀ k < m, ∀ j < cols, border k j ≠ none) (hi : ∀ i < rows, ∀ j < cols, img i j ≠ none) :
    ∃ res, shiftImg .g2 rows cols m scale (stackImg .g2 m border img) noise = .ok res ∧
      ∀ i < rows, ∀ j < cols, res i j = srcPix m i (noise.getD i 0) (fun k => border k j) (fun k => img k j) := by
  obtain ⟨res, hres, hsh⟩ := blockwise_g2 (m + rows) cols scale hs (stackImg .g2 m border img) (List.replicate m 0 ++ noise)
    (fun _ _ => none) (by rw [List.length_append, List.length_replicate]; omega)
  unfold shiftImg
  simp only [hres]
  refine ⟨_, rfl, ?_⟩
  intro i hir j hj
  have h := hsh j (m + i) (by omega)
  simp only [getD_pad] at h
  refine h.trans ?_
  have hd := hm i
  unfold srcPix
  by_cases hdj : noise.getD i 0 ≤ i
  · have hsrc : stackImg .g2 m border img (m + i - noise.getD i 0) j = img (i - noise.getD i 0) j := by
      unfold stackImg
      simp only
      rw [if_neg (by omega), show m + i - noise.getD i 0 - m = i - noise.getD i 0 by omega]
    rw [hsrc, if_neg (hi _ (by omega) j hj), if_pos hdj]
  · have hsrc : stackImg .g2 m border img (m + i - noise.getD i 0) j = border (m + i - noise.getD i 0) j := by
      unfold stackImg
      simp only
      rw [if_pos (by omega)]
    rw [hsrc, if_neg (hb _ (by omega) j hj), if_neg hdj]

theorem toImg_some {α : Type} {r c : ℕ} (f : Fin r → Fin c → α) {i j : ℕ} (hi : i < r) (hj : j < c) :
    toImg f i j = some (f ⟨i, hi⟩ ⟨j, hj⟩) := by
  unfold toImg
  rw [dif_pos ⟨hi, hj⟩]

/-- Result of `apply2d` for jumps along gate 1, given the border `B`, `BL`. -/
theorem apply2d_g1 {σ : Type} (nan : ℝ) (rows cols : ℕ) (occ : Fin rows → Fin cols → ℝ × ℝ)
    (lead : Fin rows → Fin cols → ℕ) (g1 g2 : ℝ × ℝ) (gen : Gen σ) (scale : Option ℝ) (hs : scale ≠ some 0) (noise : List ℕ)
    (hl : cols ≤ noise.length) (m : ℕ) (hmax : maxJump noise = .ok m) (hm : ∀ j, noise.getD j 0 ≤ m) (s s' : σ)
    (b : (ℕ → ℕ → Option (ℝ × ℝ)) × (ℕ → ℕ → Option ℕ)) (hb : border2d .g1 gen g1 g2 rows cols m s = (.ok b, s'))
    (B : ℕ → ℕ → ℝ × ℝ) (BL : ℕ → ℕ → ℕ) (hB : ∀ i < rows, ∀ k < m, b.1 i k = some (B i k))
    (hBL : ∀ i < rows, ∀ k < m, b.2 i k = some (BL i k)) :
    apply2d .g1 nan rows cols occ lead g1 g2 gen scale noise s =
      (.ok (fun i j => if noise.getD j 0 ≤ j then occ i ⟨j - noise.getD j 0, by omega⟩ else B i (m + j - noise.getD j 0),
        fun i j => if noise.getD j 0 ≤ j then lead i ⟨j - noise.getD j 0, by omega⟩ else BL i (m + j - noise.getD j 0)), s') := by
  have hch1 : ∀ i < rows, ∀ k < m, chan1 b.1 i k = some (B i k).1 := fun i hi k hk => by simp [chan1, hB i hi k hk]
  have hch2 : ∀ i < rows, ∀ k < m, chan2 b.1 i k = some (B i k).2 := fun i hi k hk => by simp [chan2, hB i hi k hk]
  have ho1 : ∀ i (hi : i < rows) j (hj : j < cols), chan1 (toImg occ) i j = some (occ ⟨i, hi⟩ ⟨j, hj⟩).1 :=
    fun i hi j hj => by simp [chan1, toImg_some occ hi hj]
  have ho2 : ∀ i (hi : i < rows) j (hj : j < cols), chan2 (toImg occ) i j = some (occ ⟨i, hi⟩ ⟨j, hj⟩).2 :=
    fun i hi j hj => by simp [chan2, toImg_some occ hi hj]
  obtain ⟨r1, e1, v1⟩ := shiftImg_g1 rows cols m scale hs (chan1 b.1) (chan1 (toImg occ)) noise hl hm
    (fun i hi k hk => by rw [hch1 i hi k hk]; simp) (fun i hi j hj => by rw [ho1 i hi j hj]; simp)
  obtain ⟨r2, e2, v2⟩ := shiftImg_g1 rows cols m scale hs (chan2 b.1) (chan2 (toImg occ)) noise hl hm
    (fun i hi k hk => by rw [hch2 i hi k hk]; simp) (fun i hi j hj => by rw [ho2 i hi j hj]; simp)
  obtain ⟨r3, e3, v3⟩ := shiftImg_g1 rows cols m scale hs b.2 (toImg lead) noise hl hm
    (fun i hi k hk => by rw [hBL i hi k hk]; simp) (fun i hi j hj => by rw [toImg_some lead hi hj]; simp)
  unfold apply2d
  rw [M.bind_run, ofPy_run, hmax]; simp only
  rw [M.bind_run, hb]; simp only
  rw [M.bind_run, ofPy_run, e1]; simp only
  rw [M.bind_run, ofPy_run, e2]; simp only
  rw [M.bind_run, ofPy_run, e3]; simp only
  rw [M.pure_run]
  refine congrArg (fun x => (Except.ok x, s')) (Prod.ext ?_ ?_)
  · funext i j
    simp only
    rw [v1 i i.2 j j.2, v2 i i.2 j j.2]
    have := hm j
    unfold srcPix
    split_ifs with h
    · rw [ho1 i i.2 _ (by omega), ho2 i i.2 _ (by omega)]
      rfl
    · rw [hch1 i i.2 _ (by omega), hch2 i i.2 _ (by omega)]
      rfl
  · funext i j
    simp only
    rw [v3 i i.2 j j.2]
    have := hm j
    unfold srcPix
    split_ifs with h
    · rw [toImg_some lead i.2 (by omega)]
      rfl
    · rw [hBL i i.2 _ (by omega)]
      rfl

/-- Result of `apply2d` for jumps along gate 2, given the border `B`, `BL`. -/
theorem apply2d_g2 {σ : Type} (nan : ℝ) (rows cols : ℕ) (occ : Fin rows → Fin cols → ℝ × ℝ)
    (lead : Fin rows → Fin cols → ℕ) (g1 g2 : ℝ × ℝ) (gen : Gen σ) (scale : Option ℝ) (hs : scale ≠ some 0) (noise : List ℕ)
    (hl : rows ≤ noise.length) (m : ℕ) (hmax : maxJump noise = .ok m) (hm : ∀ j, noise.getD j 0 ≤ m) (s s' : σ)
    (b : (ℕ → ℕ → Option (ℝ × ℝ)) × (ℕ → ℕ → Option ℕ)) (hb : border2d .g2 gen g1 g2 rows cols m s = (.ok b, s'))
    (B : ℕ → ℕ → ℝ × ℝ) (BL : ℕ → ℕ → ℕ) (hB : ∀ k < m, ∀ j < cols, b.1 k j = some (B k j))
    (hBL : ∀ k < m, ∀ j < cols, b.2 k j = some (BL k j)) :
    apply2d .g2 nan rows cols occ lead g1 g2 gen scale noise s =
      (.ok (fun i j => if noise.getD i 0 ≤ i then occ ⟨i - noise.getD i 0, by omega⟩ j else B (m + i - noise.getD i 0) j,
        fun i j => if noise.getD i 0 ≤ i then lead ⟨i - noise.getD i 0, by omega⟩ j else BL (m + i - noise.getD i 0) j), s') := by
  have hch1 : ∀ k < m, ∀ j < cols, chan1 b.1 k j = some (B k j).1 := fun k hk j hj => by simp [chan1, hB k hk j hj]
  have hch2 : ∀ k < m, ∀ j < cols, chan2 b.1 k j = some (B k j).2 := fun k hk j hj => by simp [chan2, hB k hk j hj]
  have ho1 : ∀ i (hi : i < rows) j (hj : j < cols), chan1 (toImg occ) i j = some (occ ⟨i, hi⟩ ⟨j, hj⟩).1 :=
    fun i hi j hj => by simp [chan1, toImg_some occ hi hj]
  have ho2 : ∀ i (hi : i < rows) j (hj : j < cols), chan2 (toImg occ) i j = some (occ ⟨i, hi⟩ ⟨j, hj⟩).2 :=
    fun i hi j hj => by simp [chan2, toImg_some occ hi hj]
  obtain ⟨r1, e1, v1⟩ := shiftImg_g2 rows cols m scale hs (chan1 b.1) (chan1 (toImg occ)) noise hl hm
    (fun i hi k hk => by rw [hch1 i hi k hk]; simp) (fun i hi j hj => by rw [ho1 i hi j hj]; simp)
  obtain ⟨r2, e2, v2⟩ := shiftImg_g2 rows cols m scale hs (chan2 b.1) (chan2 (toImg occ)) noise hl hm
    (fun i hi k hk => by rw [hch2 i hi k hk]; simp) (fun i hi j hj => by rw [ho2 i hi j hj]; simp)
  obtain ⟨r3, e3, v3⟩ := shiftImg_g2 rows cols m scale hs b.2 (toImg lead) noise hl hm
    (fun i hi k hk => by rw [hBL i hi k hk]; simp) (fun i hi j hj => by rw [toImg_some lead hi hj]; simp)
  unfold apply2d
  rw [M.bind_run, ofPy_run, hmax]; simp only
  rw [M.bind_run, hb]; simp only
  rw [M.bind_run, ofPy_run, e1]; simp only
  rw [M.bind_run, ofPy_run, e2]; simp only
  rw [M.bind_run, ofPy_run, e3]; simp only
  rw [M.pure_run]
  refine congrArg (fun x => (Except.ok x, s')) (Prod.ext ?_ ?_)
  · funext i j
    simp only
    rw [v1 i i.2 j j.2, v2 i i.2 j j.2]
    have := hm i
    unfold srcPix
    split_ifs with h
    · simp only
      rw [ho1 _ (by omega) j j.2, ho2 _ (by omega) j j.2]
      rfl
    · simp only
      rw [hch1 _ (by omega) j j.2, hch2 _ (by omega) j j.2]
      rfl
  · funext i j
    simp only
    rw [v3 i i.2 j j.2]
    have := hm i
    unfold srcPix
    split_ifs with h
    · simp only
      rw [toImg_some lead (by omega) j.2]
      rfl
    · simp only
      rw [hBL _ (by omega) j j.2]
      rfl

theorem sweepVolt_const (v : ℝ) (n i : ℕ) : sweepVolt (v, v) n i = v := by
  unfold sweepVolt
  split_ifs <;> simp

/-- The border of jumps along gate 1 for sampled fields. -/
theorem border2d_g1 {σ : Type} {gen : Gen σ} {F : ℝ → ℝ → ℝ × ℝ} {L : ℝ → ℝ → ℕ} (h : SampledBy gen F L) (g1 g2 : ℝ × ℝ)
    (rows cols m : ℕ) (hr : 2 ≤ rows) (s : σ) : ∃ b, border2d .g1 gen g1 g2 rows cols m s = (.ok b, s) ∧
      (∀ i < rows, ∀ k < m, b.1 i k = some (F (g1.1 - ((m : ℝ) - k) * borderStep g1 cols) (sweepVolt g2 rows i))) ∧
      ∀ i < rows, ∀ k < m, b.2 i k = some (L (g1.1 - ((m : ℝ) - k) * borderStep g1 cols) (sweepVolt g2 rows i)) := by
  unfold border2d
  by_cases hm : m = 0
  · subst hm
    rw [if_pos rfl]
    exact ⟨_, rfl, by simp, by simp⟩
  · rw [if_neg hm]
    unfold borderCall
    simp only
    by_cases hm1 : m > 1
    · rw [if_pos hm1, M.bind_run, h.two _ _ _ _ _ hm1 hr]
      simp only
      rw [M.bind_run, ofPy_run]
      simp only [reshape2, true_and, dite_true]
      have hm' : (m : ℝ) - 1 ≠ 0 := by
        have : (1 : ℝ) < m := by exact_mod_cast hm1
        linarith
      have hv : ∀ k : ℕ, sweepVolt (g1.1 - m * borderStep g1 cols, g1.1 - borderStep g1 cols) m k =
          g1.1 - ((m : ℝ) - k) * borderStep g1 cols := by
        intro k
        unfold sweepVolt
        rw [if_neg (by omega)]
        field_simp
        ring
      refine ⟨_, rfl, ?_, ?_⟩ <;> intro i hi k hk <;> simp only <;> rw [toImg_some _ hi hk] <;> simp [hv]
    · have : m = 1 := by omega
      subst this
      rw [if_neg hm1, M.bind_run, h.one]
      simp only
      rw [M.bind_run, ofPy_run]
      simp only [reshape2, true_and, dite_true]
      refine ⟨_, rfl, ?_, ?_⟩ <;> intro i hi k hk <;> simp only <;> rw [toImg_some _ hi hk] <;> have : k = 0 := by omega
      all_goals
        subst this
        simp [sweepVolt_const]

/-- The border of jumps along gate 2 for sampled fields. -/
theorem border2d_g2 {σ : Type} {gen : Gen σ} {F : ℝ → ℝ → ℝ × ℝ} {L : ℝ → ℝ → ℕ} (h : SampledBy gen F L) (g1 g2 : ℝ × ℝ)
    (rows cols m : ℕ) (hr : 2 ≤ cols) (s : σ) : ∃ b, border2d .g2 gen g1 g2 rows cols m s = (.ok b, s) ∧
      (∀ k < m, ∀ j < cols, b.1 k j = some (F (sweepVolt g1 cols j) (g2.1 - ((m : ℝ) - k) * borderStep g2 rows))) ∧
      ∀ k < m, ∀ j < cols, b.2 k j = some (L (sweepVolt g1 cols j) (g2.1 - ((m : ℝ) - k) * borderStep g2 rows)) := by
  unfold border2d
  by_cases hm : m = 0
  · subst hm
    rw [if_pos rfl]
    exact ⟨_, rfl, by simp, by simp⟩
  · rw [if_neg hm]
    unfold borderCall
    simp only
    by_cases hm1 : m > 1
    · rw [if_pos hm1, M.bind_run, h.two _ _ _ _ _ hr hm1]
      simp only
      rw [M.bind_run, ofPy_run]
      simp only [reshape2, true_and, dite_true]
      have hm' : (m : ℝ) - 1 ≠ 0 := by
        have : (1 : ℝ) < m := by exact_mod_cast hm1
        linarith
      have hv : ∀ k : ℕ, sweepVolt (g2.1 - m * borderStep g2 rows, g2.1 - borderStep g2 rows) m k =
          g2.1 - ((m : ℝ) - k) * borderStep g2 rows := by
        intro k
        unfold sweepVolt
        rw [if_neg (by omega)]
        field_simp
        ring
      refine ⟨_, rfl, ?_, ?_⟩ <;> intro k hk j hj <;> simp only <;> rw [toImg_some _ hk hj] <;> simp [hv]
    · have : m = 1 := by omega
      subst this
      rw [if_neg hm1, M.bind_run, h.one]
      simp only
      rw [M.bind_run, ofPy_run]
      have hc : ¬ (1 = cols ∧ cols = 1) := by omega
      simp only [reshape2, hc, dite_false, and_true, dite_true]
      refine ⟨_, rfl, ?_, ?_⟩ <;> intro k hk j hj <;> simp only <;> rw [toImg_some _ hk hj] <;> have : k = 0 := by omega
      all_goals
        subst this
        simp [sweepVolt_const]

theorem sweepVolt_sub (g : ℝ × ℝ) (d : ℝ) (n i : ℕ) : sweepVolt (g.1 - d, g.2 - d) n i = sweepVolt g n i - d := by
  unfold sweepVolt
  split_ifs
  · rfl
  · simp only
    ring

/-- The stacked image of a 1D scan: the scan shifted by `d <= i` steps is a diagonal. -/
def Diagonals {α : Type} (axis : Axis) (n i : ℕ) (V : ℕ → ℕ → α) (img : ℕ → ℕ → Option α) : Prop :=
  ∀ p < n, ∀ d ≤ i, (match axis with
    | .g1 => img p (p + (i - d))
    | .g2 => img (p + (i - d)) p) = some (V d p)

theorem Diagonals.step {α : Type} {axis : Axis} {n i : ℕ} {V : ℕ → ℕ → α} {img : ℕ → ℕ → Option α}
    (h : Diagonals axis n i V img) (f : Fin n → α) (hf : ∀ p, f p = V (i + 1) p) :
    Diagonals axis n (i + 1) V (addDiag axis f img) := by
  intro p hp d hd
  have hh := h p hp d
  rcases Nat.eq_or_lt_of_le hd with rfl | hlt
  · cases axis <;> simp only [addDiag, Nat.sub_self, Nat.add_zero] <;> rw [dif_pos ⟨trivial, hp⟩, hf]
  · have hh := hh (by omega)
    cases axis <;> simp only [addDiag] at hh ⊢ <;> rw [dif_neg (by omega), if_neg (by omega), ← hh]
    · rw [show p + (i + 1 - d) - 1 = p + (i - d) by omega]
    · rw [show p + (i + 1 - d) - 1 = p + (i - d) by omega]

/-- The value of pixel `p` of the scan shifted by `d` steps. -/
noncomputable def shifted1d {α : Type} (axis : Axis) (F : ℝ → ℝ → α) (g1 g2 : ℝ × ℝ) (n d p : ℕ) : α :=
  match axis with
  | .g1 => F (sweepVolt g1 n p - d * borderStep g1 n) (sweepVolt g2 n p)
  | .g2 => F (sweepVolt g1 n p) (sweepVolt g2 n p - d * borderStep g1 n)

/-- Entries below the diagonals are NaN. -/
def LowerNone {α : Type} (axis : Axis) (img : ℕ → ℕ → Option α) : Prop :=
  ∀ p q, q < p → (match axis with
    | .g1 => img p q
    | .g2 => img q p) = none

theorem LowerNone.step {α : Type} {axis : Axis} {n : ℕ} {img : ℕ → ℕ → Option α} (h : LowerNone axis img) (f : Fin n → α) :
    LowerNone axis (addDiag axis f img) := by
  intro p q hq
  have hh := h p (q - 1) (by omega)
  cases axis <;> simp only [addDiag] at hh ⊢ <;> rw [dif_neg (by omega)] <;> split_ifs
  · rfl
  · exact hh
  · rfl
  · exact hh

theorem LowerNone.diag {α : Type} (axis : Axis) {n : ℕ} (f : Fin n → α) : LowerNone axis (diagImg f) := by
  intro p q hq
  cases axis <;> simp only [diagImg] <;> rw [dif_neg (by omega)]

/-- All properties of the stacked image of a 1D scan. -/
def Stacked {α : Type} (axis : Axis) (n i : ℕ) (V : ℕ → ℕ → α) (img : ℕ → ℕ → Option α) : Prop :=
  Diagonals axis n i V img ∧ LowerNone axis img

theorem border1d_sampled {σ : Type} {gen : Gen σ} {F : ℝ → ℝ → ℝ × ℝ} {L : ℝ → ℝ → ℕ} (h : SampledBy gen F L) (axis : Axis)
    (g1 g2 : ℝ × ℝ) (n : ℕ) (V : ℕ → ℕ → ℝ × ℝ) (W : ℕ → ℕ → ℕ) (hV : ∀ d p, V (d + 1) p = shifted1d axis F g1 g2 n (d + 1) p)
    (hW : ∀ d p, W (d + 1) p = shifted1d axis L g1 g2 n (d + 1) p) (s : σ) :
    ∀ (todo i : ℕ) (o : ℕ → ℕ → Option (ℝ × ℝ)) (l : ℕ → ℕ → Option ℕ), Stacked axis n i V o → Stacked axis n i W l →
      ∃ b, border1d axis gen g1 g2 n todo i o l s = (.ok b, s) ∧ Stacked axis n (i + todo) V b.1 ∧
        Stacked axis n (i + todo) W b.2 := by
  intro todo
  induction todo with
  | zero => intro i o l ho hl; exact ⟨_, rfl, ho, hl⟩
  | succ todo ih =>
    intro i o l ho hl
    have e : i + (todo + 1) = (i + 1) + todo := by omega
    rw [e]
    unfold border1d
    cases axis
    · simp only
      rw [M.bind_run, h.one]
      simp only
      rw [M.bind_run, ofPy_run]
      simp only [as1d, dite_true]
      rw [M.bind_run, ofPy_run]
      simp only
      apply ih
      · refine ⟨ho.1.step _ ?_, ho.2.step _⟩
        intro p
        rw [hV]
        simp [shifted1d, sweepVolt_sub]
      · refine ⟨hl.1.step _ ?_, hl.2.step _⟩
        intro p
        rw [hW]
        simp [shifted1d, sweepVolt_sub]
    · simp only
      rw [M.bind_run, h.one]
      simp only
      rw [M.bind_run, ofPy_run]
      simp only [as1d, dite_true]
      rw [M.bind_run, ofPy_run]
      simp only
      apply ih
      · refine ⟨ho.1.step _ ?_, ho.2.step _⟩
        intro p
        rw [hV]
        simp [shifted1d, sweepVolt_sub]
      · refine ⟨hl.1.step _ ?_, hl.2.step _⟩
        intro p
        rw [hW]
        simp [shifted1d, sweepVolt_sub]

/-- Reading the diagonal after the jumps. -/
theorem readDiag_shift {α : Type} (axis : Axis) (np2 : Bool) (n m : ℕ) (scale : Option ℝ) (hs : scale ≠ some 0)
    (V : ℕ → ℕ → α) (img : ℕ → ℕ → Option α) (himg : Diagonals axis n m V img) (noise : List ℕ) (hl : n ≤ noise.length)
    (hm : ∀ j, noise.getD j 0 ≤ m) (hnp : np2 = true → m > 0 → n + m ≤ 256) :
    ∃ sh res, shiftDiag axis n m scale img noise = .ok sh ∧ readDiag np2 axis m sh n = .ok res ∧
      ∀ p, res p = some (V (noise.getD p 0) p) := by
  have hidx : ∀ p : Fin n, addedIndex np2 p m = .ok (p + m) := by
    intro p
    unfold addedIndex
    split_ifs with h1 h2
    · have := hnp h1.1 h1.2; omega
    · have := hnp h1.1 h1.2
      rw [Nat.mod_eq_of_lt (by omega)]
    · rfl
  have hrd : ∀ img : ℕ → ℕ → Option α, ¬ (np2 = true ∧ m > 0 ∧ 256 < n) := by
    rintro - ⟨h1, h2, h3⟩
    have := hnp h1 h2
    omega
  cases axis
  · obtain ⟨res, hres, hsh⟩ := blockwise_g1 n (m + n) scale hs img (List.replicate m 0 ++ noise) (fun _ _ => none)
      (by rw [List.length_append, List.length_replicate]; omega)
    refine ⟨res, fun p => res p (p + m), hres, ?_, ?_⟩
    · unfold readDiag
      rw [if_neg (hrd img)]
      simp only [hidx]
    · intro p
      have h := hsh p (m + p) (by omega)
      simp only [getD_pad] at h
      have hd := hm p
      have hv := himg p p.2 (noise.getD p 0) hd
      simp only at hv
      rw [show m + (p : ℕ) - noise.getD p 0 = p + (m - noise.getD p 0) by omega, hv] at h
      simp only
      rw [add_comm (p : ℕ) m, h]
      simp
  · obtain ⟨res, hres, hsh⟩ := blockwise_g2 (m + n) n scale hs img (List.replicate m 0 ++ noise) (fun _ _ => none)
      (by rw [List.length_append, List.length_replicate]; omega)
    refine ⟨res, fun p => res (p + m) p, hres, ?_, ?_⟩
    · unfold readDiag
      rw [if_neg (hrd img)]
      simp only [hidx]
    · intro p
      have h := hsh p (m + p) (by omega)
      simp only [getD_pad] at h
      have hd := hm p
      have hv := himg p p.2 (noise.getD p 0) hd
      simp only at hv
      rw [show m + (p : ℕ) - noise.getD p 0 = p + (m - noise.getD p 0) by omega, hv] at h
      simp only
      rw [add_comm (p : ℕ) m, h]
      simp

theorem Diagonals.chan1 {axis : Axis} {n m : ℕ} {V : ℕ → ℕ → ℝ × ℝ} {img : ℕ → ℕ → Option (ℝ × ℝ)}
    (h : Diagonals axis n m V img) : Diagonals axis n m (fun d p => (V d p).1) (chan1 img) := by
  intro p hp d hd
  have := h p hp d hd
  cases axis <;> simp only [SimCATS.chan1] at this ⊢ <;> rw [this] <;> rfl

theorem Diagonals.chan2 {axis : Axis} {n m : ℕ} {V : ℕ → ℕ → ℝ × ℝ} {img : ℕ → ℕ → Option (ℝ × ℝ)}
    (h : Diagonals axis n m V img) : Diagonals axis n m (fun d p => (V d p).2) (chan2 img) := by
  intro p hp d hd
  have := h p hp d hd
  cases axis <;> simp only [SimCATS.chan2] at this ⊢ <;> rw [this] <;> rfl

/-- The value shown by pixel `p` with jump `d`. -/
noncomputable def jumped1d {α : Type} (axis : Axis) (F : ℝ → ℝ → α) (g1 g2 : ℝ × ℝ) {n : ℕ} (occ : Fin n → α) (d : ℕ) (p : Fin n) : α :=
  if d = 0 then occ p else shifted1d axis F g1 g2 n d p

/-- The same for all natural indices. -/
noncomputable def jumped1d' {α : Type} (axis : Axis) (F : ℝ → ℝ → α) (g1 g2 : ℝ × ℝ) {n : ℕ} (occ : Fin n → α) (d p : ℕ) : α :=
  if h : d = 0 ∧ p < n then occ ⟨p, h.2⟩ else shifted1d axis F g1 g2 n d p

theorem jumped1d_eq {α : Type} (axis : Axis) (F : ℝ → ℝ → α) (g1 g2 : ℝ × ℝ) {n : ℕ} (occ : Fin n → α) (d : ℕ) (p : Fin n) :
    jumped1d' axis F g1 g2 occ d p = jumped1d axis F g1 g2 occ d p := by
  unfold jumped1d jumped1d'
  by_cases hd : d = 0 <;> simp [hd]

theorem jumped1d_stack {α : Type} (axis : Axis) (F : ℝ → ℝ → α) (g1 g2 : ℝ × ℝ) {n : ℕ} (occ : Fin n → α) :
    Stacked axis n 0 (jumped1d' axis F g1 g2 occ) (diagImg occ) := by
  refine ⟨?_, .diag axis occ⟩
  intro p hp d hd
  have : d = 0 := by omega
  subst this
  cases axis <;> simp [diagImg, hp, jumped1d']

theorem jumped1d_succ {α : Type} (axis : Axis) (F : ℝ → ℝ → α) (g1 g2 : ℝ × ℝ) {n : ℕ} (occ : Fin n → α) (d p : ℕ) :
    jumped1d' axis F g1 g2 occ (d + 1) p = shifted1d axis F g1 g2 n (d + 1) p := by
  simp [jumped1d']

/-- Result of `apply1d` for a sampling generator. -/
theorem apply1d_sampled {σ : Type} {gen : Gen σ} {F : ℝ → ℝ → ℝ × ℝ} {L : ℝ → ℝ → ℕ} (h : SampledBy gen F L) (axis : Axis)
    (np2 : Bool) (nan : ℝ) (n : ℕ) (occ : Fin n → ℝ × ℝ) (lead : Fin n → ℕ) (g1 g2 : ℝ × ℝ)
    (scale : Option ℝ) (hs : scale ≠ some 0) (noise : List ℕ) (hn : n ≤ noise.length) (m : ℕ) (hmax : maxJump noise = .ok m)
    (hm : ∀ j, noise.getD j 0 ≤ m) (hnp : np2 = true → m > 0 → n + m ≤ 256) (s : σ) :
    apply1d axis np2 nan n occ lead g1 g2 gen scale noise s =
      (.ok (fun p => jumped1d axis F g1 g2 occ (noise.getD p 0) p, fun p => jumped1d axis L g1 g2 lead (noise.getD p 0) p), s) := by
  obtain ⟨b, hb, hb1, hb2⟩ := border1d_sampled h axis g1 g2 n _ _ (jumped1d_succ axis F g1 g2 occ) (jumped1d_succ axis L g1 g2 lead)
    s m 0 _ _ (jumped1d_stack axis F g1 g2 occ) (jumped1d_stack axis L g1 g2 lead)
  rw [Nat.zero_add] at hb1 hb2
  obtain ⟨s1, r1, e1, f1, v1⟩ := readDiag_shift axis np2 n m scale hs _ _ hb1.1.chan1 noise hn hm hnp
  obtain ⟨s2, r2, e2, f2, v2⟩ := readDiag_shift axis np2 n m scale hs _ _ hb1.1.chan2 noise hn hm hnp
  obtain ⟨s3, r3, e3, f3, v3⟩ := readDiag_shift axis false n m scale hs _ _ hb2.1 noise hn hm (by simp)
  unfold apply1d
  rw [M.bind_run, ofPy_run, hmax]; simp only
  rw [M.bind_run, hb]; simp only
  rw [M.bind_run, ofPy_run, e1]; simp only
  rw [M.bind_run, ofPy_run, e2]; simp only
  rw [M.bind_run, ofPy_run, f1]; simp only
  rw [M.bind_run, ofPy_run, f2]; simp only
  rw [M.bind_run, ofPy_run, e3]; simp only
  rw [M.bind_run, ofPy_run, f3]; simp only
  rw [M.pure_run]
  refine congrArg (fun x => (Except.ok x, s)) (Prod.ext ?_ ?_)
  · funext p
    simp [v1, v2, jumped1d_eq]
  · funext p
    simp [v3, jumped1d_eq]

theorem shiftDiag_ok {α : Type} (axis : Axis) (n m : ℕ) (scale : Option ℝ) (hs : scale ≠ some 0) (img : ℕ → ℕ → Option α)
    (noise : List ℕ) (hl : n ≤ noise.length) : ∃ sh, shiftDiag axis n m scale img noise = .ok sh := by
  cases axis
  · obtain ⟨res, hres, -⟩ := blockwise_g1 n (m + n) scale hs img (List.replicate m 0 ++ noise) (fun _ _ => none)
      (by rw [List.length_append, List.length_replicate]; omega)
    exact ⟨res, hres⟩
  · obtain ⟨res, hres, -⟩ := blockwise_g2 (m + n) n scale hs img (List.replicate m 0 ++ noise) (fun _ _ => none)
      (by rw [List.length_append, List.length_replicate]; omega)
    exact ⟨res, hres⟩

/-- With numpy >= 2 and more than 256 pixels the index overflows. -/
theorem apply1d_overflow {σ : Type} {gen : Gen σ} {F : ℝ → ℝ → ℝ × ℝ} {L : ℝ → ℝ → ℕ} (h : SampledBy gen F L) (axis : Axis)
    (nan : ℝ) (n : ℕ) (occ : Fin n → ℝ × ℝ) (lead : Fin n → ℕ) (g1 g2 : ℝ × ℝ)
    (scale : Option ℝ) (hs : scale ≠ some 0) (noise : List ℕ) (hn : n ≤ noise.length) (m : ℕ) (hmax : maxJump noise = .ok m)
    (hm0 : 0 < m) (hn256 : 256 < n) (s : σ) :
    apply1d axis true nan n occ lead g1 g2 gen scale noise s = (.error .overflowError, s) := by
  obtain ⟨b, hb, hb1, hb2⟩ := border1d_sampled h axis g1 g2 n _ _ (jumped1d_succ axis F g1 g2 occ) (jumped1d_succ axis L g1 g2 lead)
    s m 0 _ _ (jumped1d_stack axis F g1 g2 occ) (jumped1d_stack axis L g1 g2 lead)
  obtain ⟨s1, e1⟩ := shiftDiag_ok axis n m scale hs (chan1 b.1) noise hn
  obtain ⟨s2, e2⟩ := shiftDiag_ok axis n m scale hs (chan2 b.1) noise hn
  unfold apply1d
  rw [M.bind_run, ofPy_run, hmax]; simp only
  rw [M.bind_run, hb]; simp only
  rw [M.bind_run, ofPy_run, e1]; simp only
  rw [M.bind_run, ofPy_run, e2]; simp only
  rw [M.bind_run, ofPy_run]
  unfold readDiag
  rw [if_pos ⟨rfl, hm0, hn256⟩]

/-- The entries that are read after the index wrapped around are NaN. -/
theorem readDiag_wrap {α : Type} (axis : Axis) (n m : ℕ) (scale : Option ℝ) (hs : scale ≠ some 0)
    (img : ℕ → ℕ → Option α) (himg : LowerNone axis img) (noise : List ℕ) (hl : n ≤ noise.length) (hn : n ≤ 256) (hm : m < 256)
    (hm0 : 0 < m) :
    ∃ sh res, shiftDiag axis n m scale img noise = .ok sh ∧ readDiag true axis m sh n = .ok res ∧
      ∀ p : Fin n, 256 ≤ p + m → res p = none := by
  have hidx : ∀ p : Fin n, addedIndex true p m = .ok ((p + m) % 256) := by
    intro p
    unfold addedIndex
    rw [if_pos ⟨rfl, hm0⟩, if_neg (by omega)]
  have hlow : ∀ p : Fin n, 256 ≤ p + m → (p + m) % 256 < (p : ℕ) := by
    intro p hp
    have : (p : ℕ) < n := p.2
    have : ((p : ℕ) + m) % 256 = p + m - 256 := by omega
    omega
  cases axis
  · obtain ⟨res, hres, hsh⟩ := blockwise_g1 n (m + n) scale hs img (List.replicate m 0 ++ noise) (fun _ _ => none)
      (by rw [List.length_append, List.length_replicate]; omega)
    refine ⟨res, fun p => res p ((p + m) % 256), hres, ?_, ?_⟩
    · unfold readDiag
      rw [if_neg (by omega)]
      simp only [hidx]
    · intro p hp
      have hl := hlow p hp
      have h := hsh p ((p + m) % 256) (by omega)
      simp only
      rw [h]
      have a1 := himg p (((p : ℕ) + m) % 256) hl
      have a2 := himg p (((p : ℕ) + m) % 256 - (List.replicate m 0 ++ noise).getD (((p : ℕ) + m) % 256) 0) (by omega)
      simp only at a1 a2
      rw [a1, a2]
      simp
  · obtain ⟨res, hres, hsh⟩ := blockwise_g2 (m + n) n scale hs img (List.replicate m 0 ++ noise) (fun _ _ => none)
      (by rw [List.length_append, List.length_replicate]; omega)
    refine ⟨res, fun p => res ((p + m) % 256) p, hres, ?_, ?_⟩
    · unfold readDiag
      rw [if_neg (by omega)]
      simp only [hidx]
    · intro p hp
      have hl := hlow p hp
      have h := hsh p ((p + m) % 256) (by omega)
      simp only at h ⊢
      rw [h]
      have a1 := himg p (((p : ℕ) + m) % 256) hl
      have a2 := himg p (((p : ℕ) + m) % 256 - (List.replicate m 0 ++ noise).getD (((p : ℕ) + m) % 256) 0) (by omega)
      simp only at a1 a2
      rw [a1, a2]
      simp

theorem LowerNone.chan1 {axis : Axis} {img : ℕ → ℕ → Option (ℝ × ℝ)} (h : LowerNone axis img) : LowerNone axis (chan1 img) := by
  intro p q hq
  have := h p q hq
  cases axis <;> simp only [SimCATS.chan1] at this ⊢ <;> rw [this] <;> rfl

theorem LowerNone.chan2 {axis : Axis} {img : ℕ → ℕ → Option (ℝ × ℝ)} (h : LowerNone axis img) : LowerNone axis (chan2 img) := by
  intro p q hq
  have := h p q hq
  cases axis <;> simp only [SimCATS.chan2] at this ⊢ <;> rw [this] <;> rfl

/-- With numpy >= 2 the pixels at the end of a scan of at most 256 pixels become NaN. -/
theorem apply1d_wrap {σ : Type} {gen : Gen σ} {F : ℝ → ℝ → ℝ × ℝ} {L : ℝ → ℝ → ℕ} (h : SampledBy gen F L) (axis : Axis)
    (nan : ℝ) (n : ℕ) (occ : Fin n → ℝ × ℝ) (lead : Fin n → ℕ) (g1 g2 : ℝ × ℝ)
    (scale : Option ℝ) (hs : scale ≠ some 0) (noise : List ℕ) (hn : n ≤ noise.length) (m : ℕ) (hmax : maxJump noise = .ok m)
    (hm : ∀ j, noise.getD j 0 ≤ m) (hm0 : 0 < m) (hm256 : m < 256) (hn256 : n ≤ 256) (s : σ) :
    ∃ o l, apply1d axis true nan n occ lead g1 g2 gen scale noise s = (.ok (o, l), s) ∧
      ∀ p : Fin n, 256 ≤ p + m → o p = (nan, nan) := by
  obtain ⟨b, hb, hb1, hb2⟩ := border1d_sampled h axis g1 g2 n _ _ (jumped1d_succ axis F g1 g2 occ) (jumped1d_succ axis L g1 g2 lead)
    s m 0 _ _ (jumped1d_stack axis F g1 g2 occ) (jumped1d_stack axis L g1 g2 lead)
  rw [Nat.zero_add] at hb1 hb2
  obtain ⟨s1, r1, e1, f1, v1⟩ := readDiag_wrap axis n m scale hs _ hb1.2.chan1 noise hn hn256 hm256 hm0
  obtain ⟨s2, r2, e2, f2, v2⟩ := readDiag_wrap axis n m scale hs _ hb1.2.chan2 noise hn hn256 hm256 hm0
  obtain ⟨s3, r3, e3, f3, v3⟩ := readDiag_shift axis false n m scale hs _ _ hb2.1 noise hn hm (by simp)
  unfold apply1d
  rw [M.bind_run, ofPy_run, hmax]; simp only
  rw [M.bind_run, hb]; simp only
  rw [M.bind_run, ofPy_run, e1]; simp only
  rw [M.bind_run, ofPy_run, e2]; simp only
  rw [M.bind_run, ofPy_run, f1]; simp only
  rw [M.bind_run, ofPy_run, f2]; simp only
  rw [M.bind_run, ofPy_run, e3]; simp only
  rw [M.bind_run, ofPy_run, f3]; simp only
  refine ⟨_, _, rfl, ?_⟩
  intro p hp
  simp [v1 p hp, v2 p hp]

end SimCATS
