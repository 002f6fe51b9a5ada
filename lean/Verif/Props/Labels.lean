import Verif.Lemmas.Labels
import Verif.Spec.Labels

/-! Property C29: labels of sensor scans. -/

namespace SimCATS

open Spec

theorem conductive_cases (s : ScanSensor) (full : ℝ) (m : Fin 3 → ℝ) :
    (s.conductive full m = 0 ↔ ¬ (s.barrier1.pinchOff < m 1 ∧ s.barrier2.pinchOff < m 2)) ∧
    (s.conductive full m = 1 ↔ (s.barrier1.pinchOff < m 1 ∧ s.barrier2.pinchOff < m 2) ∧ m 0 ≤ full) ∧
    (s.conductive full m = 2 ↔ (s.barrier1.pinchOff < m 1 ∧ s.barrier2.pinchOff < m 2) ∧ full < m 0) := by
  unfold ScanSensor.conductive
  by_cases h : m 1 > s.barrier1.pinchOff ∧ m 2 > s.barrier2.pinchOff
  · rw [if_pos h]
    by_cases h0 : m 0 > full
    · simp [h0, h.1, h.2]
    · simp [h0, h.1, h.2, not_lt.1 h0]
  · simp [h]

theorem rowLabels {ι : Type} [Fintype ι] (s : ScanSensor) (ps : List Peak) (hlen : ps.length ≤ 255) (c : ℕ) (full : ℝ)
    (f : ι → Fin c → Fin 3 → ℝ) (dist : ι → Fin c → ℝ) (i : ι) :
    RowLabels s.barrier1 s.barrier2 ps full (f i) (fun j => s.conductive full (f i j))
      (fun j => if s.conductive full (f i j) ≠ 1 then 0 else s.drawPeaks ps c (fun i j => f i j 0) dist i j) := by
  have lab : ∀ e ∈ (sortPeaks ps).zipIdx, (e.1.2 + 1) % 256 = e.1.2 + 1 ∧ e.1.2 + 1 ≤ ps.length := by
    intro e he
    have := sortPeaks_entry ps e he
    rw [List.getElem?_eq_some_iff] at this
    obtain ⟨hlt, -⟩ := this
    exact ⟨Nat.mod_eq_of_lt (by omega), hlt⟩
  refine ⟨fun j => (conductive_cases s full (f i j)).1, fun j => (conductive_cases s full (f i j)).2.1,
    fun j => (conductive_cases s full (f i j)).2.2, fun j hj => ?_, fun j => ?_, fun j k hj hk => ?_⟩
  · by_contra hc
    exact hj (if_pos hc)
  · split_ifs with hc
    · exact Nat.zero_le _
    · by_cases h0 : s.drawPeaks ps c (fun i j => f i j 0) dist i j = 0
      · rw [h0]; exact Nat.zero_le _
      · obtain ⟨e, he, -, hl⟩ := drawPeaks_some _ _ _ _ _ _ _ h0
        rw [hl, (lab e he).1]
        exact (lab e he).2
  · split_ifs at hj hk with h1 h2
    · exact absurd rfl hj
    · exact absurd rfl hj
    · exact absurd hk hj
    · obtain ⟨e, he, hp, hl⟩ := drawPeaks_some _ _ _ _ _ _ _ hj
      rw [hk] at hj
      obtain ⟨e', he', hp', hl'⟩ := drawPeaks_some _ _ _ _ _ _ _ hj
      rw [hl, hl', (lab e he).1, (lab e' he').1] at hk
      have := sortPeaks_unique ps e e' he he' (by omega)
      subst this
      rw [hp] at hp'
      exact Option.some.inj hp'

theorem peakPixel_inner {c : ℕ} (row : Fin c → ℝ) (mu0 t : ℝ) (j : Fin c) (h : ∀ k, k ≠ j → |row j - mu0| < |row k - mu0|)
    (h0 : (0 < (j : ℕ) ∧ (j : ℕ) + 1 < c) ∨ |row j - mu0| < t) : peakPixel row mu0 t = some j := by
  have ha : argminAbs row mu0 = some j := by
    cases ha : argminAbs row mu0 with
    | none =>
      unfold argminAbs at ha
      rw [List.argmin_eq_none] at ha
      have := List.mem_finRange j
      rw [ha] at this
      simp at this
    | some k =>
      by_contra hne
      have hk : k ≠ j := fun e => hne (by rw [e])
      exact absurd (argminAbs_spec row mu0 k ha j) (not_le.2 (h k hk))
  unfold peakPixel
  rw [ha]
  simp only
  rw [if_neg]
  rintro ⟨hb, hn⟩
  rcases h0 with h0 | h0
  · omega
  · exact hn h0

theorem peakPixel_border {c : ℕ} (row : Fin c → ℝ) (mu0 t : ℝ) (j : Fin c) (h : peakPixel row mu0 t = some j)
    (hj : (j : ℕ) = 0 ∨ (j : ℕ) + 1 = c) : |row j - mu0| < t := by
  unfold peakPixel at h
  cases ha : argminAbs row mu0 with
  | none => rw [ha] at h; cases h
  | some k =>
    rw [ha] at h
    simp only at h
    split_ifs at h with hc
    cases h
    by_contra hn
    exact hc ⟨by omega, hn⟩

theorem meanDiff_span {ι : Type} [Fintype ι] {c : ℕ} (f : ι → Fin c → Fin 3 → ℝ) :
    |meanDiff c fun (i : ι) k => if h : k < c then f i ⟨k, h⟩ 0 else 0| = meanSpacing f := by
  unfold meanDiff meanSpacing
  congr 2
  refine Finset.sum_congr rfl fun i _ => ?_
  rw [Finset.sum_range_sub (fun k => if h : k < c then f i ⟨k, h⟩ 0 else 0)]
  unfold rowSpan
  split_ifs with h1 h2 h3
  · rfl
  · omega
  · omega
  · simp

theorem rowPeaks {ι : Type} [Fintype ι] (s : ScanSensor) (hd : s.defs = []) (ps : List Peak) (hlen : ps.length ≤ 255)
    (c : ℕ) (full : ℝ) (f : ι → Fin c → Fin 3 → ℝ) (dist : ι → Fin c → ℝ) (i : ι) :
    RowPeaks ps (meanSpacing f) (f i) (fun j => s.conductive full (f i j))
      (fun j => if s.conductive full (f i j) ≠ 1 then 0 else s.drawPeaks ps c (fun i j => f i j 0) dist i j) := by
  have lab : ∀ e ∈ (sortPeaks ps).zipIdx, (e.1.2 + 1) % 256 = e.1.2 + 1 := by
    intro e he
    have := sortPeaks_entry ps e he
    rw [List.getElem?_eq_some_iff] at this
    obtain ⟨hlt, -⟩ := this
    exact Nat.mod_eq_of_lt (by omega)
  have dp : ∀ idx p x d, s.distortedPot ps idx p x d = x := by
    intro idx p x d
    unfold ScanSensor.distortedPot lookupDef
    rw [hd]
    rfl
  refine ⟨fun j id hj => ?_, fun id p j hid hn h0 hc => ?_⟩
  · split_ifs at hj with hc
    have hne : s.drawPeaks ps c (fun i j => f i j 0) dist i j ≠ 0 := by omega
    obtain ⟨e, he, hp, hl⟩ := drawPeaks_some _ _ _ _ _ _ _ hne
    rw [hj, lab e he] at hl
    have hid : id = e.1.2 := by omega
    refine ⟨e.1.1, by rw [hid]; exact sortPeaks_entry ps e he, ?_⟩
    simp only [dp] at hp
    refine ⟨fun k => peakPixel_nearest _ _ _ _ hp k, fun hb => ?_⟩
    rw [← meanDiff_span f]
    exact peakPixel_border (fun k => f i k 0) _ _ _ hp hb
  · have hm : (p, id) ∈ sortPeaks ps := (sortPeaks_mem ps p id).2 hid
    obtain ⟨idx, hidx⟩ := List.mem_iff_getElem?.1 hm
    have he : ((p, id), idx) ∈ (sortPeaks ps).zipIdx := List.mem_zipIdx_iff_getElem?.2 hidx
    simp only [hc, ne_eq, not_true_eq_false, if_false]
    rw [← meanDiff_span f] at h0
    have hpix := peakPixel_inner (fun k => f i k 0) p.mu0 _ j hn h0
    rw [drawPeaks_find]
    generalize hf : (sortPeaks ps).zipIdx.find? _ = x
    cases x with
    | none =>
      rw [List.find?_eq_none] at hf
      have := hf _ he
      simp only [dp, hpix, decide_true, not_true_eq_false] at this
    | some e =>
      have hmem := List.mem_of_find?_eq_some hf
      refine ⟨e.1.2, e.1.1, lab e hmem, sortPeaks_entry ps e hmem, ?_⟩
      -- the first match comes before the entry of `p` in the sorted list
      rw [List.find?_eq_some_iff_getElem] at hf
      obtain ⟨-, i0, hi0, hi0e, hbefore⟩ := hf
      have hidx' : idx < (sortPeaks ps).zipIdx.length := by
        rw [List.length_zipIdx]
        exact (List.getElem?_eq_some_iff.1 hidx).1
      have hle : i0 ≤ idx := by
        by_contra hlt
        have := hbefore idx (not_le.1 hlt)
        rw [List.getElem_zipIdx] at this
        have hget : (sortPeaks ps)[idx]'(by simpa using hidx') = (p, id) := (List.getElem?_eq_some_iff.1 hidx).2
        simp only [hget, dp, hpix, decide_true, Bool.not_true, Bool.false_eq_true] at this
      have g1 : (sortPeaks ps)[i0]'(by simpa using hi0) = e.1 := by
        rw [List.getElem_zipIdx] at hi0e
        rw [← hi0e]
      have g2 : (sortPeaks ps)[idx]'(by simpa using hidx') = (p, id) := (List.getElem?_eq_some_iff.1 hidx).2
      rcases Nat.lt_or_eq_of_le hle with hlt | heq
      · have := List.pairwise_iff_getElem.1 (sortPeaks_sorted ps) i0 idx (by simpa using hi0) (by simpa using hidx') hlt
        rw [g1, g2] at this
        exact this
      · subst heq
        rw [g1] at g2
        rw [g2]

/-- C29 for 1D scans: the masks returned by `get_sensor_scan_labels` are consistent; without deformations the marked
pixels are the pixels nearest to the peaks, at the border only within the mean spacing of the potentials. -/
theorem C29_labels_1d_partial (s : ScanSensor) (g1 g2 : VoltArg) (s1 s2 : ℝ × ℝ) (n : ℕ) (f : Fin n → Fin 3 → ℝ)
    (st st' : Option ScanState) (out : Scan ℕ × Scan ℕ) (ps : List Peak) (hps : s.peaks = some ps) (hlen : ps.length ≤ 255)
    (h : s.labels g1 g2 s1 s2 (.d1 n f) st = (.ok out, st')) :
    ∃ full cond peak, out = (.d1 n cond, .d1 n peak) ∧ RowLabels s.barrier1 s.barrier2 ps full f cond peak ∧
      (s.defs = [] → RowPeaks ps (meanSpacing fun _ : Unit => f) f cond peak) := by
  obtain ⟨x, o, p, mid, ps', -, -, -, -, hps', -, -, -, hcase⟩ := labels_ok s g1 g2 s1 s2 _ st st' out h
  rw [hps] at hps'
  cases hps'
  rcases hcase with ⟨n', f', hmu, hout⟩ | ⟨r, c, f', hmu, -⟩
  · cases hmu
    exact ⟨_, _, _, hout, rowLabels (ι := Unit) s ps hlen n _ (fun _ => f) _ (),
      fun hd => rowPeaks (ι := Unit) s hd ps hlen n _ (fun _ => f) _ ()⟩
  · cases hmu

/-- C29 for 2D scans: the same for every row of the image, with one common threshold. -/
theorem C29_labels_2d_partial (s : ScanSensor) (g1 g2 : VoltArg) (s1 s2 : ℝ × ℝ) (r c : ℕ) (f : Fin r → Fin c → Fin 3 → ℝ)
    (st st' : Option ScanState) (out : Scan ℕ × Scan ℕ) (ps : List Peak) (hps : s.peaks = some ps) (hlen : ps.length ≤ 255)
    (h : s.labels g1 g2 s1 s2 (.d2 r c f) st = (.ok out, st')) :
    ∃ full cond peak, out = (.d2 r c cond, .d2 r c peak) ∧
      ∀ i, RowLabels s.barrier1 s.barrier2 ps full (f i) (cond i) (peak i) ∧
        (s.defs = [] → RowPeaks ps (meanSpacing f) (f i) (cond i) (peak i)) := by
  obtain ⟨x, o, p, mid, ps', -, -, -, -, hps', -, -, -, hcase⟩ := labels_ok s g1 g2 s1 s2 _ st st' out h
  rw [hps] at hps'
  cases hps'
  rcases hcase with ⟨n', f', hmu, -⟩ | ⟨r', c', f', hmu, hout⟩
  · cases hmu
  · cases hmu
    exact ⟨_, _, _, hout, fun i => ⟨rowLabels (ι := Fin r) s ps hlen c _ f _ i,
      fun hd => rowPeaks (ι := Fin r) s hd ps hlen c _ f _ i⟩⟩

/-- C29, the threshold: if both plunger gates have the same voltage, the voltages agree with those of the stored potential,
and barrier 1 does not distinguish the dots, the region 2 begins where the sensor potential exceeds the one at the point
where both barriers are exactly fully conductive. -/
theorem C29_threshold_partial (s : ScanSensor) (g1 g2 : VoltArg) (s1 s2 : ℝ × ℝ) (n : ℕ) (f : Fin n → Fin 3 → ℝ)
    (x : ScanState) (o : ℝ × ℝ) (st' : Option ScanState) (out : Scan ℕ × Scan ℕ) (hdet : barrierDet s ≠ 0)
    (heps : (s.alphaSensor 1).2 = 0 ∨ floatEps ≤ |(s.alphaSensor 1).2|) (ho : firstOcc x.occ = .ok o)
    (hocc : o.1 = o.2 ∨ (s.alphaDot 1).2 = 0) (hg1 : x.g1 = g1.lims) (hg2 : x.g2 = g2.lims)
    (hgg : g1.lims.1 = g2.lims.1) (h : s.labels g1 g2 s1 s2 (.d1 n f) (some x) = (.ok out, st')) :
    ∃ w cond peak, out = (.d1 n cond, peak) ∧
      s.mu 1 o (g1.lims.1, g2.lims.1) w = s.barrier1.fullyConductive ∧
      s.mu 2 o (g1.lims.1, g2.lims.1) w = s.barrier2.fullyConductive ∧
      ∀ j, cond j = 2 ↔ (s.barrier1.pinchOff < f j 1 ∧ s.barrier2.pinchOff < f j 2) ∧
        s.mu 0 o (g1.lims.1, g2.lims.1) w < f j 0 := by
  obtain ⟨x', o', p, mid, ps', hx, ho', hp, -, -, -, -, -, hcase⟩ := labels_ok s g1 g2 s1 s2 _ _ st' out h
  cases hx
  rw [ho] at ho'
  cases ho'
  have key := C24_partial s x _ _ o p hdet heps ho hp hocc
  rw [hg1, hg2] at key
  rcases hcase with ⟨n', f', hmu, hout⟩ | ⟨r, c, f', hmu, -⟩
  · cases hmu
    refine ⟨p, _, _, hout, key.1, key.2, fun j => ?_⟩
    rw [← hgg]
    exact (conductive_cases s _ (f j)).2.2
  · cases hmu

/-- The barrier of the sample sensor. -/
noncomputable def quarterBarrier : BarrierGlf := ⟨1 / 4, 3 / 4, ⟨0, 1, 1, 1, 1, 1⟩, 0⟩

theorem quarterBarrier_order : quarterBarrier.pinchOff < quarterBarrier.fullyConductive :=
  ((C18_barrier_order quarterBarrier unitGlf_ok rfl (by norm_num [quarterBarrier]) (by norm_num [quarterBarrier])).1
    (by norm_num [quarterBarrier])).2 (by norm_num [quarterBarrier])

/-- `calc_point` of the sample sensor at plunger voltages `a`, `b` without electrons. -/
theorem sample_point (x : ScanState) (p1 p2 : ℝ) (ho : firstOcc x.occ = .ok (0, 0)) :
    ∃ w, sampleSensor.calcPoint x p1 p2 true = .ok w ∧ w.1 = p1 - (x.g1.1 + x.g2.1) ∧ w.2 = p2 - (x.g1.1 + x.g2.1) := by
  have e : sampleSensor.calcPoint x p1 p2 true = .ok (solvePoint (1, 0) (0, 1)
      (p1 - (dot2 (x.g1.1, x.g2.1) (1, 1) + 0 + -1 * 0 + -1 * 0)) (p2 - (dot2 (x.g1.1, x.g2.1) (1, 1) + 0 + -1 * 0 + -1 * 0))) := by
    unfold ScanSensor.calcPoint
    rw [ho]
    rfl
  refine ⟨_, e, ?_⟩
  have h := solvePoint_spec (1, 0) (0, 1) (p1 - (dot2 (x.g1.1, x.g2.1) (1, 1) + 0 + -1 * 0 + -1 * 0))
    (p2 - (dot2 (x.g1.1, x.g2.1) (1, 1) + 0 + -1 * 0 + -1 * 0)) (by norm_num) (Or.inl rfl)
  generalize solvePoint (1, 0) (0, 1) _ _ = w at h ⊢
  simp only [dot2] at h
  constructor
  · linarith [h.1]
  · linarith [h.2]

/-- C29 is refuted for the documented meaning of region 2 ("both barriers are fully open"): a pixel is labelled 2 although
barrier 2 is barely above its pinch-off. -/
theorem C29_open_refuted : ∃ (a b : ℝ) (cond : Fin 2 → ℕ) (peak : Scan ℕ) (t : Option ScanState),
    ((sampleSensor.potential (.d1 2 fun _ => (0, 0)) .none .none (.arr (a, a + 1)) (.arr (b, b)) >>= fun mu =>
      sampleSensor.labels .none .none (a, a + 1) (b, b) mu) none : Py (Scan ℕ × Scan ℕ) × Option ScanState) =
      (.ok (.d1 2 cond, peak), t) ∧
    cond 0 = 2 ∧ sampleSensor.mu 2 (0, 0) (0, 0) (a, b) < sampleSensor.barrier2.fullyConductive := by
  have hPF := quarterBarrier_order
  set P := quarterBarrier.pinchOff with hP
  set F := quarterBarrier.fullyConductive with hF
  set b := (P + F) / 2 with hb
  set a := 2 * F - b + 1 with ha
  have hpot : sampleSensor.potential (.d1 2 fun _ => (0, 0)) .none .none (.arr (a, a + 1)) (.arr (b, b)) none =
      (.ok (.d1 2 fun i k => sampleSensor.mu k (0, 0) (linspace 0 0 2 i, linspace 0 0 2 i)
        (linspace a (a + 1) 2 i, linspace b b 2 i)),
      some ⟨(0, 0), (0, 0), (a, a + 1), (b, b), .d1 2 fun _ => (0, 0)⟩) := by
    simp only [ScanSensor.potential, VoltArg.isArr, Bool.or_self, Bool.false_and, Bool.false_eq_true, if_false,
      ScanSensor.potentialArray, VoltArg.lims]
    rw [if_neg (by norm_num)]
  obtain ⟨w, hw, hw1, hw2⟩ := sample_point ⟨(0, 0), (0, 0), (a, a + 1), (b, b), .d1 2 fun _ => (0, 0)⟩ F F rfl
  have run := labels_run_1d sampleSensor .none .none (a, a + 1) (b, b) 2 (fun i k => sampleSensor.mu k (0, 0)
    (linspace 0 0 2 i, linspace 0 0 2 i) (linspace a (a + 1) 2 i, linspace b b 2 i)) _ (0, 0) w (0, 0) [] rfl hw rfl rfl rfl rfl
  refine ⟨a, b, _, _, _, (M.bind_run _ _ _).trans (by rw [hpot]; exact run), ?_, ?_⟩
  · rw [(conductive_cases _ _ _).2.2]
    have l0 : linspace (0 : ℝ) 0 2 0 = 0 := by simp [linspace, linAt]
    have la : linspace a (a + 1) 2 0 = a := by simp [linspace, linAt]
    have lb : linspace b b 2 0 = b := by simp [linspace, linAt]
    have b1 : sampleSensor.barrier1.pinchOff = P := rfl
    have b2 : sampleSensor.barrier2.pinchOff = P := rfl
    have m0 : ∀ v, sampleSensor.mu 0 (0, 0) (0, 0) v = dot2 (0, 0) (0, 0) + dot2 (0, 0) (1, 1) + dot2 v (1, 1) + 0 := fun v => rfl
    have m1 : ∀ v, sampleSensor.mu 1 (0, 0) (0, 0) v = dot2 (0, 0) (-1, -1) + dot2 (0, 0) (1, 1) + dot2 v (1, 0) + 0 := fun v => rfl
    have m2 : ∀ v, sampleSensor.mu 2 (0, 0) (0, 0) v = dot2 (0, 0) (-1, -1) + dot2 (0, 0) (1, 1) + dot2 v (0, 1) + 0 := fun v => rfl
    simp only [VoltArg.lims, l0, la, lb, b1, b2, m0, m1, m2, dot2] at hw1 hw2 ⊢
    rw [hw1, hw2]
    refine ⟨⟨?_, ?_⟩, ?_⟩ <;> linarith
  · have : sampleSensor.mu 2 (0, 0) (0, 0) (a, b) = dot2 (0, 0) (-1, -1) + dot2 (0, 0) (1, 1) + dot2 (a, b) (0, 1) + 0 := rfl
    have f2 : sampleSensor.barrier2.fullyConductive = F := rfl
    rw [this, f2]
    simp only [dot2]
    linarith

/-- C29 is refuted for different plunger voltages: the threshold is computed with the voltage of gate 1 for both gates, and
a pixel with both barriers below their fully conductive potential is labelled 2. -/
theorem C29_threshold_refuted : ∃ (a : ℝ) (cond : Fin 2 → ℕ) (peak : Scan ℕ) (t : Option ScanState),
    ((sampleSensor.potential (.d1 2 fun _ => (0, 0)) (.num true 0) (.num true 1) (.arr (a, a + 1)) (.arr (a, a + 1)) >>= fun mu =>
      sampleSensor.labels (.num true 0) (.num true 1) (a, a + 1) (a, a + 1) mu) none :
      Py (Scan ℕ × Scan ℕ) × Option ScanState) = (.ok (.d1 2 cond, peak), t) ∧
    cond 0 = 2 ∧ sampleSensor.mu 1 (0, 0) (0, 1) (a, a) < sampleSensor.barrier1.fullyConductive ∧
    sampleSensor.mu 2 (0, 0) (0, 1) (a, a) < sampleSensor.barrier2.fullyConductive := by
  have hPF := quarterBarrier_order
  set P := quarterBarrier.pinchOff with hP
  set F := quarterBarrier.fullyConductive with hF
  set d := min (1 / 4) ((F - P) / 2) with hd
  have d0 : 0 < d := lt_min (by norm_num) (by linarith)
  have d1 : d ≤ 1 / 4 := min_le_left _ _
  have d2 : d ≤ (F - P) / 2 := min_le_right _ _
  set a := F - d - 1 with ha
  have hpot : sampleSensor.potential (.d1 2 fun _ => (0, 0)) (.num true 0) (.num true 1) (.arr (a, a + 1)) (.arr (a, a + 1)) none =
      (.ok (.d1 2 fun i k => sampleSensor.mu k (0, 0) (linspace 0 0 2 i, linspace 1 1 2 i)
        (linspace a (a + 1) 2 i, linspace a (a + 1) 2 i)),
      some ⟨(0, 0), (1, 1), (a, a + 1), (a, a + 1), .d1 2 fun _ => (0, 0)⟩) := by
    simp only [ScanSensor.potential, VoltArg.isArr, Bool.or_self, Bool.false_and, Bool.false_eq_true, if_false,
      ScanSensor.potentialArray, VoltArg.lims]
    rw [if_neg (by norm_num)]
  obtain ⟨w, hw, hw1, hw2⟩ := sample_point ⟨(0, 0), (1, 1), (a, a + 1), (a, a + 1), .d1 2 fun _ => (0, 0)⟩ F F rfl
  have run := labels_run_1d sampleSensor (.num true 0) (.num true 1) (a, a + 1) (a, a + 1) 2 (fun i k => sampleSensor.mu k (0, 0)
    (linspace 0 0 2 i, linspace 1 1 2 i) (linspace a (a + 1) 2 i, linspace a (a + 1) 2 i)) _ (0, 0) w (0, 0) [] rfl hw rfl rfl rfl rfl
  have m0 : ∀ u v, sampleSensor.mu 0 (0, 0) u v = dot2 (0, 0) (0, 0) + dot2 u (1, 1) + dot2 v (1, 1) + 0 := fun u v => rfl
  have m1 : ∀ u v, sampleSensor.mu 1 (0, 0) u v = dot2 (0, 0) (-1, -1) + dot2 u (1, 1) + dot2 v (1, 0) + 0 := fun u v => rfl
  have m2 : ∀ u v, sampleSensor.mu 2 (0, 0) u v = dot2 (0, 0) (-1, -1) + dot2 u (1, 1) + dot2 v (0, 1) + 0 := fun u v => rfl
  have f1 : sampleSensor.barrier1.fullyConductive = F := rfl
  have f2 : sampleSensor.barrier2.fullyConductive = F := rfl
  refine ⟨a, _, _, _, (M.bind_run _ _ _).trans (by rw [hpot]; exact run), ?_, ?_, ?_⟩
  · rw [(conductive_cases _ _ _).2.2]
    have l0 : linspace (0 : ℝ) 0 2 0 = 0 := by simp [linspace, linAt]
    have l1 : linspace (1 : ℝ) 1 2 0 = 1 := by simp [linspace, linAt]
    have la : linspace a (a + 1) 2 0 = a := by simp [linspace, linAt]
    have b1 : sampleSensor.barrier1.pinchOff = P := rfl
    have b2 : sampleSensor.barrier2.pinchOff = P := rfl
    simp only [VoltArg.lims, l0, l1, la, b1, b2, m0, m1, m2, dot2] at hw1 hw2 ⊢
    rw [hw1, hw2]
    refine ⟨⟨?_, ?_⟩, ?_⟩ <;> linarith
  · rw [m1, f1]
    simp only [dot2]
    linarith
  · rw [m2, f2]
    simp only [dot2]
    linarith

/-! ### C53: the labels follow the deformation of their own peak -/

/-- The potential at which a peak appears at distance `dist` from the middle line. -/
noncomputable def peakPosition (s : ScanSensor) (id : ℕ) (p : Peak) (dist : ℝ) : ℝ :=
  match lookupDef s.defs id with
  | some d => d.calcMu s.alphaNorm dist p.mu0
  | none => p.mu0

theorem sortPeaks_of_sorted (ps : List Peak) (h : ps.Pairwise fun a b => a.mu0 ≤ b.mu0) : sortPeaks ps = ps.zipIdx := by
  unfold sortPeaks
  apply List.Pairwise.insertionSort_eq
  rw [List.pairwise_iff_getElem] at h ⊢
  intro i j hi hj hij
  rw [List.getElem_zipIdx, List.getElem_zipIdx]
  exact h i j (by simpa using hi) (by simpa using hj) hij

/-- C53, the part that holds: if the peaks are configured in ascending order of their position, every marked pixel of a
2D scan is the one of its row whose potential is closest to the position of the peak bent by the deformation of the same
peak, at the distance of that pixel from the middle line. -/
theorem C53_partial (s : ScanSensor) (g1 g2 : VoltArg) (s1 s2 : ℝ × ℝ) (r c : ℕ) (f : Fin r → Fin c → Fin 3 → ℝ)
    (st st' : Option ScanState) (out : Scan ℕ × Scan ℕ) (ps : List Peak) (hps : s.peaks = some ps) (hlen : ps.length ≤ 255)
    (hsort : ps.Pairwise fun a b => a.mu0 ≤ b.mu0)
    (h : s.labels g1 g2 s1 s2 (.d2 r c f) st = (.ok out, st')) :
    ∃ mid cond peak, out = (cond, .d2 r c peak) ∧ ∀ i j id, peak i j = id + 1 → ∃ p, ps[id]? = some p ∧
      ∀ k, |f i j 0 - peakPosition s id p (middleLineDist mid s.slope (linspace s1.1 s1.2 c j, linspace s2.1 s2.2 r i))| ≤
        |f i k 0 - peakPosition s id p (middleLineDist mid s.slope (linspace s1.1 s1.2 c k, linspace s2.1 s2.2 r i))| := by
  obtain ⟨x, o, p, mid, ps', -, -, -, -, hps', -, -, -, hcase⟩ := labels_ok s g1 g2 s1 s2 _ st st' out h
  rw [hps] at hps'
  cases hps'
  rcases hcase with ⟨n', f', hmu, -⟩ | ⟨r', c', f', hmu, hout⟩
  · cases hmu
  · cases hmu
    refine ⟨mid, _, _, hout, fun i j id hj => ?_⟩
    split_ifs at hj with hc
    have hne : s.drawPeaks ps c (fun i j => f i j 0) (fun i j => middleLineDist mid s.slope
      (linspace s1.1 s1.2 c j, linspace s2.1 s2.2 r i)) i j ≠ 0 := by omega
    obtain ⟨e, he, hp, hl⟩ := drawPeaks_some _ _ _ _ _ _ _ hne
    have hent := sortPeaks_entry ps e he
    have hlt := (List.getElem?_eq_some_iff.1 hent).1
    rw [hj, Nat.mod_eq_of_lt (by omega)] at hl
    have hid : id = e.1.2 := by omega
    have hidx : e.2 = e.1.2 := by
      rw [sortPeaks_of_sorted ps hsort, List.mem_zipIdx_iff_getElem?, List.getElem?_zipIdx] at he
      cases hx : ps[e.2]? with
      | none => rw [hx] at he; simp at he
      | some q =>
        rw [hx] at he
        simp only [Option.map_some, Option.some.injEq] at he
        rw [← he]
        simp
    subst hid
    refine ⟨e.1.1, hent, fun k => ?_⟩
    have := peakPixel_nearest _ _ _ _ hp k
    rw [hidx] at this
    have e1 : ∀ y d, s.distortedPot ps e.1.2 e.1.1 y d - e.1.1.mu0 = y - peakPosition s e.1.2 e.1.1 d := by
      intro y d
      unfold ScanSensor.distortedPot peakPosition
      cases lookupDef s.defs e.1.2 with
      | none => rfl
      | some d' =>
        simp only [hent, Option.map_some, Option.getD_some]
        ring
    rw [e1, e1] at this
    exact this

/-- A sensor with two peaks, configured in descending order, and a deformation of the first one. -/
noncomputable def twoPeaks (defs : List (ℕ × Deform)) : ScanSensor where
  peaks := some [⟨.gaussian, 1, 1, 1, 0⟩, ⟨.gaussian, 0, 1, 1, 0⟩]
  defs := defs
  rise := none
  barrier1 := ⟨fun _ => 1, -10, 10⟩
  barrier2 := ⟨fun _ => 1, -10, 10⟩
  alphaDot := ![(0, 0), (0, 0), (0, 0)]
  alphaGate := ![(0, 0), (0, 0), (0, 0)]
  alphaSensor := ![(1, 1), (1, 0), (0, 1)]
  offset := ![0, 0, 0]

/-- The potential of the scan along the diagonal: the sensor potential is -1, 0, 1, 2. -/
noncomputable def twoPeaksMu (i : Fin 4) (k : Fin 3) : ℝ := if k = 0 then (i : ℝ) - 1 else ((i : ℝ) - 1) / 2

theorem twoPeaks_potential (defs : List (ℕ × Deform)) (st : Option ScanState) :
    (twoPeaks defs).potential (.d1 4 fun _ => (0, 0)) .none .none (.arr (-1 / 2, 1)) (.arr (-1 / 2, 1)) st =
      (.ok (.d1 4 twoPeaksMu), some ⟨(0, 0), (0, 0), (-1 / 2, 1), (-1 / 2, 1), .d1 4 fun _ => (0, 0)⟩) := by
  simp only [ScanSensor.potential, VoltArg.isArr, Bool.or_self, Bool.false_and, Bool.false_eq_true, if_false,
      ScanSensor.potentialArray, VoltArg.lims]
  rw [if_neg (by norm_num)]
  congr 3
  funext i k
  fin_cases k
  · change dot2 (0, 0) (0, 0) + dot2 _ (0, 0) + dot2 (linspace (-1 / 2) 1 4 i, linspace (-1 / 2) 1 4 i) (1, 1) + 0 = _
    simp only [dot2, linspace, linAt, twoPeaksMu]
    norm_num
    ring
  · change dot2 (0, 0) (0, 0) + dot2 _ (0, 0) + dot2 (linspace (-1 / 2) 1 4 i, linspace (-1 / 2) 1 4 i) (1, 0) + 0 = _
    simp only [dot2, linspace, linAt, twoPeaksMu]
    norm_num
    ring
  · change dot2 (0, 0) (0, 0) + dot2 _ (0, 0) + dot2 (linspace (-1 / 2) 1 4 i, linspace (-1 / 2) 1 4 i) (0, 1) + 0 = _
    simp only [dot2, linspace, linAt, twoPeaksMu]
    norm_num
    ring

theorem twoPeaks_point (defs : List (ℕ × Deform)) (x : ScanState) (q : ℝ) (ho : firstOcc x.occ = .ok (0, 0)) :
    (twoPeaks defs).calcPoint x q q true = .ok (q, q) := by
  have e : (twoPeaks defs).calcPoint x q q true = .ok (solvePoint (1, 0) (0, 1)
      (q - (dot2 (x.g1.1, x.g2.1) (0, 0) + 0 + 0 * 0 + 0 * 0)) (q - (dot2 (x.g1.1, x.g2.1) (0, 0) + 0 + 0 * 0 + 0 * 0))) := by
    unfold ScanSensor.calcPoint
    rw [ho]
    rfl
  have h := solvePoint_spec (1, 0) (0, 1) (q - (dot2 (x.g1.1, x.g2.1) (0, 0) + 0 + 0 * 0 + 0 * 0))
    (q - (dot2 (x.g1.1, x.g2.1) (0, 0) + 0 + 0 * 0 + 0 * 0)) (by norm_num) (Or.inl rfl)
  rw [e]
  generalize solvePoint (1, 0) (0, 1) _ _ = w at h ⊢
  simp only [dot2] at h
  congr 1
  ext
  · simp only; linarith [h.1]
  · simp only; linarith [h.2]

theorem twoPeaks_cond (defs : List (ℕ × Deform)) (i : Fin 4) :
    (twoPeaks defs).conductive ((twoPeaks defs).mu 0 (0, 0) (0, 0) (10, 10)) (twoPeaksMu i) = 1 := by
  rw [(conductive_cases _ _ _).2.1]
  have m0 : (twoPeaks defs).mu 0 (0, 0) (0, 0) (10, 10) = dot2 (0, 0) (0, 0) + dot2 (0, 0) (0, 0) + dot2 (10, 10) (1, 1) + 0 := rfl
  have b1 : (twoPeaks defs).barrier1.pinchOff = -10 := rfl
  have b2 : (twoPeaks defs).barrier2.pinchOff = -10 := rfl
  rw [m0, b1, b2]
  have hi : (i : ℝ) ≤ 3 := by
    have := i.2
    have : (i : ℕ) ≤ 3 := by omega
    exact_mod_cast this
  have hi0 : (0 : ℝ) ≤ (i : ℝ) := by positivity
  refine ⟨⟨?_, ?_⟩, ?_⟩ <;> simp [twoPeaksMu, dot2] <;> linarith

/-- Distances of the pixels on the diagonal are 0, where the circle does not bend the peak. -/
theorem twoPeaks_dist (defs : List (ℕ × Deform)) (q x : ℝ) : middleLineDist (q, q) (twoPeaks defs).slope (x, x) = 0 := by
  have : (twoPeaks defs).slope = 1 / 1 := rfl
  rw [this]
  unfold middleLineDist signedDist
  simp [cross2]

theorem circle_zero (a mu0 : ℝ) : circleCalcMu 1 a 0 mu0 = mu0 := by
  unfold circleCalcMu clip1
  simp

theorem twoPeaks_sort : sortPeaks [⟨.gaussian, 1, 1, 1, 0⟩, ⟨.gaussian, 0, 1, 1, 0⟩] =
    [(⟨.gaussian, 0, 1, 1, 0⟩, 1), (⟨.gaussian, 1, 1, 1, 0⟩, 0)] := by
  unfold sortPeaks
  simp [List.zipIdx, List.insertionSort, List.orderedInsert]

/-- The pixel drawn for a peak position that is hit exactly by an inner pixel of the diagonal scan. -/
theorem twoPeaks_pixel (row : Fin 4 → ℝ) (mu0 t : ℝ) (j : Fin 4) (hrow : ∀ k : Fin 4, row k = mu0 + ((k : ℝ) - (j : ℝ)))
    (h0 : 0 < (j : ℕ)) (h1 : (j : ℕ) < 3) : peakPixel row mu0 t = some j := by
  apply peakPixel_inner _ _ _ _ _ (Or.inl ⟨h0, by omega⟩)
  intro k hk
  rw [hrow, hrow]
  simp only [sub_self, add_zero, abs_zero, add_sub_cancel_left]
  rw [abs_pos, sub_ne_zero]
  intro e
  exact hk (Fin.ext (by exact_mod_cast e))

theorem twoPeaks_run (defs : List (ℕ × Deform)) (st : Option ScanState) :
    ∃ (mid : ℝ × ℝ) (t : Option ScanState), mid.1 = mid.2 ∧ (((twoPeaks defs).potential (.d1 4 fun _ => (0, 0)) .none .none (.arr (-1 / 2, 1))
      (.arr (-1 / 2, 1)) >>= fun mu => (twoPeaks defs).labels .none .none (-1 / 2, 1) (-1 / 2, 1) mu) st :
      Py (Scan ℕ × Scan ℕ) × Option ScanState) = (.ok (.d1 4 fun _ => 1, .d1 4 fun j => (twoPeaks defs).drawPeaks (ι := Unit)
        [⟨.gaussian, 1, 1, 1, 0⟩, ⟨.gaussian, 0, 1, 1, 0⟩] 4 (fun _ j => twoPeaksMu j 0) (fun _ _ => 0) () j), t) := by
  have hp := twoPeaks_point defs ⟨(0, 0), (0, 0), (-1 / 2, 1), (-1 / 2, 1), .d1 4 fun _ => (0, 0)⟩ 10 rfl
  have hm : ∃ mid : ℝ × ℝ, mid.1 = mid.2 ∧ (twoPeaks defs).labelMiddle
      ⟨(0, 0), (0, 0), (10, 10), (10, 10), .d1 1 fun _ => (0, 0)⟩ = .ok mid := by
    unfold ScanSensor.labelMiddle
    split_ifs
    · exact ⟨(0, 0), rfl, rfl⟩
    · exact ⟨(-10, -10), rfl, twoPeaks_point defs _ (-10) rfl⟩
  obtain ⟨⟨q, q'⟩, hq, hmid⟩ := hm
  simp only at hq
  subst hq
  have run := labels_run_1d (twoPeaks defs) .none .none (-1 / 2, 1) (-1 / 2, 1) 4 twoPeaksMu
    ⟨(0, 0), (0, 0), (-1 / 2, 1), (-1 / 2, 1), .d1 4 fun _ => (0, 0)⟩ (0, 0) (10, 10) (q, q) _ rfl hp hmid rfl rfl rfl
  simp only [VoltArg.lims, twoPeaks_cond, twoPeaks_dist, ne_eq, not_true_eq_false, if_false] at run
  rw [M.bind_run, twoPeaks_potential]
  exact ⟨(q, q), _, rfl, run⟩

/-- C53 is refuted for peaks configured in another order: the second peak lies exactly at the potential of pixel 1 and has
no deformation, but its label 2 appears at pixel 2, because the deformation of the first peak (which does not bend
anything at distance 0) is looked up with the position in the sorted list. -/
theorem C53_refuted (st : Option ScanState) : ∃ (peak : Fin 4 → ℕ) (cond : Scan ℕ) (t : Option ScanState),
    (((twoPeaks [(0, .circle 1)]).potential (.d1 4 fun _ => (0, 0)) .none .none (.arr (-1 / 2, 1)) (.arr (-1 / 2, 1)) >>= fun mu =>
      (twoPeaks [(0, .circle 1)]).labels .none .none (-1 / 2, 1) (-1 / 2, 1) mu) st : Py (Scan ℕ × Scan ℕ) × Option ScanState) =
      (.ok (cond, .d1 4 peak), t) ∧
    twoPeaksMu 1 0 = 0 ∧ peak 1 = 0 ∧ peak 2 = 2 := by
  obtain ⟨mid, t, -, h⟩ := twoPeaks_run [(0, .circle 1)] st
  refine ⟨_, _, _, h, by norm_num [twoPeaksMu], ?_⟩
  have l0 : lookupDef (twoPeaks [(0, Deform.circle 1)]).defs 0 = some (.circle 1) := rfl
  have l1 : lookupDef (twoPeaks [(0, Deform.circle 1)]).defs 1 = none := rfl
  have p0 : ∀ t, peakPixel (fun k : Fin 4 => twoPeaksMu k 0 + (0 - 1)) 0 t = some 2 := fun t =>
    twoPeaks_pixel _ _ _ _ (fun k => by simp [twoPeaksMu]; ring) (by decide) (by decide)
  have p1 : ∀ t, peakPixel (fun k : Fin 4 => twoPeaksMu k 0) 1 t = some 2 := fun t =>
    twoPeaks_pixel _ _ _ _ (fun k => by simp [twoPeaksMu]; ring) (by decide) (by decide)
  simp only [ScanSensor.drawPeaks, twoPeaks_sort, List.zipIdx_cons, List.zipIdx_nil, List.reverse_cons, List.reverse_nil,
    List.nil_append, List.cons_append, List.foldl_cons, List.foldl_nil, zero_add, ScanSensor.distortedPot, l0, l1,
    Deform.calcMu, circle_zero, List.getElem?_cons_zero, Option.map_some, Option.getD_some, p0, p1]
  decide

/-! ### C54: ascending labels -/

theorem rowPeaks_ascending (ps : List Peak) (hsort : ps.Pairwise fun a b => a.mu0 < b.mu0) {c : ℕ} (spacing : ℝ)
    (mu : Fin c → Fin 3 → ℝ) (cond peak : Fin c → ℕ) (h : RowPeaks ps spacing mu cond peak) (hmono : ∀ j k, j < k → mu j 0 < mu k 0) (j k : Fin c)
    (hj : peak j ≠ 0) (hjk : j < k) (hk : peak k ≠ 0) (hne : peak j ≠ peak k) : peak j < peak k := by
  by_contra hlt
  obtain ⟨a, ha⟩ := Nat.exists_eq_succ_of_ne_zero hj
  obtain ⟨b, hb⟩ := Nat.exists_eq_succ_of_ne_zero hk
  obtain ⟨p, hp, np, -⟩ := h.nearest j a ha
  obtain ⟨q, hq, nq, -⟩ := h.nearest k b hb
  have hba : b < a := by omega
  obtain ⟨ha', rfl⟩ := List.getElem?_eq_some_iff.1 hp
  obtain ⟨hb', rfl⟩ := List.getElem?_eq_some_iff.1 hq
  have hm := List.pairwise_iff_getElem.1 hsort b a hb' ha' hba
  have h1 := sq_le_sq.2 (np k)
  have h2 := sq_le_sq.2 (nq j)
  have h3 := hmono j k hjk
  nlinarith

/-- C54, the part that holds: if the peaks are configured in strictly ascending order, there are no deformations, and the
sensor potential rises along a row, the labels of this row are strictly ascending. -/
theorem C54_partial (s : ScanSensor) (g1 g2 : VoltArg) (s1 s2 : ℝ × ℝ) (r c : ℕ) (f : Fin r → Fin c → Fin 3 → ℝ)
    (st st' : Option ScanState) (out : Scan ℕ × Scan ℕ) (ps : List Peak) (hps : s.peaks = some ps) (hlen : ps.length ≤ 255)
    (hd : s.defs = []) (hsort : ps.Pairwise fun a b => a.mu0 < b.mu0)
    (h : s.labels g1 g2 s1 s2 (.d2 r c f) st = (.ok out, st')) :
    ∃ cond peak, out = (cond, .d2 r c peak) ∧ ∀ i, (∀ j k, j < k → f i j 0 < f i k 0) →
      ∀ j k, j < k → peak i j ≠ 0 → peak i k ≠ 0 → peak i j < peak i k := by
  obtain ⟨full, cond, peak, hout, hrow⟩ := C29_labels_2d_partial s g1 g2 s1 s2 r c f st st' out ps hps hlen h
  refine ⟨_, peak, hout, fun i hmono j k hjk hj hk => ?_⟩
  exact rowPeaks_ascending ps hsort _ (f i) (cond i) (peak i) ((hrow i).2 hd) hmono j k hj hjk hk
    fun e => absurd ((hrow i).1.once j k hj e) hjk.ne

/-- C54 is refuted for peaks configured in another order: the peak at the higher potential has the lower label. -/
theorem C54_refuted (st : Option ScanState) : ∃ (peak : Fin 4 → ℕ) (cond : Scan ℕ) (t : Option ScanState),
    (((twoPeaks []).potential (.d1 4 fun _ => (0, 0)) .none .none (.arr (-1 / 2, 1)) (.arr (-1 / 2, 1)) >>= fun mu =>
      (twoPeaks []).labels .none .none (-1 / 2, 1) (-1 / 2, 1) mu) st : Py (Scan ℕ × Scan ℕ) × Option ScanState) =
      (.ok (cond, .d1 4 peak), t) ∧
    twoPeaksMu 1 0 < twoPeaksMu 2 0 ∧ peak 1 = 2 ∧ peak 2 = 1 := by
  obtain ⟨mid, t, -, h⟩ := twoPeaks_run [] st
  refine ⟨_, _, _, h, by norm_num [twoPeaksMu], ?_⟩
  have l0 : ∀ i, lookupDef (twoPeaks []).defs i = none := fun i => rfl
  have p0 : ∀ t, peakPixel (fun k : Fin 4 => twoPeaksMu k 0) 0 t = some 1 := fun t =>
    twoPeaks_pixel _ _ _ _ (fun k => by simp [twoPeaksMu]) (by decide) (by decide)
  have p1 : ∀ t, peakPixel (fun k : Fin 4 => twoPeaksMu k 0) 1 t = some 2 := fun t =>
    twoPeaks_pixel _ _ _ _ (fun k => by simp [twoPeaksMu]; ring) (by decide) (by decide)
  simp only [ScanSensor.drawPeaks, twoPeaks_sort, List.zipIdx_cons, List.zipIdx_nil, List.reverse_cons, List.reverse_nil,
    List.nil_append, List.cons_append, List.foldl_cons, List.foldl_nil, zero_add, ScanSensor.distortedPot, l0, p0, p1]
  decide

/-- Non-vacuity of the label theorems: a scan with two peaks and a deformation for which the labels are computed. -/
example : ∃ out st', (twoPeaks [(0, .circle 1)]).labels .none .none (-1 / 2, 1) (-1 / 2, 1) (.d1 4 twoPeaksMu)
    (some ⟨(0, 0), (0, 0), (-1 / 2, 1), (-1 / 2, 1), .d1 4 fun _ => (0, 0)⟩) = (.ok out, st') := by
  obtain ⟨mid, t, -, h⟩ := twoPeaks_run [(0, .circle 1)] none
  rw [M.bind_run, twoPeaks_potential] at h
  exact ⟨_, _, h⟩

/-- An image with 4 columns and 2 rows, taken with the two peaks in ascending order: the labels are computed, so that the theorems
about images apply; the potentials of both rows ascend. -/
noncomputable def sortedPeaks (defs : List (ℕ × Deform)) : ScanSensor :=
  { twoPeaks defs with peaks := some [⟨.gaussian, 0, 1, 1, 0⟩, ⟨.gaussian, 1, 1, 1, 0⟩] }

theorem sortedPeaks_run (defs : List (ℕ × Deform)) : ∃ out st', (sortedPeaks defs).labels .none .none (-1 / 2, 1) (0, 0)
    (.d2 2 4 fun _ => twoPeaksMu) (some ⟨(0, 0), (0, 0), (-1 / 2, 1), (0, 0), .d2 2 4 fun _ _ => (0, 0)⟩) = (.ok out, st') := by
  have hp : (sortedPeaks defs).calcPoint ⟨(0, 0), (0, 0), (-1 / 2, 1), (0, 0), .d2 2 4 fun _ _ => (0, 0)⟩ 10 10 true = .ok (10, 10) :=
    twoPeaks_point defs ⟨(0, 0), (0, 0), (-1 / 2, 1), (0, 0), .d2 2 4 fun _ _ => (0, 0)⟩ 10 rfl
  have hm : ∃ mid, (sortedPeaks defs).labelMiddle ⟨(0, 0), (0, 0), (10, 10), (10, 10), .d1 1 fun _ => (0, 0)⟩ = .ok mid := by
    unfold ScanSensor.labelMiddle
    split_ifs
    · exact ⟨_, rfl⟩
    · exact ⟨_, twoPeaks_point defs ⟨(0, 0), (0, 0), (10, 10), (10, 10), .d1 1 fun _ => (0, 0)⟩ (-10) rfl⟩
  obtain ⟨mid, hm⟩ := hm
  obtain ⟨cond, peaks, h⟩ := labels_run_2d (sortedPeaks defs) .none .none (-1 / 2, 1) (0, 0) 2 4 (fun _ => twoPeaksMu)
    ⟨(0, 0), (0, 0), (-1 / 2, 1), (0, 0), .d2 2 4 fun _ _ => (0, 0)⟩ (0, 0) (10, 10) mid _ rfl hp hm rfl rfl rfl
  exact ⟨_, _, h⟩

example : ∃ out st' cond peak, (sortedPeaks []).labels .none .none (-1 / 2, 1) (0, 0) (.d2 2 4 fun _ => twoPeaksMu)
      (some ⟨(0, 0), (0, 0), (-1 / 2, 1), (0, 0), .d2 2 4 fun _ _ => (0, 0)⟩) = (.ok out, st') ∧ out = (cond, .d2 2 4 peak) ∧
    ∀ i j k, j < k → peak i j ≠ 0 → peak i k ≠ 0 → peak i j < peak i k := by
  obtain ⟨out, st', h⟩ := sortedPeaks_run []
  obtain ⟨cond, peak, e, hp⟩ := C54_partial _ _ _ _ _ _ _ _ _ _ _ _ rfl (by simp) rfl (by simp) h
  refine ⟨out, st', cond, peak, h, e, fun i => hp i fun j k hjk => ?_⟩
  have : ((j : ℕ) : ℝ) < (k : ℕ) := by exact_mod_cast hjk
  simp only [twoPeaksMu, if_true]
  linarith

example : ∃ out st' mid cond peak, (sortedPeaks [(0, .circle 1)]).labels .none .none (-1 / 2, 1) (0, 0) (.d2 2 4 fun _ => twoPeaksMu)
      (some ⟨(0, 0), (0, 0), (-1 / 2, 1), (0, 0), .d2 2 4 fun _ _ => (0, 0)⟩) = (.ok out, st') ∧ out = (cond, .d2 2 4 peak) ∧
    ∀ i j id, peak i j = id + 1 → ∃ p, [(⟨.gaussian, 0, 1, 1, 0⟩ : Peak), ⟨.gaussian, 1, 1, 1, 0⟩][id]? = some p ∧
      ∀ k, |twoPeaksMu j 0 - peakPosition (sortedPeaks [(0, .circle 1)]) id p (middleLineDist mid (sortedPeaks [(0, .circle 1)]).slope
          (linspace (-1 / 2) 1 4 j, linspace 0 0 2 i))| ≤
        |twoPeaksMu k 0 - peakPosition (sortedPeaks [(0, .circle 1)]) id p (middleLineDist mid (sortedPeaks [(0, .circle 1)]).slope
          (linspace (-1 / 2) 1 4 k, linspace 0 0 2 i))| := by
  obtain ⟨out, st', h⟩ := sortedPeaks_run [(0, .circle 1)]
  obtain ⟨mid, cond, peak, e, hp⟩ := C53_partial _ _ _ _ _ _ _ _ _ _ _ _ rfl (by simp) (by simp) h
  exact ⟨out, st', mid, cond, peak, h, e, hp⟩

end SimCATS
