import Verif.Props.ScanSensor
import Mathlib.Data.List.Sort

/-! Helper lemmas for the labels of sensor scans. -/

namespace SimCATS

theorem foldr_find {α : Type} (P : α → Prop) [DecidablePred P] (v : α → ℕ) (L : List α) :
    L.foldr (fun e acc => if P e then v e else acc) 0 = (L.find? fun e => decide (P e)).elim 0 v := by
  induction L with
  | nil => rfl
  | cons a L ih =>
    rw [List.foldr_cons, List.find?_cons]
    by_cases h : P a
    · simp [h]
    · simp [h, ih]

/-- The peak entries of the sorted list are the configured peaks with their ids. -/
theorem sortPeaks_mem (ps : List Peak) (p : Peak) (id : ℕ) : (p, id) ∈ sortPeaks ps ↔ ps[id]? = some p := by
  unfold sortPeaks
  rw [(List.perm_insertionSort _ _).mem_iff, List.mem_zipIdx_iff_getElem?]

theorem sortPeaks_nodup (ps : List Peak) : ((sortPeaks ps).map Prod.snd).Nodup := by
  unfold sortPeaks
  rw [((List.perm_insertionSort _ ps.zipIdx).map Prod.snd).nodup_iff]
  simp [List.nodup_range']

theorem sortPeaks_sorted (ps : List Peak) : (sortPeaks ps).Pairwise fun a b => a.1.mu0 ≤ b.1.mu0 := by
  classical
  unfold sortPeaks
  have : Std.Total (fun a b : Peak × ℕ => a.1.mu0 ≤ b.1.mu0) := ⟨fun a b => le_total _ _⟩
  have : IsTrans (Peak × ℕ) (fun a b : Peak × ℕ => a.1.mu0 ≤ b.1.mu0) := ⟨fun a b c h h' => h.trans h'⟩
  exact List.pairwise_insertionSort _ _

/-- Entries of the enumerated sorted list are determined by the id of the peak. -/
theorem sortPeaks_unique (ps : List Peak) (e e' : (Peak × ℕ) × ℕ) (h : e ∈ (sortPeaks ps).zipIdx)
    (h' : e' ∈ (sortPeaks ps).zipIdx) (hid : e.1.2 = e'.1.2) : e = e' := by
  rw [List.mem_zipIdx_iff_getElem?] at h h'
  have n := sortPeaks_nodup ps
  have i1 : ((sortPeaks ps).map Prod.snd)[e.2]? = some e.1.2 := by rw [List.getElem?_map, h]; rfl
  have i2 : ((sortPeaks ps).map Prod.snd)[e'.2]? = some e'.1.2 := by rw [List.getElem?_map, h']; rfl
  have hlt : e.2 < ((sortPeaks ps).map Prod.snd).length := by
    rw [List.getElem?_eq_some_iff] at i1
    exact i1.1
  have : e.2 = e'.2 := (List.getElem?_inj hlt n).1 (by rw [i1, i2, hid])
  rw [this, h'] at h
  exact Prod.ext (Option.some.inj h).symm this

theorem argminAbs_spec {n : ℕ} (xs : Fin n → ℝ) (mu0 : ℝ) (j : Fin n) (h : argminAbs xs mu0 = some j) (k : Fin n) :
    |xs j - mu0| ≤ |xs k - mu0| := by
  have hj : j ∈ (List.finRange n).argmin fun i => |xs i - mu0| := h
  exact List.le_of_mem_argmin (f := fun i => |xs i - mu0|) (List.mem_finRange k) hj

theorem peakPixel_nearest {c : ℕ} (row : Fin c → ℝ) (mu0 t : ℝ) (j : Fin c) (h : peakPixel row mu0 t = some j) (k : Fin c) :
    |row j - mu0| ≤ |row k - mu0| := by
  unfold peakPixel at h
  cases ha : argminAbs row mu0 with
  | none => rw [ha] at h; simp at h
  | some j' =>
    rw [ha] at h
    simp only at h
    split_ifs at h
    cases h
    exact argminAbs_spec row mu0 j ha k

/-- The mask of the Coulomb peaks shows the peak with the smallest position among those drawn at a pixel. -/
theorem drawPeaks_find {ι : Type} [Fintype ι] (s : ScanSensor) (ps : List Peak) (c : ℕ) (pot dist : ι → Fin c → ℝ) (i : ι)
    (j : Fin c) : s.drawPeaks ps c pot dist i j =
      ((sortPeaks ps).zipIdx.find? fun e => decide (peakPixel (fun k => s.distortedPot ps e.2 e.1.1 (pot i k) (dist i k))
        e.1.1.mu0 |meanDiff c fun (i : ι) k => if h : k < c then pot i ⟨k, h⟩ else 0| = some j)).elim 0
      fun e => (e.1.2 + 1) % 256 := by
  unfold ScanSensor.drawPeaks
  simp only [List.foldl_reverse]
  exact foldr_find (fun e : (Peak × ℕ) × ℕ => peakPixel (fun k => s.distortedPot ps e.2 e.1.1 (pot i k) (dist i k))
        e.1.1.mu0 |meanDiff c fun (i : ι) k => if h : k < c then pot i ⟨k, h⟩ else 0| = some j)
        (fun e => (e.1.2 + 1) % 256) (sortPeaks ps).zipIdx

/-- A label in the mask belongs to a peak that is drawn at this pixel. -/
theorem drawPeaks_some {ι : Type} [Fintype ι] (s : ScanSensor) (ps : List Peak) (c : ℕ) (pot dist : ι → Fin c → ℝ) (i : ι)
    (j : Fin c) (h : s.drawPeaks ps c pot dist i j ≠ 0) : ∃ e ∈ (sortPeaks ps).zipIdx,
      peakPixel (fun k => s.distortedPot ps e.2 e.1.1 (pot i k) (dist i k))
        e.1.1.mu0 |meanDiff c fun (i : ι) k => if h : k < c then pot i ⟨k, h⟩ else 0| = some j ∧
      s.drawPeaks ps c pot dist i j = (e.1.2 + 1) % 256 := by
  rw [drawPeaks_find] at h ⊢
  generalize hf : (sortPeaks ps).zipIdx.find? _ = x at h ⊢
  cases x with
  | none => simp at h
  | some e =>
    have := List.find?_some hf
    exact ⟨e, List.mem_of_find?_eq_some hf, by simpa using this, rfl⟩

theorem sortPeaks_entry (ps : List Peak) (e : (Peak × ℕ) × ℕ) (h : e ∈ (sortPeaks ps).zipIdx) : ps[e.1.2]? = some e.1.1 := by
  rw [← sortPeaks_mem]
  rw [List.mem_zipIdx_iff_getElem?] at h
  exact List.mem_of_getElem? h

/-- The image masks of `get_sensor_scan_labels` for the thresholds `full` and middle point `mid`. -/
theorem labels_ok (s : ScanSensor) (g1 g2 : VoltArg) (s1 s2 : ℝ × ℝ) (mu : Scan (Fin 3 → ℝ)) (st st' : Option ScanState)
    (out : Scan ℕ × Scan ℕ) (h : s.labels g1 g2 s1 s2 mu st = (.ok out, st')) :
    ∃ (x : ScanState) (o p mid : ℝ × ℝ) (ps : List Peak), st = some x ∧ firstOcc x.occ = .ok o ∧
      s.calcPoint x s.barrier1.fullyConductive s.barrier2.fullyConductive true = .ok p ∧
      s.labelMiddle ⟨g1.lims, g1.lims, (p.1, p.1), (p.2, p.2), .d1 1 fun _ => o⟩ = .ok mid ∧ s.peaks = some ps ∧
      g1.isArr = false ∧ g2.isArr = false ∧
      st' = some ⟨g1.lims, g1.lims, (p.1, p.1), (p.2, p.2), .d1 1 fun _ => o⟩ ∧
      ((∃ n f, mu = .d1 n f ∧ out = (.d1 n fun i => s.conductive (s.mu 0 o (g1.lims.1, g1.lims.1) p) (f i),
          .d1 n fun j => if s.conductive (s.mu 0 o (g1.lims.1, g1.lims.1) p) (f j) ≠ 1 then 0 else
            s.drawPeaks (ι := Unit) ps n (fun _ j => f j 0)
          (fun _ j => middleLineDist mid s.slope (linspace s1.1 s1.2 n j, linspace s2.1 s2.2 n j)) () j)) ∨
       (∃ r c f, mu = .d2 r c f ∧ out = (.d2 r c fun i j => s.conductive (s.mu 0 o (g1.lims.1, g1.lims.1) p) (f i j),
          .d2 r c fun i j => if s.conductive (s.mu 0 o (g1.lims.1, g1.lims.1) p) (f i j) ≠ 1 then 0 else
            s.drawPeaks (ι := Fin r) ps c (fun i j => f i j 0)
          (fun i j => middleLineDist mid s.slope (linspace s1.1 s1.2 c j, linspace s2.1 s2.2 r i)) i j))) := by
  unfold ScanSensor.labels at h
  cases st with
  | none =>
    rw [M.bind_run] at h
    simp [getState] at h
  | some x =>
    rw [M.bind_run, getState_run] at h
    simp only at h
    rw [M.bind_run, ofPy_run] at h
    cases ho : firstOcc x.occ with
    | error e => rw [ho] at h; simp at h
    | ok o =>
      rw [ho] at h
      simp only at h
      by_cases hv : (g1.noneOrFloat && g2.noneOrFloat) = false
      · rw [if_pos hv] at h
        simp at h
      rw [if_neg hv, M.bind_run, ofPy_run] at h
      have hg : g1.isArr = false ∧ g2.isArr = false := by
        cases g1 <;> cases g2 <;> simp_all [VoltArg.noneOrFloat, VoltArg.isArr]
      cases hp : s.calcPoint x s.barrier1.fullyConductive s.barrier2.fullyConductive true with
      | error e => rw [hp] at h; simp at h
      | ok p =>
        rw [hp] at h
        simp only at h
        have hpot : ∀ t, s.potential (.d1 1 fun _ => o) g1 g1 (.num true p.1) (.num true p.2) t =
            (.ok (.d1 1 fun _ k => s.mu k o (g1.lims.1, g1.lims.1) p),
              some ⟨g1.lims, g1.lims, (p.1, p.1), (p.2, p.2), .d1 1 fun _ => o⟩) := by
          intro t
          simp only [ScanSensor.potential, VoltArg.isArr, Bool.or_self, Bool.and_false, Bool.false_eq_true, if_false,
            ScanSensor.potentialArray, one_ne_zero, VoltArg.lims, linAt_one]
        rw [M.bind_run, hpot] at h
        simp only at h
        rw [M.bind_run, M.pure_run] at h
        simp only at h
        rw [M.bind_run, getState_run] at h
        simp only at h
        rw [M.bind_run] at h
        rw [ofPy_run] at h
        cases hm : s.labelMiddle ⟨g1.lims, g1.lims, (p.1, p.1), (p.2, p.2), .d1 1 fun _ => o⟩ with
          | error e => rw [hm] at h; simp at h
          | ok md =>
            rw [hm] at h
            simp only at h
            cases hps : s.peaks with
            | none => rw [hps] at h; simp at h
            | some ps =>
              rw [hps] at h
              simp only at h
              refine ⟨x, o, p, md, ps, rfl, ho, hp, hm, rfl, hg.1, hg.2, ?_⟩
              cases mu with
              | d0 y => simp at h
              | d1 n f =>
                simp only [M.pure_run, Prod.mk.injEq, Except.ok.injEq] at h
                exact ⟨h.2.symm, Or.inl ⟨n, f, rfl, h.1.symm⟩⟩
              | d2 r c f =>
                simp only [M.pure_run, Prod.mk.injEq, Except.ok.injEq] at h
                exact ⟨h.2.symm, Or.inr ⟨r, c, f, rfl, h.1.symm⟩⟩

/-- The labels of a 1D scan in the successful case. -/
theorem labels_run_1d (s : ScanSensor) (g1 g2 : VoltArg) (s1 s2 : ℝ × ℝ) (n : ℕ) (f : Fin n → Fin 3 → ℝ) (x : ScanState)
    (o p mid : ℝ × ℝ) (ps : List Peak) (ho : firstOcc x.occ = .ok o)
    (hp : s.calcPoint x s.barrier1.fullyConductive s.barrier2.fullyConductive true = .ok p)
    (hm : s.labelMiddle ⟨g1.lims, g1.lims, (p.1, p.1), (p.2, p.2), .d1 1 fun _ => o⟩ = .ok mid) (hps : s.peaks = some ps)
    (h1 : g1.noneOrFloat = true) (h2 : g2.noneOrFloat = true) :
    s.labels g1 g2 s1 s2 (.d1 n f) (some x) = (.ok (.d1 n fun i => s.conductive (s.mu 0 o (g1.lims.1, g1.lims.1) p) (f i),
          .d1 n fun j => if s.conductive (s.mu 0 o (g1.lims.1, g1.lims.1) p) (f j) ≠ 1 then 0 else
            s.drawPeaks (ι := Unit) ps n (fun _ j => f j 0)
          (fun _ j => middleLineDist mid s.slope (linspace s1.1 s1.2 n j, linspace s2.1 s2.2 n j)) () j),
      some ⟨g1.lims, g1.lims, (p.1, p.1), (p.2, p.2), .d1 1 fun _ => o⟩) := by
  unfold ScanSensor.labels
  rw [M.bind_run, getState_run]
  simp only
  rw [M.bind_run, ofPy_run, ho]
  simp only
  rw [if_neg (by simp [h1, h2]), M.bind_run, ofPy_run, hp]
  simp only
  have hpot : ∀ t, s.potential (.d1 1 fun _ => o) g1 g1 (.num true p.1) (.num true p.2) t =
      (.ok (.d1 1 fun _ k => s.mu k o (g1.lims.1, g1.lims.1) p),
        some ⟨g1.lims, g1.lims, (p.1, p.1), (p.2, p.2), .d1 1 fun _ => o⟩) := by
    intro t
    simp only [ScanSensor.potential, VoltArg.isArr, Bool.or_self, Bool.and_false, Bool.false_eq_true, if_false,
      ScanSensor.potentialArray, one_ne_zero, VoltArg.lims, linAt_one]
  rw [M.bind_run, hpot]
  simp only
  rw [M.bind_run, M.pure_run]
  simp only
  rw [M.bind_run, getState_run]
  simp only
  rw [M.bind_run, ofPy_run, hm]
  simp only [hps, M.pure_run]

theorem labels_run_2d (s : ScanSensor) (g1 g2 : VoltArg) (s1 s2 : ℝ × ℝ) (r c : ℕ) (f : Fin r → Fin c → Fin 3 → ℝ) (x : ScanState)
    (o p mid : ℝ × ℝ) (ps : List Peak) (ho : firstOcc x.occ = .ok o)
    (hp : s.calcPoint x s.barrier1.fullyConductive s.barrier2.fullyConductive true = .ok p)
    (hm : s.labelMiddle ⟨g1.lims, g1.lims, (p.1, p.1), (p.2, p.2), .d1 1 fun _ => o⟩ = .ok mid) (hps : s.peaks = some ps)
    (h1 : g1.noneOrFloat = true) (h2 : g2.noneOrFloat = true) :
    ∃ cond peaks, s.labels g1 g2 s1 s2 (.d2 r c f) (some x) = (.ok (.d2 r c cond, .d2 r c peaks),
      some ⟨g1.lims, g1.lims, (p.1, p.1), (p.2, p.2), .d1 1 fun _ => o⟩) := by
  unfold ScanSensor.labels
  rw [M.bind_run, getState_run]
  simp only
  rw [M.bind_run, ofPy_run, ho]
  simp only
  rw [if_neg (by simp [h1, h2]), M.bind_run, ofPy_run, hp]
  simp only
  have hpot : ∀ t, s.potential (.d1 1 fun _ => o) g1 g1 (.num true p.1) (.num true p.2) t =
      (.ok (.d1 1 fun _ k => s.mu k o (g1.lims.1, g1.lims.1) p),
        some ⟨g1.lims, g1.lims, (p.1, p.1), (p.2, p.2), .d1 1 fun _ => o⟩) := by
    intro t
    simp only [ScanSensor.potential, VoltArg.isArr, Bool.or_self, Bool.and_false, Bool.false_eq_true, if_false,
      ScanSensor.potentialArray, one_ne_zero, VoltArg.lims, linAt_one]
  rw [M.bind_run, hpot]
  simp only
  rw [M.bind_run, M.pure_run]
  simp only
  rw [M.bind_run, getState_run]
  simp only
  rw [M.bind_run, ofPy_run, hm]
  simp only [hps, M.pure_run]
  exact ⟨_, _, rfl⟩

end SimCATS
