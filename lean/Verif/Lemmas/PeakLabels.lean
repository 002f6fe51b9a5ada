import Verif.Spec.PeakLabels
import Verif.Lemmas.PeakShape

/-! Lemmas for the peak labels of sensor scans with deformed peaks. -/

namespace SimCATS

open Spec

/-- Heights of moved peaks are ordered by the distances from their positions. -/
theorem moved_le {p : Peak} (hw : 0 < p.width) (hh : 0 < p.height) (m m' mu mu' : ℝ) :
    ({ p with mu0 := m' } : Peak).eval mu' ≤ ({ p with mu0 := m } : Peak).eval mu ↔ |mu - m| ≤ |mu' - m'| := by
  obtain ⟨-, -, -, c4, c5⟩ := C20_peak p p ((C20_width_validation p).2.2 hw) hh
  rw [peak_moved p m mu (mu - m + p.mu0) (by ring), peak_moved p m' mu' (mu' - m' + p.mu0) (by ring)]
  have k4 := c4 (mu - m + p.mu0) (mu' - m' + p.mu0)
  have k4' := c4 (mu' - m' + p.mu0) (mu - m + p.mu0)
  have k5 := c5 (mu - m + p.mu0) (mu' - m' + p.mu0)
  simp only [add_sub_cancel_right] at k4 k4' k5
  constructor
  · intro h
    by_contra hn
    push Not at hn
    linarith [k4' hn]
  · intro h
    rcases h.lt_or_eq with h | h
    · exact (k4 h).le
    · exact (k5 h).le

/-- The potential at which peak `k` is found. -/
theorem distorted_position (s : ScanSensor) (ps : List Peak) (id : ℕ) (p : Peak) (hp : ps[id]? = some p) (y d : ℝ) :
    s.distortedPot ps id p y d - p.mu0 = y - peakPosition s id p d := by
  unfold ScanSensor.distortedPot peakPosition
  cases lookupDef s.defs id with
  | none => rfl
  | some d' =>
    simp only [hp, Option.map_some, Option.getD_some]
    ring

/-- The conductance of a peak alone. -/
theorem alone_position (s : ScanSensor) (o v q : ℝ × ℝ) (k : ℕ) (p : Peak) (w : ℝ × ℝ) (ha : 0 < (s.alphaSensor 0).1) :
    peakAlone s o v q k p w =
      ({ p with mu0 := peakPosition s k p (middleLineDist q s.slope w) } : Peak).eval (potentialAt s 0 o v w) := by
  unfold peakAlone peakPosition
  rw [← peak_eval_signal, lookup_def]
  have : middleLineDist q s.slope w = rightDist (s.alphaSensor 0) q w := middle_dist _ _ _ ha
  cases s.defs.lookup k with
  | none => rfl
  | some d => simp only [this, arm_norm]

theorem sorted_index {ps : List Peak} (hsort : ps.Pairwise fun a b => a.mu0 ≤ b.mu0) {e : (Peak × ℕ) × ℕ}
    (he : e ∈ (sortPeaks ps).zipIdx) : e.2 = e.1.2 := by
  rw [sortPeaks_of_sorted ps hsort, List.mem_zipIdx_iff_getElem?, List.getElem?_zipIdx] at he
  cases hx : ps[e.2]? with
  | none => rw [hx] at he; simp at he
  | some q =>
    rw [hx] at he
    simp only [Option.map_some, Option.some.injEq] at he
    rw [← he]
    simp

theorem label_small {ps : List Peak} (hlen : ps.length ≤ 255) {e : (Peak × ℕ) × ℕ} (he : e ∈ (sortPeaks ps).zipIdx) :
    (e.1.2 + 1) % 256 = e.1.2 + 1 := by
  have hlt := (List.getElem?_eq_some_iff.1 (sortPeaks_entry ps e he)).1
  exact Nat.mod_eq_of_lt (by omega)

/-- The labelled pixel is the nearest one to the position of the peak, if the position `pos` is the one that the labels use. -/
theorem drawn_nearest {ι : Type} [Fintype ι] (s : ScanSensor) (ps : List Peak) (hlen : ps.length ≤ 255) (c : ℕ)
    (pot dist : ι → Fin c → ℝ) (pos : ℕ → Peak → ℝ → ℝ)
    (hpos : ∀ e ∈ (sortPeaks ps).zipIdx, ∀ y d, s.distortedPot ps e.2 e.1.1 y d - e.1.1.mu0 = y - pos e.1.2 e.1.1 d)
    (i : ι) (j : Fin c) :
    (∀ id, s.drawPeaks ps c pot dist i j = id + 1 → ∃ p, ps[id]? = some p ∧
      ∀ k, |pot i j - pos id p (dist i j)| ≤ |pot i k - pos id p (dist i k)|) ∧
    (∀ id p, ps[id]? = some p → 0 < (j : ℕ) → (j : ℕ) + 1 < c →
      (∀ k, k ≠ j → |pot i j - pos id p (dist i j)| < |pot i k - pos id p (dist i k)|) → s.drawPeaks ps c pot dist i j ≠ 0) := by
  constructor
  · intro id hj
    have hne : s.drawPeaks ps c pot dist i j ≠ 0 := by omega
    obtain ⟨e, he, hp, hl⟩ := drawPeaks_some _ _ _ _ _ _ _ hne
    rw [hj, label_small hlen he] at hl
    have hid : id = e.1.2 := by omega
    subst hid
    refine ⟨e.1.1, sortPeaks_entry ps e he, fun k => ?_⟩
    have := peakPixel_nearest _ _ _ _ hp k
    rw [hpos e he, hpos e he] at this
    exact this
  · intro id p hp h0 h1 hn
    have hm : (p, id) ∈ sortPeaks ps := (sortPeaks_mem ps p id).2 hp
    obtain ⟨idx, hidx⟩ := List.mem_iff_getElem?.1 hm
    have he : ((p, id), idx) ∈ (sortPeaks ps).zipIdx := List.mem_zipIdx_iff_getElem?.2 hidx
    have hpix : ∀ t, peakPixel (fun k => s.distortedPot ps idx p (pot i k) (dist i k)) p.mu0 t = some j := by
      intro t
      apply peakPixel_inner _ _ _ _ _ (Or.inl ⟨h0, h1⟩)
      intro k hk
      have := hpos _ he
      simp only at this
      rw [this, this]
      exact hn k hk
    rw [drawPeaks_find]
    generalize hf : (sortPeaks ps).zipIdx.find? _ = x
    cases x with
    | none =>
      rw [List.find?_eq_none] at hf
      have := hf _ he
      simp only [hpix, decide_true, not_true_eq_false] at this
    | some e =>
      simp only [Option.elim]
      rw [label_small hlen (List.mem_of_find?_eq_some hf)]
      omega

variable {τ : Type}

/-- The masks of a sensor scan in one line. -/
theorem scan_row {sim : ScanSim τ} {w1 w2 : ℝ × ℝ} {g1 g2 : VoltArg} {res : Resolution} {s s' : Option ScanState × τ} {scan : Scan ℝ}
    {m1 m2 : Scan ℕ} {ps : List Peak} (hps : sim.sensor.peaks = some ps)
    (h : measureSensorScan sim ⟨[w1.1, w1.2], [w2.1, w2.2], g1, g2, res⟩ s = (.ok (scan, m1, m2), s')) :
    ∃ (o mid : ℝ × ℝ) (x : ScanState), ScanOccupation sim.gen g1 g2 s o ∧
      firstOcc x.occ = .ok o ∧ (x.g1.1, x.g2.1) = (argVoltage g1 1 0, argVoltage g1 1 0) ∧ sim.sensor.labelMiddle x = .ok mid ∧
      ∀ n v a l, LabelRow w1 w2 m1 m2 n v a l → ∃ (ι : Type) (_ : Fintype ι) (pot dist : ι → Fin n → ℝ) (i : ι),
        (∀ j, pot i j = potentialAt sim.sensor 0 o (argVoltage g1 1 0, argVoltage g2 1 0) (v j)) ∧
        (∀ j, dist i j = middleLineDist mid sim.sensor.slope (v j)) ∧
        ∀ j, (a j ≠ 1 → l j = 0) ∧ (a j = 1 → l j = sim.sensor.drawPeaks ps n pot dist i j) := by
  unfold measureSensorScan at h
  cases hc : scanCheck sim.lim true ⟨[w1.1, w1.2], [w2.1, w2.2], g1, g2, res⟩ with
  | error e => rw [hc] at h; simp at h
  | ok g =>
    obtain ⟨u1, u2⟩ := g
    obtain ⟨hr1, hr2⟩ := scanCheck_ranges _ _ _ _ _ hc
    simp only [List.cons.injEq, and_true] at hr1 hr2
    have hu1 : u1 = w1 := Prod.ext hr1.1.symm hr1.2.symm
    have hu2 : u2 = w2 := Prod.ext hr2.1.symm hr2.2.symm
    subst hu1 hu2
    rw [hc] at h
    simp only at h
    unfold scanRun at h
    simp only [M.bind_ok] at h
    obtain ⟨occ, t1, e1, mu, t2, e2, mu0, t3, e3, masks, t4, e4, mu', t5, e5, scan0, t6, e6, scan1, t7, e7, e8⟩ := h
    simp only [M.pure_run, Prod.mk.injEq, Except.ok.injEq] at e8
    obtain ⟨⟨-, rfl, rfl⟩, -⟩ := e8
    clear e5 e6 e7 e2
    rw [onSensor_iff] at e3 e4
    obtain ⟨o, ho, hocc⟩ := scanOcc_ok e1
    obtain ⟨x, o2, q, mid, ps', hx, hfo, hq, hmid, hps', ha1, ha2, -, hout⟩ := labels_ok _ _ _ _ _ _ _ _ _ e4.1
    rw [hps] at hps'
    cases hps'
    obtain ⟨hx2, hmu⟩ := potential_full e3.1
    rw [hx] at hx2
    cases hx2
    have ho2 : o2 = o := by
      rcases hocc with ⟨n, -, rfl⟩ | ⟨c, r, l, -, rfl⟩
      · simp only [firstOcc] at hfo
        split_ifs at hfo
        cases hfo
        rfl
      · simp only [firstOcc] at hfo
        split_ifs at hfo
        cases hfo
        rfl
    subst ho2
    refine ⟨o2, mid, _, ho, ?_, ?_, hmid, ?_⟩
    · simp [firstOcc]
    · rw [lims_fixed ha1]
    intro n v a l hrow
    rcases hmu with ⟨n', f, hn, hf, rfl⟩ | ⟨r, c, f, hr, hc', hf, rfl⟩
    · have hfo : ∀ i, f i = o2 := by
        rcases hocc with ⟨n, -, rfl⟩ | ⟨c, r, l, -, rfl⟩
        · cases hf
          exact fun i => rfl
        · cases hf
      rcases hout with ⟨n'', f', hm, hout⟩ | ⟨r, c, f', hm, -⟩
      · cases hm
        obtain ⟨hout1, hout2⟩ := Prod.mk.inj hout
        rw [hout1, hout2] at hrow
        rcases hrow with ⟨r1, r2, r3⟩ | ⟨r, f, g, i, r1, -⟩
        · cases r1
          cases r2
          refine ⟨Unit, inferInstance, _, _, (), fun j => ?_, fun j => ?_, fun j => ⟨fun hj => if_pos hj, fun hj => if_neg (by simpa using hj)⟩⟩
          · rw [r3]
            simp only [hfo, voltage_fixed n j ha1, voltage_fixed n j ha2]
          · rw [r3]
            simp only [← lims_voltage, VoltArg.lims]
        · cases r1
      · cases hm
    · have hfo : ∀ i j, f i j = o2 := by
        rcases hocc with ⟨n, -, rfl⟩ | ⟨c, r, l, -, rfl⟩
        · cases hf
        · cases hf
          exact fun i j => rfl
      rcases hout with ⟨n', f', hm, -⟩ | ⟨r, c, f', hm, hout⟩
      · cases hm
      · cases hm
        obtain ⟨hout1, hout2⟩ := Prod.mk.inj hout
        rw [hout1, hout2] at hrow
        rcases hrow with ⟨r1, -⟩ | ⟨r', f', g, i, r1, r2, r3, r4, r5⟩
        · cases r1
        · cases r1
          cases r2
          rw [r3, r4]
          refine ⟨Fin r, inferInstance, _, _, i, fun j => ?_, fun j => ?_, fun j => ⟨fun hj => if_pos hj, fun hj => if_neg (by simpa using hj)⟩⟩
          · rw [r5]
            simp only [hfo, voltage_fixed n j ha1, voltage_fixed r i ha2]
          · rw [r5]
            simp only [← lims_voltage, VoltArg.lims]

/-- The labels of one line mark the peaks, if `pos` is the position of the peaks that the labels use. -/
theorem marks_row (s : ScanSensor) {ps : List Peak} (hlen : ps.length ≤ 255) (hpk : ∀ p ∈ ps, 0 < p.width ∧ 0 < p.height)
    (pos : ℕ → Peak → ℝ → ℝ) (cond : ℕ → Peak → ℝ × ℝ → ℝ)
    (hpos : ∀ e ∈ (sortPeaks ps).zipIdx, ∀ y d, s.distortedPot ps e.2 e.1.1 y d - e.1.1.mu0 = y - pos e.1.2 e.1.1 d)
    {n : ℕ} {v : Fin n → ℝ × ℝ} {a l : Fin n → ℕ} {ι : Type} [Fintype ι] (pot dist : ι → Fin n → ℝ) (i : ι)
    (hcond : ∀ id p k, cond id p (v k) = ({ p with mu0 := pos id p (dist i k) } : Peak).eval (pot i k))
    (hl : ∀ j, (a j ≠ 1 → l j = 0) ∧ (a j = 1 → l j = s.drawPeaks ps n pot dist i j)) : MarksPeaks ps cond v a l := by
  constructor
  · intro j id hj
    have ha : a j = 1 := by
      by_contra hn
      rw [(hl j).1 hn] at hj
      omega
    rw [(hl j).2 ha] at hj
    obtain ⟨p, hp, hk⟩ := (drawn_nearest s ps hlen n pot dist pos hpos i j).1 id hj
    obtain ⟨hw, hh⟩ := hpk p (List.mem_of_getElem? hp)
    refine ⟨p, hp, fun k => ?_⟩
    rw [hcond, hcond, moved_le hw hh]
    exact hk k
  · intro id p j hp h0 h1 ha hk
    obtain ⟨hw, hh⟩ := hpk p (List.mem_of_getElem? hp)
    rw [(hl j).2 ha]
    refine (drawn_nearest s ps hlen n pot dist pos hpos i j).2 id p hp h0 h1 fun k hkj => ?_
    have := hk k hkj
    rw [← not_le, hcond, hcond, moved_le hw hh, not_le] at this
    exact this

end SimCATS
