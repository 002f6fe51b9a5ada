import Verif.Spec.PeakLabels
import Verif.Lemmas.PeakLabels
import Verif.Props.PeakShape

/-! C103: the peak labels of sensor scans mark the pixels at which the (deformed) peaks are highest. -/

namespace SimCATS

open Spec

variable {τ : Type}

/-- C103, exact behaviour: the labels mark the peaks as they would be if both plunger gates had the voltage of the first one, as far as the middle
line is concerned (`q` is a point of this line). The potential of the sensor dot is the one for the two voltages.
The peaks are given in ascending order (otherwise see C53). -/
theorem C103_actual (sim : ScanSim τ) (ps : List Peak) (hps : sim.sensor.peaks = some ps) (hlen : ps.length ≤ 255)
    (hpk : ∀ p ∈ ps, 0 < p.width ∧ 0 < p.height) (hsort : ps.Pairwise fun a b => a.mu0 ≤ b.mu0)
    (w1 w2 : ℝ × ℝ) (g1 g2 : VoltArg) (res : Resolution) (s s' : Option ScanState × τ) (scan : Scan ℝ) (areas labels : Scan ℕ)
    (h : measureSensorScan sim ⟨[w1.1, w1.2], [w2.1, w2.2], g1, g2, res⟩ s = (.ok (scan, areas, labels), s')) :
    ∃ o, ScanOccupation sim.gen g1 g2 s o ∧ ∀ q, MiddleLine sim.sensor o (argVoltage g1 1 0, argVoltage g1 1 0) q →
      ∀ n v area label, LabelRow w1 w2 areas labels n v area label →
        MarksPeaks ps (peakAlone sim.sensor o (argVoltage g1 1 0, argVoltage g2 1 0) q) v area label := by
  obtain ⟨o, mid, x, ho, hx, hv, hmid, hrow⟩ := scan_row hps h
  refine ⟨o, ho, fun q hq n v a l hr => ?_⟩
  obtain ⟨ι, hι, pot, dist, i, hpot, hdist, hl⟩ := hrow n v a l hr
  refine marks_row sim.sensor hlen hpk (peakPosition sim.sensor) _ ?_ pot dist i ?_ hl
  · intro e he y d
    rw [sorted_index hsort he]
    exact distorted_position _ _ _ _ (sortPeaks_entry ps e he) _ _
  · intro id p k
    rw [alone_position _ _ _ _ _ _ _ hq.dir, hpot, hdist]
    by_cases hd : sim.sensor.defs = []
    · unfold peakPosition
      rw [hd]
      rfl
    · unfold ScanSensor.labelMiddle at hmid
      rw [if_neg (by simpa using hd), middle_point hq x hx hv] at hmid
      cases hmid
      rfl

/-- C103 for scans with the same voltage at both plunger gates and peaks in ascending order: the labels mark the (deformed) peaks.
Missing: different plunger voltages (refuted), other orders of the peaks (refuted in C53). -/
theorem C103_partial (sim : ScanSim τ) (ps : List Peak) (hps : sim.sensor.peaks = some ps) (hlen : ps.length ≤ 255)
    (hpk : ∀ p ∈ ps, 0 < p.width ∧ 0 < p.height) (hsort : ps.Pairwise fun a b => a.mu0 ≤ b.mu0)
    (w1 w2 : ℝ × ℝ) (g1 g2 : VoltArg) (heq : argVoltage g1 1 0 = argVoltage g2 1 0) (res : Resolution) (s s' : Option ScanState × τ)
    (scan : Scan ℝ) (areas labels : Scan ℕ)
    (h : measureSensorScan sim ⟨[w1.1, w1.2], [w2.1, w2.2], g1, g2, res⟩ s = (.ok (scan, areas, labels), s')) :
    ∃ o, ScanOccupation sim.gen g1 g2 s o ∧ ∀ q, MiddleLine sim.sensor o (argVoltage g1 1 0, argVoltage g2 1 0) q →
      ∀ n v area label, LabelRow w1 w2 areas labels n v area label →
        MarksPeaks ps (peakAlone sim.sensor o (argVoltage g1 1 0, argVoltage g2 1 0) q) v area label := by
  obtain ⟨o, ho, hq⟩ := C103_actual sim ps hps hlen hpk hsort w1 w2 g1 g2 res s s' scan areas labels h
  refine ⟨o, ho, fun q hm => hq q ?_⟩
  rw [← heq] at hm
  exact hm

/-- C103 for peaks without deformations, in any order and for any plunger voltages. -/
theorem C103_plain_partial (sim : ScanSim τ) (ps : List Peak) (hps : sim.sensor.peaks = some ps) (hd : sim.sensor.defs = [])
    (hlen : ps.length ≤ 255) (hpk : ∀ p ∈ ps, 0 < p.width ∧ 0 < p.height)
    (w1 w2 : ℝ × ℝ) (g1 g2 : VoltArg) (res : Resolution) (s s' : Option ScanState × τ) (scan : Scan ℝ) (areas labels : Scan ℕ)
    (h : measureSensorScan sim ⟨[w1.1, w1.2], [w2.1, w2.2], g1, g2, res⟩ s = (.ok (scan, areas, labels), s')) :
    ∃ o, ScanOccupation sim.gen g1 g2 s o ∧ ∀ n v area label, LabelRow w1 w2 areas labels n v area label →
      MarksPeaks ps (fun _ p w => peakSignal p (potentialAt sim.sensor 0 o (argVoltage g1 1 0, argVoltage g2 1 0) w)) v area label := by
  obtain ⟨o, mid, x, ho, -, -, -, hrow⟩ := scan_row hps h
  refine ⟨o, ho, fun n v a l hr => ?_⟩
  obtain ⟨ι, hι, pot, dist, i, hpot, -, hl⟩ := hrow n v a l hr
  refine marks_row sim.sensor hlen hpk (fun _ p _ => p.mu0) _ ?_ pot dist i ?_ hl
  · intro e he y d
    unfold ScanSensor.distortedPot
    rw [hd]
    rfl
  · intro id p k
    rw [hpot, ← peak_eval_signal]

/-- The conductances that the labels refer to are those of the signal: used directly, the sensor gives the sum of the single peaks, in series
with the barriers. -/
theorem C103_signal (s : ScanSensor) (o q : ℝ × ℝ) (g1 g2 : VoltArg) (hq : MiddleLine s o (argVoltage g1 1 0, argVoltage g2 1 0) q)
    (ps : List Peak) (hps : s.peaks = some ps) (hd : s.defs ≠ []) (r c : ℕ) (hr : 2 ≤ r) (hc : 2 ≤ c) (h1 : g1.isArr = false)
    (h2 : g2.isArr = false) (w1 w2 : ℝ × ℝ) (st : Option ScanState) :
    ((s.potential (.d2 r c fun _ _ => o) g1 g2 (.arr w1) (.arr w2) >>= fun mu => s.response mu) st).1 =
      .ok (.d2 r c fun i j => withDot s o (argVoltage g1 1 0, argVoltage g2 1 0) (argVoltage (.arr w1) c j, argVoltage (.arr w2) r i)
        (ps.mapIdx fun k p => peakAlone s o (argVoltage g1 1 0, argVoltage g2 1 0) q k p
          (argVoltage (.arr w1) c j, argVoltage (.arr w2) r i)).sum) := by
  have hv : (g1.lims.1, g2.lims.1) = (argVoltage g1 1 0, argVoltage g2 1 0) := by rw [lims_fixed h1, lims_fixed h2]
  rw [direct_run (by rw [hv]; exact hq) hd r c hr hc h1 h2 w1 w2 st]
  have hs : ∀ (w : ℝ × ℝ) n (k : Fin n), sweepVolt w n k = argVoltage (.arr w) n k := by
    intro w n k
    simp only [sweepVolt, argVoltage]
  congr 2
  funext i j
  rw [hs, hs, hv, peakFunc_some hps]
  congr 3
  funext k p
  rw [alone_position _ _ _ _ _ _ _ hq.dir]
  unfold peakPosition
  cases lookupDef s.defs k <;> rfl

/-! ### Different plunger voltages -/

/-- A sensor with one peak, tilted by 45 degrees, whose first barrier depends on the second plunger gate. -/
noncomputable def gatedBend : ScanSensor := { bentPeak with alphaGate := ![(0, 0), (0, 1), (0, 0)] }

theorem gatedBend_middle (a b : ℝ) : MiddleLine gatedBend (0, 0) (a, b) (-10 - b, -10) := by
  refine ⟨?_, ?_, Or.inl rfl, Or.inl rfl, ?_, ?_⟩
  · change (0 : ℝ) < 1
    norm_num
  · change (1 : ℝ) * 1 - 0 * 0 ≠ 0
    norm_num
  · change (0 : ℝ) + (0 * 0 + 0 * 0) + (0 * a + 1 * b) + (1 * (-10 - b) + 0 * -10) = -10
    ring
  · change (0 : ℝ) + (0 * 0 + 0 * 0) + (0 * a + 0 * b) + (0 * (-10 - b) + 1 * -10) = -10
    ring

theorem gatedBend_alone (v : ℝ × ℝ) (b w : ℝ) : peakAlone gatedBend (0, 0) v (-10 - b, -10) 0 ⟨.lorentzian, 0, 1, 1, 0⟩ (0, w) =
    1 / (1 + (2 * w - b) ^ 2) := by
  have hs : (0 : ℝ) < Real.sqrt (1 ^ 2 + 1 ^ 2) := by positivity
  have e : peakAlone gatedBend (0, 0) v (-10 - b, -10) 0 ⟨.lorentzian, 0, 1, 1, 0⟩ (0, w) =
      0 + 1 * 1 ^ 2 / (1 ^ 2 + ((0 + (0 * 0 + 0 * 0) + (0 * v.1 + 0 * v.2) + (1 * 0 + 1 * w)) -
        (0 + 1 / Real.tan (Real.pi / 4) * (((0 - (-10 - b)) * 1 - (w - -10) * 1) / Real.sqrt (1 ^ 2 + 1 ^ 2)) * Real.sqrt (1 ^ 2 + 1 ^ 2))) ^ 2) := rfl
  rw [e, Real.tan_pi_div_four, div_one, one_mul (_ / _), div_mul_cancel₀ _ hs.ne', zero_add, one_pow, one_mul]
  congr 3
  ring

/-- A scan of sensor gate 2 from -1 to 2 with 4 pixels: the label of the peak is on the second pixel, for every voltage `b` of the second plunger gate. -/
theorem gatedBend_run (b : ℝ) (hb : -5 < b) (hb' : b < 10) : ∃ (sim : ScanSim Unit) (scan : Scan ℝ) (area label : Fin 4 → ℕ)
    (t : Option ScanState × Unit), sim.sensor = gatedBend ∧ sim.gen = none ∧
    measureSensorScan sim ⟨[0, 0], [-1, 2], .num true 0, .num true b, .int 4⟩ (none, ()) =
      (.ok (scan, .d1 4 area, .d1 4 label), t) ∧ (∀ j, area j = 1) ∧ label 1 = 1 ∧ label 2 = 0 := by
  let s : ScanSensor := gatedBend
  let sim : ScanSim Unit := ⟨⟨none, none, none, none⟩, none, s, none, none, none⟩
  have hchk : scanCheck sim.lim true ⟨[0, 0], [-1, 2], .num true 0, .num true b, .int 4⟩ = .ok ((0, 0), (-1, 2)) := by
    simp [scanCheck, sim, rangeOutside, fixedIn2d, fixedOutside, scanResCheck, VoltArg.isNone]
  set mu : Fin 4 → Fin 3 → ℝ := fun i k => s.mu k (0, 0) (linspace 0 0 4 i, linspace b b 4 i)
    (linspace 0 0 4 i, linspace (-1) 2 4 i) with hmu
  have hpot : ∀ st, s.potential (.d1 4 fun _ => (0, 0)) (.num true 0) (.num true b) (.arr (0, 0)) (.arr (-1, 2)) st =
      (.ok (.d1 4 mu), some ⟨(0, 0), (b, b), (0, 0), (-1, 2), .d1 4 fun _ => (0, 0)⟩) := by
    intro st
    simp only [ScanSensor.potential, VoltArg.isArr, Bool.or_self, Bool.false_and, Bool.false_eq_true, if_false,
      ScanSensor.potentialArray, VoltArg.lims]
    rw [if_neg (by norm_num)]
  have hfull : s.calcPoint ⟨(0, 0), (b, b), (0, 0), (-1, 2), .d1 4 fun _ => (0, 0)⟩ s.barrier1.fullyConductive
      s.barrier2.fullyConductive true = .ok (10 - b, 10) := by
    obtain ⟨p, hp⟩ : ∃ p, s.calcPoint ⟨(0, 0), (b, b), (0, 0), (-1, 2), .d1 4 fun _ => (0, 0)⟩ s.barrier1.fullyConductive
      s.barrier2.fullyConductive true = .ok p := ⟨_, rfl⟩
    have hm := gatedBend_middle 0 b
    obtain ⟨k1, k2⟩ := C24_partial s _ _ _ (0, 0) p hm.det hm.eps rfl hp hm.occ
    rw [mu_at] at k1 k2
    have j1 : (0 : ℝ) + (0 * 0 + 0 * 0) + (0 * 0 + 1 * b) + (1 * p.1 + 0 * p.2) = 10 := k1
    have j2 : (0 : ℝ) + (0 * 0 + 0 * 0) + (0 * 0 + 0 * b) + (0 * p.1 + 1 * p.2) = 10 := k2
    have hp8 : p = (10 - b, 10) := Prod.ext (show p.1 = 10 - b by linarith) (show p.2 = 10 by linarith)
    rw [hp, hp8]
  have hm0 : MiddleLine s (0, 0) (0, 0) (-10, -10) := by
    have := gatedBend_middle 0 0
    rw [sub_zero] at this
    exact this
  have hmid : s.labelMiddle ⟨(0, 0), (0, 0), (10 - b, 10 - b), (10, 10), .d1 1 fun _ => (0, 0)⟩ = .ok (-10, -10) :=
    middle_point hm0 ⟨(0, 0), (0, 0), (10 - b, 10 - b), (10, 10), .d1 1 fun _ => (0, 0)⟩ rfl rfl
  have hlab := labels_run_1d s (.num true 0) (.num true b) (0, 0) (-1, 2) 4 mu
    ⟨(0, 0), (b, b), (0, 0), (-1, 2), .d1 4 fun _ => (0, 0)⟩ (0, 0) (10 - b, 10) (-10, -10) _ rfl hfull hmid rfl rfl rfl
  have hon : ∀ a b o, ScanState.onlySensor ⟨(0, 0), (0, 0), a, b, o⟩ = true := by
    intro a b o
    unfold ScanState.onlySensor
    simp only [eqB_self]
    rfl
  have hresp := response_bent_1d s (List.cons_ne_nil _ _) 4 mu
    ⟨(VoltArg.num true 0).lims, (VoltArg.num true 0).lims, (10 - b, 10 - b), (10, 10), .d1 1 fun _ => (0, 0)⟩ (hon _ _ _) (-10, -10) (by norm_num)
    (middle_point hm0 _ rfl rfl)
  have hrun : ∃ scan area label t, measureSensorScan sim ⟨[0, 0], [-1, 2], .num true 0, .num true b, .int 4⟩ (none, ()) =
      (.ok (scan, .d1 4 area, .d1 4 label), t) ∧ ∀ j, area j = s.conductive (s.mu 0 (0, 0) (0, 0) (10 - b, 10)) (mu j) := by
    unfold measureSensorScan
    rw [hchk]
    simp only
    unfold scanRun
    have hocc : scanOcc sim.gen ⟨[0, 0], [-1, 2], .num true 0, .num true b, .int 4⟩ (none, ()) = (.ok (.d1 4 fun _ => (0, 0)), (none, ())) := rfl
    rw [M.bind_run, hocc]
    simp only
    rw [M.bind_run, onSensor_ok (hpot _)]
    simp only
    rw [M.bind_run, onSensor_ok (hpot _)]
    simp only
    rw [M.bind_run, onSensor_ok hlab]
    simp only
    rw [M.bind_run]
    have hd : ∀ m (t : Option ScanState × Unit), distortScanPot (0, 0) (-1, 2) sim.potD m t = (.ok m, t) := fun m t => rfl
    rw [hd]
    simp only
    rw [M.bind_run, onSensor_ok hresp]
    simp only
    rw [M.bind_run]
    exact ⟨_, _, _, _, rfl, fun j => rfl⟩
  obtain ⟨scan, area, label, t, hr, harea⟩ := hrun
  have hsweep : ∀ j : Fin 4, linspace (-1) 2 4 j = (j : ℝ) - 1 := by
    intro j
    simp only [linspace, linAt]
    norm_num
    ring
  have hone : ∀ j, area j = 1 := by
    intro j
    have hj : (j : ℝ) ≤ 3 := by exact_mod_cast (by omega : (j : ℕ) ≤ 3)
    have hj0 : (0 : ℝ) ≤ (j : ℕ) := Nat.cast_nonneg _
    have h0 : mu j 0 = (j : ℝ) - 1 := by
      simp only [hmu, mu_at]
      change (0 : ℝ) + (0 * 0 + 0 * 0) + (0 * linspace 0 0 4 j + 0 * linspace b b 4 j) + (1 * linspace 0 0 4 j + 1 * linspace (-1) 2 4 j) = _
      rw [hsweep]
      simp [linspace, linAt]
    have h1 : mu j 1 = b := by
      simp only [hmu, mu_at]
      change (0 : ℝ) + (0 * 0 + 0 * 0) + (0 * linspace 0 0 4 j + 1 * linspace b b 4 j) + (1 * linspace 0 0 4 j + 0 * linspace (-1) 2 4 j) = _
      simp [linspace, linAt]
    have h2 : mu j 2 = (j : ℝ) - 1 := by
      simp only [hmu, mu_at]
      change (0 : ℝ) + (0 * 0 + 0 * 0) + (0 * linspace 0 0 4 j + 0 * linspace b b 4 j) + (0 * linspace 0 0 4 j + 1 * linspace (-1) 2 4 j) = _
      rw [hsweep]
      ring
    have hf : s.mu 0 (0, 0) (0, 0) (10 - b, 10) = 20 - b := by
      rw [mu_at]
      change (0 : ℝ) + (0 * 0 + 0 * 0) + (0 * 0 + 0 * 0) + (1 * (10 - b) + 1 * 10) = _
      ring
    rw [harea, hf]
    unfold ScanSensor.conductive
    rw [h0, h1, h2, if_pos ⟨by change b > -10; linarith, by change (_ : ℝ) > -10; linarith⟩, if_neg (by linarith)]
  obtain ⟨o, ho, hall⟩ := C103_actual sim _ rfl (by simp) (by simp) (by simp) (0, 0) (-1, 2) (.num true 0) (.num true b) (.int 4) _ _ _ _ _ hr
  have ho' : o = (0, 0) := ho
  subst ho'
  obtain ⟨hhigh, hmark⟩ := hall (-10, -10) hm0 4 _ area label (Or.inl ⟨rfl, rfl, rfl⟩)
  have hvolt : ∀ j : Fin 4, (argVoltage (.arr ((0 : ℝ), (0 : ℝ))) 4 j, argVoltage (.arr ((-1 : ℝ), (2 : ℝ))) 4 j) = (0, (j : ℝ) - 1) := by
    intro j
    simp only [argVoltage]
    norm_num
    ring
  have hal : ∀ w, peakAlone sim.sensor (0, 0) (argVoltage (.num true 0) 1 0, argVoltage (.num true b) 1 0) (-10, -10) 0 ⟨.lorentzian, 0, 1, 1, 0⟩ (0, w) =
      1 / (1 + (2 * w) ^ 2) := by
    intro w
    have := gatedBend_alone (0, b) 0 w
    rw [sub_zero, sub_zero] at this
    exact this
  have hid : ∀ j id, label j = id + 1 → id = 0 ∧ ∀ k : Fin 4, 1 / (1 + (2 * ((k : ℝ) - 1)) ^ 2) ≤ 1 / (1 + (2 * ((j : ℝ) - 1)) ^ 2) := by
    intro j id hj
    obtain ⟨p, hp, hk⟩ := hhigh j id hj
    have h0 : id = 0 := by
      by_contra hn
      obtain ⟨k, rfl⟩ := Nat.exists_eq_succ_of_ne_zero hn
      cases hp
    subst h0
    cases hp
    refine ⟨rfl, fun k => ?_⟩
    have := hk k
    simp only [hvolt, hal] at this
    exact this
  refine ⟨sim, scan, area, label, t, rfl, rfl, hr, hone, ?_, ?_⟩
  · have hne : label 1 ≠ 0 := by
      refine hmark 0 ⟨.lorentzian, 0, 1, 1, 0⟩ 1 rfl (by decide) (by decide) (hone 1) fun k hk => ?_
      simp only [hvolt, hal]
      have hk1 : (k : ℝ) - 1 ≠ 0 := by
        intro hc
        apply hk
        have : ((k : ℕ) : ℝ) = 1 := by linarith
        exact Fin.ext (by exact_mod_cast this)
      have : 0 < (2 * ((k : ℝ) - 1)) ^ 2 := by positivity
      rw [one_div_lt_one_div (by positivity) (by positivity)]
      norm_num
      positivity
    obtain ⟨id, hi⟩ := Nat.exists_eq_succ_of_ne_zero hne
    rw [hi, (hid 1 id hi).1]
  · by_contra hne
    obtain ⟨id, hi⟩ := Nat.exists_eq_succ_of_ne_zero hne
    have := (hid 2 id hi).2 1
    norm_num at this

/-- C103 is refuted for different plunger voltages: the four pixels of a scan of sensor gate 2 from -1 to 2 include one at 1 where the peak has its
top, but the label is on the pixel at 0. -/
theorem C103_refuted : ∃ (sim : ScanSim Unit) (scan : Scan ℝ) (area label : Fin 4 → ℕ) (t : Option ScanState × Unit),
    sim.sensor = gatedBend ∧ measureSensorScan sim ⟨[0, 0], [-1, 2], .num true 0, .num true 2, .int 4⟩ (none, ()) =
      (.ok (scan, .d1 4 area, .d1 4 label), t) ∧ MiddleLine gatedBend (0, 0) (0, 2) (-12, -10) ∧ (∀ j, area j = 1) ∧ label 1 = 1 ∧
    (∀ w, peakAlone gatedBend (0, 0) (0, 2) (-12, -10) 0 ⟨.lorentzian, 0, 1, 1, 0⟩ w ≤ 1) ∧
    peakAlone gatedBend (0, 0) (0, 2) (-12, -10) 0 ⟨.lorentzian, 0, 1, 1, 0⟩ (0, 1) = 1 ∧
    peakAlone gatedBend (0, 0) (0, 2) (-12, -10) 0 ⟨.lorentzian, 0, 1, 1, 0⟩ (0, 0) = 1 / 5 ∧ label 2 = 0 := by
  have hal2 : ∀ w, peakAlone gatedBend (0, 0) (0, 2) (-12, -10) 0 ⟨.lorentzian, 0, 1, 1, 0⟩ (0, w) = 1 / (1 + (2 * w - 2) ^ 2) := by
    intro w
    have := gatedBend_alone (0, 2) 2 w
    rw [show (-10 - 2 : ℝ) = -12 by norm_num] at this
    exact this
  obtain ⟨sim, scan, area, label, t, hs, -, hr, hone, l1, l2⟩ := gatedBend_run 2 (by norm_num) (by norm_num)
  refine ⟨sim, scan, area, label, t, hs, hr, ?_, hone, l1, ?_, ?_, ?_, l2⟩
  · have := gatedBend_middle 0 2
    rw [show (-10 - 2 : ℝ) = -12 by norm_num] at this
    exact this
  · intro w
    obtain ⟨m, e⟩ : ∃ m, peakAlone gatedBend (0, 0) (0, 2) (-12, -10) 0 ⟨.lorentzian, 0, 1, 1, 0⟩ w = 0 + 1 * 1 ^ 2 / (1 ^ 2 + (m - _) ^ 2) :=
      ⟨_, rfl⟩
    rw [e, zero_add, one_pow, one_mul]
    exact (div_le_one (by positivity)).2 (le_add_of_nonneg_right (sq_nonneg _))
  · rw [hal2]
    norm_num
  · rw [hal2]
    norm_num

/-- Non-vacuity of C103: for equal plunger voltages, the label is on the pixel with the top of the deformed peak. -/
example : ∃ (sim : ScanSim Unit) (scan : Scan ℝ) (area label : Fin 4 → ℕ) (t : Option ScanState × Unit),
    measureSensorScan sim ⟨[0, 0], [-1, 2], .num true 0, .num true 0, .int 4⟩ (none, ()) =
      (.ok (scan, .d1 4 area, .d1 4 label), t) ∧ label 1 = 1 ∧
    MarksPeaks [⟨.lorentzian, 0, 1, 1, 0⟩] (peakAlone gatedBend (0, 0) (0, 0) (-10, -10))
      (fun j => (argVoltage (.arr (0, 0)) 4 j, argVoltage (.arr (-1, 2)) 4 j)) area label := by
  obtain ⟨sim, scan, area, label, t, hs, hg, hr, -, l1, -⟩ := gatedBend_run 0 (by norm_num) (by norm_num)
  refine ⟨sim, scan, area, label, t, hr, l1, ?_⟩
  obtain ⟨o, ho, h⟩ := C103_partial sim [⟨.lorentzian, 0, 1, 1, 0⟩] (by rw [hs]; rfl) (by simp) (by simp) (by simp) (0, 0) (-1, 2)
    (.num true 0) (.num true 0) rfl (.int 4) _ _ _ _ _ hr
  rw [hg] at ho
  have ho' : o = (0, 0) := ho
  subst ho'
  have hm := gatedBend_middle 0 0
  rw [sub_zero] at hm
  rw [hs] at h
  exact h (-10, -10) hm 4 _ area label (Or.inl ⟨rfl, rfl, rfl⟩)

/-- Non-vacuity of `C103_plain_partial`: two peaks in descending order without deformations; a scan of this sensor that succeeds is shown with C71. -/
example : (twoPeaks []).peaks = some [⟨.gaussian, 1, 1, 1, 0⟩, ⟨.gaussian, 0, 1, 1, 0⟩] ∧ (twoPeaks []).defs = [] ∧
    ∀ p ∈ [(⟨.gaussian, 1, 1, 1, 0⟩ : Peak), ⟨.gaussian, 0, 1, 1, 0⟩], 0 < p.width ∧ 0 < p.height := by
  refine ⟨rfl, rfl, ?_⟩
  simp

end SimCATS
