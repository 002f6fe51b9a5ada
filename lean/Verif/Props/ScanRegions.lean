import Verif.Lemmas.SampledRegions
import Verif.Props.PeakLabels

/-! C29 for the regions that `measure_sensor_scan` returns, in images and in 1D scans. -/

namespace SimCATS

open Spec

variable {τ : Type}

/-- C29, exact behaviour of the regions: a pixel has the label 0 if one of the barriers is at its pinch-off or below, and otherwise 1 or 2, where 2 begins
above the potential that the sensor dot has at the point `p` with the voltage of the first plunger gate at both plunger gates. At `p` the
barriers are fully conductive for the actual plunger voltages (for barrier 1 with the occupation of dot 1 also for dot 2). -/
theorem C29_regions_actual (sim : ScanSim τ) (hdet : barrierDet sim.sensor ≠ 0)
    (heps : (sim.sensor.alphaSensor 1).2 = 0 ∨ floatEps ≤ |(sim.sensor.alphaSensor 1).2|) (w1 w2 : ℝ × ℝ) (g1 g2 : VoltArg) (res : Resolution)
    (s s' : Option ScanState × τ) (scan : Scan ℝ) (areas labels : Scan ℕ)
    (h : measureSensorScan sim ⟨[w1.1, w1.2], [w2.1, w2.2], g1, g2, res⟩ s = (.ok (scan, areas, labels), s')) :
    ∃ o p, ScanOccupation sim.gen g1 g2 s o ∧
      potentialAt sim.sensor 1 o (argVoltage g1 1 0, argVoltage g2 1 0) p =
        sim.sensor.barrier1.fullyConductive + (sim.sensor.alphaDot 1).2 * (o.2 - o.1) ∧
      potentialAt sim.sensor 2 o (argVoltage g1 1 0, argVoltage g2 1 0) p = sim.sensor.barrier2.fullyConductive ∧
      ∀ w l, SensorPixel w1 w2 areas w l →
        (l = 0 ∧ ¬ (sim.sensor.barrier1.pinchOff < potentialAt sim.sensor 1 o (argVoltage g1 1 0, argVoltage g2 1 0) w ∧
          sim.sensor.barrier2.pinchOff < potentialAt sim.sensor 2 o (argVoltage g1 1 0, argVoltage g2 1 0) w)) ∨
        ((sim.sensor.barrier1.pinchOff < potentialAt sim.sensor 1 o (argVoltage g1 1 0, argVoltage g2 1 0) w ∧
          sim.sensor.barrier2.pinchOff < potentialAt sim.sensor 2 o (argVoltage g1 1 0, argVoltage g2 1 0) w) ∧
        ((l = 1 ∧ potentialAt sim.sensor 0 o (argVoltage g1 1 0, argVoltage g2 1 0) w ≤
            potentialAt sim.sensor 0 o (argVoltage g1 1 0, argVoltage g1 1 0) p) ∨
          (l = 2 ∧ potentialAt sim.sensor 0 o (argVoltage g1 1 0, argVoltage g1 1 0) p <
            potentialAt sim.sensor 0 o (argVoltage g1 1 0, argVoltage g2 1 0) w))) := by
  obtain ⟨o, p, x, ho, -, -, -, hx, hfo, hp, hpix, -⟩ := scan_labels h
  have k := C24_actual sim.sensor x _ _ o p hdet heps hfo hp
  rw [hx, mu_at, mu_at] at k
  refine ⟨o, p, ho, k.1, k.2, fun w l hw => ?_⟩
  rw [hpix w l hw]
  set m : Fin 3 → ℝ := fun k => potentialAt sim.sensor k o (argVoltage g1 1 0, argVoltage g2 1 0) w with hm
  obtain ⟨c0, c1, c2⟩ := conductive_cases sim.sensor (potentialAt sim.sensor 0 o (argVoltage g1 1 0, argVoltage g1 1 0) p) m
  by_cases hb : sim.sensor.barrier1.pinchOff < m 1 ∧ sim.sensor.barrier2.pinchOff < m 2
  · refine Or.inr ⟨hb, ?_⟩
    rcases le_or_gt (m 0) (potentialAt sim.sensor 0 o (argVoltage g1 1 0, argVoltage g1 1 0) p) with h0 | h0
    · exact Or.inl ⟨c1.2 ⟨hb, h0⟩, h0⟩
    · exact Or.inr ⟨c2.2 ⟨hb, h0⟩, h0⟩
  · exact Or.inl ⟨c0.2 hb, hb⟩

/-- C29, the regions for equal voltages at the plunger gates (and equal occupations, or a barrier 1 that does not feel dot 2): the open region begins above the
potential that the sensor dot has at the sensor gate voltages `p` that make both barriers fully conductive. -/
theorem C29_regions_partial (sim : ScanSim τ) (hdet : barrierDet sim.sensor ≠ 0)
    (heps : (sim.sensor.alphaSensor 1).2 = 0 ∨ floatEps ≤ |(sim.sensor.alphaSensor 1).2|) (w1 w2 : ℝ × ℝ) (g1 g2 : VoltArg)
    (heq : argVoltage g1 1 0 = argVoltage g2 1 0) (res : Resolution)
    (s s' : Option ScanState × τ) (scan : Scan ℝ) (areas labels : Scan ℕ)
    (h : measureSensorScan sim ⟨[w1.1, w1.2], [w2.1, w2.2], g1, g2, res⟩ s = (.ok (scan, areas, labels), s')) :
    ∃ o, ScanOccupation sim.gen g1 g2 s o ∧ ((o.1 = o.2 ∨ (sim.sensor.alphaDot 1).2 = 0) →
      ∃ p, Opens sim.sensor o (argVoltage g1 1 0, argVoltage g2 1 0) p ∧ ∀ w l, SensorPixel w1 w2 areas w l →
        l ≤ 2 ∧ (l = 2 ↔ sim.sensor.barrier1.pinchOff < potentialAt sim.sensor 1 o (argVoltage g1 1 0, argVoltage g2 1 0) w ∧
          sim.sensor.barrier2.pinchOff < potentialAt sim.sensor 2 o (argVoltage g1 1 0, argVoltage g2 1 0) w ∧
          potentialAt sim.sensor 0 o (argVoltage g1 1 0, argVoltage g2 1 0) p <
            potentialAt sim.sensor 0 o (argVoltage g1 1 0, argVoltage g2 1 0) w)) := by
  obtain ⟨o, p, ho, p1, p2, hpix⟩ := C29_regions_actual sim hdet heps w1 w2 g1 g2 res s s' scan areas labels h
  refine ⟨o, ho, fun hocc => ⟨p, ⟨?_, p2⟩, fun w l hw => ?_⟩⟩
  · rw [p1]
    rcases hocc with e | e <;> rw [e] <;> ring
  · have := hpix w l hw
    rw [heq] at this ⊢
    rcases this with ⟨rfl, hn⟩ | ⟨hb, ⟨rfl, h0⟩ | ⟨rfl, h0⟩⟩
    · exact ⟨by norm_num, by simp, fun hc => absurd ⟨hc.1, hc.2.1⟩ hn⟩
    · exact ⟨by norm_num, by simp, fun hc => absurd hc.2.2 h0.not_gt⟩
    · exact ⟨le_rfl, fun _ => ⟨hb.1, hb.2, h0⟩, fun _ => rfl⟩

/-- C29, completeness of the open region under the same conditions: if the lever arms of the sensor dot are a combination of those of the barriers with
nonnegative factors, every pixel at which both barriers are beyond their fully conductive potentials has the label 2. -/
theorem C29_open_partial (sim : ScanSim τ) (hdet : barrierDet sim.sensor ≠ 0)
    (heps : (sim.sensor.alphaSensor 1).2 = 0 ∨ floatEps ≤ |(sim.sensor.alphaSensor 1).2|) (w1 w2 : ℝ × ℝ) (g1 g2 : VoltArg)
    (heq : argVoltage g1 1 0 = argVoltage g2 1 0) (res : Resolution) (c1 c2 : ℝ) (hc1 : 0 ≤ c1) (hc2 : 0 ≤ c2) (hc : 0 < c1 + c2)
    (ha1 : (sim.sensor.alphaSensor 0).1 = c1 * (sim.sensor.alphaSensor 1).1 + c2 * (sim.sensor.alphaSensor 2).1)
    (ha2 : (sim.sensor.alphaSensor 0).2 = c1 * (sim.sensor.alphaSensor 1).2 + c2 * (sim.sensor.alphaSensor 2).2)
    (hb1 : sim.sensor.barrier1.pinchOff ≤ sim.sensor.barrier1.fullyConductive)
    (hb2 : sim.sensor.barrier2.pinchOff ≤ sim.sensor.barrier2.fullyConductive)
    (s s' : Option ScanState × τ) (scan : Scan ℝ) (areas labels : Scan ℕ)
    (h : measureSensorScan sim ⟨[w1.1, w1.2], [w2.1, w2.2], g1, g2, res⟩ s = (.ok (scan, areas, labels), s')) :
    ∃ o, ScanOccupation sim.gen g1 g2 s o ∧ ((o.1 = o.2 ∨ (sim.sensor.alphaDot 1).2 = 0) → ∀ w l, SensorPixel w1 w2 areas w l →
      sim.sensor.barrier1.fullyConductive < potentialAt sim.sensor 1 o (argVoltage g1 1 0, argVoltage g2 1 0) w →
      sim.sensor.barrier2.fullyConductive < potentialAt sim.sensor 2 o (argVoltage g1 1 0, argVoltage g2 1 0) w → l = 2) := by
  obtain ⟨o, ho, hreg⟩ := C29_regions_partial sim hdet heps w1 w2 g1 g2 heq res s s' scan areas labels h
  refine ⟨o, ho, fun hocc w l hw h1 h2 => ?_⟩
  obtain ⟨p, ⟨p1, p2⟩, hpix⟩ := hreg hocc
  refine (hpix w l hw).2.2 ⟨hb1.trans_lt h1, hb2.trans_lt h2, ?_⟩
  rw [← p1] at h1
  rw [← p2] at h2
  unfold potentialAt at *
  rw [ha1, ha2]
  have d1 : 0 < (sim.sensor.alphaSensor 1).1 * w.1 + (sim.sensor.alphaSensor 1).2 * w.2 -
    ((sim.sensor.alphaSensor 1).1 * p.1 + (sim.sensor.alphaSensor 1).2 * p.2) := by linarith
  have d2 : 0 < (sim.sensor.alphaSensor 2).1 * w.1 + (sim.sensor.alphaSensor 2).2 * w.2 -
    ((sim.sensor.alphaSensor 2).1 * p.1 + (sim.sensor.alphaSensor 2).2 * p.2) := by linarith
  have : 0 < c1 * ((sim.sensor.alphaSensor 1).1 * w.1 + (sim.sensor.alphaSensor 1).2 * w.2 -
      ((sim.sensor.alphaSensor 1).1 * p.1 + (sim.sensor.alphaSensor 1).2 * p.2)) +
    c2 * ((sim.sensor.alphaSensor 2).1 * w.1 + (sim.sensor.alphaSensor 2).2 * w.2 -
      ((sim.sensor.alphaSensor 2).1 * p.1 + (sim.sensor.alphaSensor 2).2 * p.2)) := by
    rcases hc1.lt_or_eq with hp | hp
    · exact add_pos_of_pos_of_nonneg (mul_pos hp d1) (mul_nonneg hc2 d2.le)
    · have : 0 < c2 := by linarith
      exact add_pos_of_nonneg_of_pos (mul_nonneg hc1 d1.le) (mul_pos this d2)
  linarith

/-- Non-vacuity: the scan of C103 with equal plunger voltages; its sensor dot has the sum of the lever arms of the barriers. -/
example : ∃ (sim : ScanSim Unit) (scan : Scan ℝ) (area label : Fin 4 → ℕ) (t : Option ScanState × Unit), barrierDet sim.sensor ≠ 0 ∧
    (sim.sensor.alphaSensor 1).2 = 0 ∧ (sim.sensor.alphaDot 1).2 = 0 ∧
    measureSensorScan sim ⟨[0, 0], [-1, 2], .num true 0, .num true 0, .int 4⟩ (none, ()) = (.ok (scan, .d1 4 area, .d1 4 label), t) ∧
    (sim.sensor.alphaSensor 0).1 = 1 * (sim.sensor.alphaSensor 1).1 + 1 * (sim.sensor.alphaSensor 2).1 ∧
    (sim.sensor.alphaSensor 0).2 = 1 * (sim.sensor.alphaSensor 1).2 + 1 * (sim.sensor.alphaSensor 2).2 ∧
    sim.sensor.barrier1.pinchOff ≤ sim.sensor.barrier1.fullyConductive ∧ sim.sensor.barrier2.pinchOff ≤ sim.sensor.barrier2.fullyConductive := by
  obtain ⟨sim, scan, area, label, t, hs, -, hr, -⟩ := gatedBend_run 0 (by norm_num) (by norm_num)
  refine ⟨sim, scan, area, label, t, ?_, ?_, ?_, hr, ?_, ?_, ?_, ?_⟩ <;> rw [hs]
  · change (1 * 1 - 0 * 0 : ℝ) ≠ 0
    norm_num
  · rfl
  · rfl
  · change (1 : ℝ) = 1 * 1 + 1 * 0
    norm_num
  · change (1 : ℝ) = 1 * 0 + 1 * 1
    norm_num
  · change (-10 : ℝ) ≤ 10
    norm_num
  · change (-10 : ℝ) ≤ 10
    norm_num

end SimCATS
