import Verif.Model.ScanSensor
import Verif.Props.Simulation
import Verif.Props.Glf

/-! Properties C23, C24, C25 and C29 of the sensor for sensor scans. -/

namespace SimCATS

/-! ### C23: conductances in series -/

/-- C23: for positive conductances the combination is that of resistors in series. -/
theorem C23_series_law (s b1 b2 : ℝ) (hs : 0 < s) (h1 : 0 < b1) (h2 : 0 < b2) :
    1 / series s b1 b2 = 1 / s + 1 / b1 + 1 / b2 := by
  have hd : 0 < b1 * b2 + s * b1 + s * b2 := by positivity
  rw [series, if_pos hd.ne']
  field_simp
  ring

example := C23_series_law 1 2 3 (by norm_num) (by norm_num) (by norm_num)

/-- C23: zero if any of the three is zero. -/
theorem C23_zero (s b1 b2 : ℝ) (h : s = 0 ∨ b1 = 0 ∨ b2 = 0) : series s b1 b2 = 0 := by
  unfold series
  split_ifs
  · rcases h with rfl | rfl | rfl <;> simp
  · rfl

example := C23_zero 1 0 3 (by norm_num)

/-- C23: positive exactly if all three are (for non-negative conductances). -/
theorem C23_pos_iff (s b1 b2 : ℝ) (hs : 0 ≤ s) (h1 : 0 ≤ b1) (h2 : 0 ≤ b2) :
    0 < series s b1 b2 ↔ 0 < s ∧ 0 < b1 ∧ 0 < b2 := by
  constructor
  · intro h
    refine ⟨lt_of_le_of_ne hs ?_, lt_of_le_of_ne h1 ?_, lt_of_le_of_ne h2 ?_⟩ <;> intro e <;>
      rw [C23_zero s b1 b2 (by simp [← e])] at h <;> exact lt_irrefl _ h
  · rintro ⟨a, b, c⟩
    have hd : 0 < b1 * b2 + s * b1 + s * b2 := by positivity
    rw [series, if_pos hd.ne']
    positivity

example := C23_pos_iff 1 0 3 (by norm_num) (by norm_num) (by norm_num)

/-- C23: non-negative and at most the smallest of the three. -/
theorem C23_bounds (s b1 b2 : ℝ) (hs : 0 ≤ s) (h1 : 0 ≤ b1) (h2 : 0 ≤ b2) :
    0 ≤ series s b1 b2 ∧ series s b1 b2 ≤ min s (min b1 b2) := by
  have n1 : 0 ≤ s * b1 := mul_nonneg hs h1
  have n2 : 0 ≤ s * b2 := mul_nonneg hs h2
  have n3 : 0 ≤ b1 * b2 := mul_nonneg h1 h2
  unfold series
  split_ifs with h
  · have hd : 0 < b1 * b2 + s * b1 + s * b2 := lt_of_le_of_ne (by linarith) (Ne.symm h)
    refine ⟨div_nonneg (mul_nonneg n1 h2) hd.le, le_min ?_ (le_min ?_ ?_)⟩
    · rw [div_le_iff₀ hd]
      nlinarith [mul_nonneg hs n1, mul_nonneg hs n2]
    · rw [div_le_iff₀ hd]
      nlinarith [mul_nonneg h1 n1, mul_nonneg h1 n3]
    · rw [div_le_iff₀ hd]
      nlinarith [mul_nonneg h2 n2, mul_nonneg h2 n3]
  · exact ⟨le_rfl, le_min hs (le_min h1 h2)⟩

example := C23_bounds 1 0 3 (by norm_num) (by norm_num) (by norm_num)

/-- C23: symmetric in all three arguments (the two transpositions generate all permutations). -/
theorem C23_symmetric (s b1 b2 : ℝ) : series s b1 b2 = series s b2 b1 ∧ series s b1 b2 = series b1 s b2 := by
  unfold series
  constructor
  · rw [show b2 * b1 + s * b2 + s * b1 = b1 * b2 + s * b1 + s * b2 by ring, show s * b2 * b1 = s * b1 * b2 by ring]
  · rw [show s * b2 + b1 * s + b1 * b2 = b1 * b2 + s * b1 + s * b2 by ring, show b1 * s * b2 = s * b1 * b2 by ring]

theorem series_mono_first (s s' b1 b2 : ℝ) (hs : 0 ≤ s) (h1 : 0 ≤ b1) (h2 : 0 ≤ b2) (h : s ≤ s') :
    series s b1 b2 ≤ series s' b1 b2 := by
  rcases eq_or_lt_of_le hs with e | hs0
  · rw [C23_zero s b1 b2 (Or.inl e.symm)]
    exact (C23_bounds s' b1 b2 (hs.trans h) h1 h2).1
  rcases eq_or_lt_of_le h1 with e | h1'
  · rw [C23_zero s b1 b2 (by simp [← e]), C23_zero s' b1 b2 (by simp [← e])]
  rcases eq_or_lt_of_le h2 with e | h2'
  · rw [C23_zero s b1 b2 (by simp [← e]), C23_zero s' b1 b2 (by simp [← e])]
  have hs' : 0 < s' := lt_of_lt_of_le hs0 h
  have p1 := (C23_pos_iff s b1 b2 hs h1 h2).2 ⟨hs0, h1', h2'⟩
  have p2 := (C23_pos_iff s' b1 b2 hs'.le h1 h2).2 ⟨hs', h1', h2'⟩
  have := one_div_le_one_div_of_le hs0 h
  rw [← one_div_le_one_div p2 p1, C23_series_law s b1 b2 hs0 h1' h2', C23_series_law s' b1 b2 hs' h1' h2']
  linarith

/-- C23: monotone in each argument. -/
theorem C23_monotone (s s' b1 b1' b2 b2' : ℝ) (hs : 0 ≤ s) (h1 : 0 ≤ b1) (h2 : 0 ≤ b2) (k0 : s ≤ s') (k1 : b1 ≤ b1')
    (k2 : b2 ≤ b2') : series s b1 b2 ≤ series s' b1' b2' := by
  calc series s b1 b2 ≤ series s' b1 b2 := series_mono_first s s' b1 b2 hs h1 h2 k0
    _ = series b1 s' b2 := (C23_symmetric s' b1 b2).2
    _ ≤ series b1' s' b2 := series_mono_first b1 b1' s' b2 h1 (hs.trans k0) h2 k1
    _ = series b2 s' b1' := by
      rw [(C23_symmetric b1' s' b2).2, (C23_symmetric s' b1' b2).1, (C23_symmetric s' b2 b1').2]
    _ ≤ series b2' s' b1' := series_mono_first b2 b2' s' b1' h2 (hs.trans k0) (h1.trans k1) k2
    _ = series s' b1' b2' := by
      rw [(C23_symmetric b2' s' b1').2, (C23_symmetric s' b2' b1').1]

example := C23_monotone 1 2 0 3 3 3 (by norm_num) (by norm_num) (by norm_num) (by norm_num) (by norm_num) (by norm_num)

theorem series_strictMono_first (s s' b1 b2 : ℝ) (hs : 0 < s) (h1 : 0 < b1) (h2 : 0 < b2) (h : s < s') :
    series s b1 b2 < series s' b1 b2 := by
  have hs' : 0 < s' := hs.trans h
  have p1 := (C23_pos_iff s b1 b2 hs.le h1.le h2.le).2 ⟨hs, h1, h2⟩
  have p2 := (C23_pos_iff s' b1 b2 hs'.le h1.le h2.le).2 ⟨hs', h1, h2⟩
  have := one_div_lt_one_div_of_lt hs h
  rw [← one_div_lt_one_div p2 p1, C23_series_law s b1 b2 hs h1 h2, C23_series_law s' b1 b2 hs' h1 h2]
  linarith

example : series 1 2 2 = 1 / 2 := by norm_num [series]

/-- The pixels of an array. -/
def Scan.pixels {α : Type} : Scan α → Set α
  | .d0 x => {x}
  | .d1 _ f => Set.range f
  | .d2 _ _ f => {x | ∃ i j, f i j = x}

theorem Scan.pixels_map {α β : Type} (g : α → β) (a : Scan α) : (a.map g).pixels = g '' a.pixels := by
  cases a with
  | d0 x => simp [Scan.map, Scan.pixels]
  | d1 n f =>
    ext y
    simp [Scan.map, Scan.pixels]
  | d2 r c f =>
    ext y
    simp only [Scan.map, Scan.pixels, Set.mem_ofPred_eq, Set.mem_image]
    constructor
    · rintro ⟨i, j, h⟩
      exact ⟨_, ⟨i, j, rfl⟩, h⟩
    · rintro ⟨_, ⟨i, j, rfl⟩, h⟩
      exact ⟨i, j, h⟩

theorem Scan.zip_map_self {α β : Type} (g : α → β) (a : Scan α) :
    (a.map g).zip a = .ok (a.map fun x => (g x, x)) := by
  cases a <;> simp [Scan.map, Scan.zip]

theorem Scan.map_map {α β γ : Type} (g : α → β) (h : β → γ) (a : Scan α) : (a.map g).map h = a.map fun x => h (g x) := by
  cases a <;> rfl

theorem getState_run (st : ScanState) : getState (some st) = (.ok st, some st) := rfl

/-- The response without peak deformations and final rise is the series combination of the three conductances at every
pixel, and the stored state is not changed. -/
theorem C23_response (s : ScanSensor) (hd : s.defs = []) (hr : s.rise = none) (mu : Scan (Fin 3 → ℝ)) (st : ScanState) :
    s.response mu (some st) = (.ok (mu.map fun m =>
      series (s.plainResponse (m 0)) (s.barrier1.value (m 1)) (s.barrier2.value (m 2))), some st) := by
  unfold ScanSensor.response ScanSensor.dotResponse
  rw [bind_assoc, M.bind_run, getState_run]
  simp only [hd, List.isEmpty_nil, Bool.not_true, Bool.false_and, Bool.false_eq_true, if_false, hr]
  rw [M.bind_run, M.pure_run]
  simp only
  rw [M.bind_run, ofPy_run, Scan.zip_map_self]
  simp only [M.pure_run, Scan.map_map]

/-- C23 for a whole scan: with non-negative dot and barrier conductances every pixel of the response lies between 0 and
the smallest of its three conductances. -/
theorem C23_response_bounds (s : ScanSensor) (hd : s.defs = []) (hr : s.rise = none) (mu : Scan (Fin 3 → ℝ))
    (st st' : Option ScanState) (out : Scan ℝ) (h : s.response mu st = (.ok out, st'))
    (h0 : ∀ x, 0 ≤ s.plainResponse x) (h1 : ∀ x, 0 ≤ s.barrier1.value x) (h2 : ∀ x, 0 ≤ s.barrier2.value x) :
    out.shape = mu.shape ∧ ∀ y ∈ out.pixels, ∃ m ∈ mu.pixels, 0 ≤ y ∧
      y ≤ min (s.plainResponse (m 0)) (min (s.barrier1.value (m 1)) (s.barrier2.value (m 2))) := by
  cases st with
  | none =>
    unfold ScanSensor.response ScanSensor.dotResponse at h
    rw [bind_assoc, M.bind_run] at h
    simp [getState] at h
  | some st =>
    rw [C23_response s hd hr mu st] at h
    cases h
    refine ⟨by cases mu <;> rfl, fun y hy => ?_⟩
    rw [Scan.pixels_map] at hy
    obtain ⟨m, hm, rfl⟩ := hy
    exact ⟨m, hm, C23_bounds _ _ _ (h0 _) (h1 _) (h2 _)⟩

/-! ### C24: voltages for barrier potentials -/

/-- Determinant of the lever arms of the sensor gates on the barriers. -/
def barrierDet (s : ScanSensor) : ℝ :=
  (s.alphaSensor 1).1 * (s.alphaSensor 2).2 - (s.alphaSensor 1).2 * (s.alphaSensor 2).1

theorem solvePoint_spec (a1 a2 : ℝ × ℝ) (p1 p2 : ℝ) (hdet : a1.1 * a2.2 - a1.2 * a2.1 ≠ 0)
    (heps : a1.2 = 0 ∨ floatEps ≤ |a1.2|) :
    dot2 (solvePoint a1 a2 p1 p2) a1 = p1 ∧ dot2 (solvePoint a1 a2 p1 p2) a2 = p2 := by
  have hpos : (0 : ℝ) < floatEps := by unfold floatEps; positivity
  rcases heps with h | h
  · have hd : a1.1 ≠ 0 ∧ a2.2 ≠ 0 := by
      rw [h] at hdet
      constructor <;> intro e <;> simp [e] at hdet
    obtain ⟨d1, d2⟩ := hd
    unfold solvePoint
    rw [if_pos (by rw [h, abs_zero]; exact hpos)]
    simp only [dot2, h]
    constructor
    · field_simp
      ring
    · field_simp
      ring
  · have h0 : a1.2 ≠ 0 := by
      intro e
      rw [e, abs_zero] at h
      linarith
    have hdet' : a2.1 * a1.2 - a1.1 * a2.2 ≠ 0 := by
      intro e
      exact hdet (by linarith)
    unfold solvePoint
    rw [if_neg (not_lt.2 h)]
    have hv := div_mul_cancel₀ (p2 * a1.2 - p1 * a2.2) hdet'
    simp only [dot2]
    generalize (p2 * a1.2 - p1 * a2.2) / (a2.1 * a1.2 - a1.1 * a2.2) = v at hv ⊢
    constructor
    · field_simp
      ring
    · field_simp
      linear_combination hv

/-- The barrier potentials actually realised by the computed voltages in a sensor scan: barrier 2 is exact, barrier 1 is
off by the lever arm of dot 2 times the difference of the occupations. -/
theorem C24_actual (s : ScanSensor) (st : ScanState) (p1 p2 : ℝ) (o w : ℝ × ℝ) (hdet : barrierDet s ≠ 0)
    (heps : (s.alphaSensor 1).2 = 0 ∨ floatEps ≤ |(s.alphaSensor 1).2|) (ho : firstOcc st.occ = .ok o)
    (hw : s.calcPoint st p1 p2 true = .ok w) :
    s.mu 1 o (st.g1.1, st.g2.1) w = p1 + (s.alphaDot 1).2 * (o.2 - o.1) ∧ s.mu 2 o (st.g1.1, st.g2.1) w = p2 := by
  unfold ScanSensor.calcPoint at hw
  rw [ho] at hw
  simp only [Except.ok.injEq, ScanSensor.gateOffset, if_true] at hw
  have key := solvePoint_spec (s.alphaSensor 1) (s.alphaSensor 2)
    (p1 - (dot2 (st.g1.1, st.g2.1) (s.alphaGate 1) + s.offset 1 + (s.alphaDot 1).1 * o.1 + (s.alphaDot 1).2 * o.1))
    (p2 - (dot2 (st.g1.1, st.g2.1) (s.alphaGate 2) + s.offset 2 + (s.alphaDot 2).1 * o.1 + (s.alphaDot 2).2 * o.2))
    hdet heps
  rw [hw] at key
  unfold ScanSensor.mu
  rw [key.1, key.2]
  simp only [dot2]
  constructor <;> ring

/-- C24, the part that holds: if the occupations of the first pixel are equal or barrier 1 does not feel dot 2, the
computed sensor gate voltages realise both barrier potentials exactly. -/
theorem C24_partial (s : ScanSensor) (st : ScanState) (p1 p2 : ℝ) (o w : ℝ × ℝ) (hdet : barrierDet s ≠ 0)
    (heps : (s.alphaSensor 1).2 = 0 ∨ floatEps ≤ |(s.alphaSensor 1).2|) (ho : firstOcc st.occ = .ok o)
    (hw : s.calcPoint st p1 p2 true = .ok w) (hocc : o.1 = o.2 ∨ (s.alphaDot 1).2 = 0) :
    s.mu 1 o (st.g1.1, st.g2.1) w = p1 ∧ s.mu 2 o (st.g1.1, st.g2.1) w = p2 := by
  obtain ⟨h1, h2⟩ := C24_actual s st p1 p2 o w hdet heps ho hw
  refine ⟨?_, h2⟩
  rw [h1]
  rcases hocc with e | e <;> rw [e] <;> ring

/-- A concrete sensor: diagonal lever arms of the sensor gates on the barriers. -/
noncomputable def sampleSensor : ScanSensor where
  peaks := some []
  defs := []
  rise := some ((⟨0, ⟨0, 1, 1, 1, 1, 1⟩, 1 / 2⟩ : RiseGlf).sensorFunction)
  barrier1 := (⟨1 / 4, 3 / 4, ⟨0, 1, 1, 1, 1, 1⟩, 0⟩ : BarrierGlf).barrier
  barrier2 := (⟨1 / 4, 3 / 4, ⟨0, 1, 1, 1, 1, 1⟩, 0⟩ : BarrierGlf).barrier
  alphaDot := ![(0, 0), (-1, -1), (-1, -1)]
  alphaGate := ![(1, 1), (1, 1), (1, 1)]
  alphaSensor := ![(1, 1), (1, 0), (0, 1)]
  offset := ![0, 0, 0]

theorem sampleSensor_det : barrierDet sampleSensor ≠ 0 ∧ (sampleSensor.alphaSensor 1).2 = 0 := by
  refine ⟨?_, rfl⟩
  change (1 * 1 - 0 * 0 : ℝ) ≠ 0
  norm_num

/-- C24 is refuted: with one electron in dot 2 and none in dot 1, the voltages computed for the barrier potentials (5, 7)
realise (4, 7). -/
theorem C24_refuted : ∃ w, sampleSensor.calcPoint ⟨(0, 0), (0, 0), (0, 1), (0, 1), .d1 1 fun _ => (0, 1)⟩ 5 7 true = .ok w ∧
    sampleSensor.mu 1 (0, 1) (0, 0) w = 4 ∧ sampleSensor.mu 2 (0, 1) (0, 0) w = 7 := by
  refine ⟨_, rfl, ?_⟩
  have h := C24_actual sampleSensor ⟨(0, 0), (0, 0), (0, 1), (0, 1), .d1 1 fun _ => (0, 1)⟩ 5 7 (0, 1) _
    sampleSensor_det.1 (Or.inl sampleSensor_det.2) rfl rfl
  refine ⟨h.1.trans ?_, h.2⟩
  norm_num [sampleSensor]

/-- C24 is refuted also for the mode used in CSD measurements (both plunger gates swept): the plunger lever arms are
ignored and the voltage of sensor gate 1 is used for both sensor gates. -/
theorem C24_csd_refuted : ∃ w,
    sampleSensor.calcPoint ⟨(1, 2), (1, 2), (0, 0), (0, 0), .d1 1 fun _ => (0, 0)⟩ 5 7 false = .ok w ∧
    sampleSensor.mu 1 (0, 0) (1, 1) w = 7 ∧ sampleSensor.mu 2 (0, 0) (1, 1) w = 9 := by
  refine ⟨_, rfl, ?_⟩
  have h := solvePoint_spec (sampleSensor.alphaSensor 1) (sampleSensor.alphaSensor 2) 5 7 sampleSensor_det.1
    (Or.inl sampleSensor_det.2)
  have e : ∀ k : Fin 3, k ≠ 0 → sampleSensor.gateOffset ⟨(1, 2), (1, 2), (0, 0), (0, 0), .d1 1 fun _ => (0, 0)⟩ false k +
      sampleSensor.offset k + (sampleSensor.alphaDot k).1 * (0 : ℝ) + (sampleSensor.alphaDot k).2 * (0 : ℝ) = 0 := by
    intro k hk
    fin_cases k <;> simp [ScanSensor.gateOffset, dot2, sampleSensor] at hk ⊢
  rw [e 1 (by decide), e 2 (by decide), sub_zero, sub_zero]
  unfold ScanSensor.mu
  rw [h.1, h.2]
  change (0 * (-1) + 0 * (-1) + (1 * 1 + 1 * 1) + 5 + 0 : ℝ) = 7 ∧ (0 * (-1) + 0 * (-1) + (1 * 1 + 1 * 1) + 7 + 0 : ℝ) = 9
  norm_num

/-- Non-vacuity of the part that holds. -/
example : ∃ w, sampleSensor.calcPoint ⟨(0, 0), (0, 0), (0, 1), (0, 1), .d1 1 fun _ => (1, 1)⟩ 5 7 true = .ok w ∧
    sampleSensor.mu 1 (1, 1) (0, 0) w = 5 ∧ sampleSensor.mu 2 (1, 1) (0, 0) w = 7 :=
  ⟨_, rfl, C24_partial sampleSensor ⟨(0, 0), (0, 0), (0, 1), (0, 1), .d1 1 fun _ => (1, 1)⟩ 5 7 (1, 1) _
    sampleSensor_det.1 (Or.inl sampleSensor_det.2) rfl rfl (Or.inl rfl)⟩

/-! ### C25: history of calls -/

theorem linAt_one (a b : ℝ) (i : Fin 1) : linspace a b 1 i = a := by
  have : i = 0 := Subsingleton.elim _ _
  subst this
  simp [linspace, linAt]

/-- The offset of the final rise is the sensor potential at the computed fully conductive point; the stored state is
replaced by that one point. -/
theorem riseOffset_run (s : ScanSensor) (st : ScanState) (o p : ℝ × ℝ) (ho : firstOcc st.occ = .ok o)
    (hp : s.calcPoint st s.barrier1.fullyConductive s.barrier2.fullyConductive st.sensorSwept = .ok p) :
    s.riseOffset (some st) = (.ok (s.mu 0 o (st.g1.1, st.g2.1) p),
      some ⟨(st.g1.1, st.g1.1), (st.g2.1, st.g2.1), (p.1, p.1), (p.2, p.2), .d1 1 fun _ => o⟩) := by
  unfold ScanSensor.riseOffset
  rw [M.bind_run, getState_run]
  simp only
  rw [M.bind_run, ofPy_run, ho]
  simp only
  rw [M.bind_run, ofPy_run, hp]
  simp only
  rw [M.bind_run]
  simp only [ScanSensor.potential, VoltArg.isArr, Bool.or_self, Bool.and_self, Bool.false_eq_true, if_false,
    ScanSensor.potentialArray, one_ne_zero, VoltArg.lims, M.pure_run, linAt_one]

/-- Without final rise a call of `sensor_response` does not change the sensor object. -/
theorem C25_unchanged (s : ScanSensor) (hr : s.rise = none) (mu : Scan (Fin 3 → ℝ)) (st : Option ScanState) :
    (s.response mu st).2 = st := by
  have h : (s.dotResponse mu st).2 = st := by
    unfold ScanSensor.dotResponse
    rw [M.bind_run]
    cases st with
    | none => rfl
    | some st =>
      rw [getState_run]
      simp only [hr]
      split_ifs
      · rw [M.bind_run, ofPy_run]
        cases s.calcPoint st s.barrier1.pinchOff s.barrier2.pinchOff st.sensorSwept <;> rfl
      · rfl
  unfold ScanSensor.response
  rw [M.bind_run]
  cases hx : s.dotResponse mu st with
  | mk r st2 =>
    rw [hx] at h
    simp only at h
    subst h
    cases r with
    | error e => rfl
    | ok d =>
      simp only
      rw [M.bind_run, ofPy_run]
      cases d.zip mu <;> rfl

/-- C25, the part that holds: without final rise repeated calls give the same result, any number of times and with any
other responses computed in between. -/
theorem C25_repeat_partial (s : ScanSensor) (hr : s.rise = none) (mu : Scan (Fin 3 → ℝ)) (others : List (Scan (Fin 3 → ℝ)))
    (st : Option ScanState) :
    s.response mu (others.foldl (fun st m => (s.response m st).2) st) = s.response mu st := by
  have : others.foldl (fun st m => (s.response m st).2) st = st := by
    induction others with
    | nil => rfl
    | cons m ms ih => rw [List.foldl_cons, C25_unchanged s hr, ih]
  rw [this]

/-- C25, the part that holds: without final rise and deformations the response depends on the potential only, whatever was
stored by earlier calls. -/
theorem C25_history_partial (s : ScanSensor) (hd : s.defs = []) (hr : s.rise = none) (mu : Scan (Fin 3 → ℝ))
    (st st' : ScanState) : (s.response mu (some st)).1 = (s.response mu (some st')).1 := by
  rw [C23_response s hd hr, C23_response s hd hr]

/-- C25, the part that holds: for every sensor, a response computed right after a successful call of `sensor_potential`
does not depend on anything that happened before that call. -/
theorem C25_fresh_partial (s : ScanSensor) (occ : Scan (ℝ × ℝ)) (g1 g2 s1 s2 : VoltArg) (mu : Scan (Fin 3 → ℝ))
    (st st' t : Option ScanState) (h : s.potential occ g1 g2 s1 s2 st = (.ok mu, t)) :
    ((s.potential occ g1 g2 s1 s2 >>= fun m => s.response m) st' : Py (Scan ℝ) × Option ScanState) =
      (s.potential occ g1 g2 s1 s2 >>= fun m => s.response m) st := by
  have key : s.potential occ g1 g2 s1 s2 st' = s.potential occ g1 g2 s1 s2 st := by
    unfold ScanSensor.potential at h ⊢
    cases occ with
    | d0 x => simp at h
    | d1 n f =>
      simp only at h ⊢
      split_ifs at h ⊢ with hc
      · simp at h
      · rfl
    | d2 r c f =>
      simp only at h ⊢
      split_ifs at h ⊢ with hc
      · simp at h
      · rfl
  rw [M.bind_run, M.bind_run, key]

/-- The occupations and ranges of the CSD scan of the counterexample: two by two pixels without electrons. -/
noncomputable def sampleMu : Scan (Fin 3 → ℝ) := .d2 2 2 fun i j k =>
  sampleSensor.mu k (0, 0) (linspace 0 1 2 j, linspace 0 1 2 i) (1, 1)

theorem samplePotential (st : Option ScanState) :
    sampleSensor.potential (.d2 2 2 fun _ _ => (0, 0)) (.arr (0, 1)) (.arr (0, 1)) (.num true 1) (.num true 1) st =
      (.ok sampleMu, some ⟨(0, 1), (0, 1), (1, 1), (1, 1), .d2 2 2 fun _ _ => (0, 0)⟩) := by
  unfold ScanSensor.potential
  simp only [VoltArg.isArr, Bool.or_self, Bool.and_false, Bool.false_eq_true, if_false, ScanSensor.potentialArray,
    VoltArg.lims, sampleMu]
  rw [if_neg (by norm_num)]
  have e : ∀ i : Fin 2, linspace (1 : ℝ) 1 2 i = 1 := by
    intro i
    simp [linspace, linAt]
  simp only [e]

theorem sample_dot (st : ScanState) (off : ℝ) (st' : Option ScanState) (h : sampleSensor.riseOffset (some st) = (.ok off, st')) :
    sampleSensor.response sampleMu (some st) = (.ok (sampleMu.map fun m =>
      series (max 0 ((⟨0, ⟨0, 1, 1, 1, 1, 1⟩, 1 / 2⟩ : RiseGlf).sensorFunction (m 0) off)) (sampleSensor.barrier1.value (m 1))
        (sampleSensor.barrier2.value (m 2))), st') := by
  unfold ScanSensor.response ScanSensor.dotResponse
  rw [bind_assoc, M.bind_run, getState_run]
  have hd : sampleSensor.defs = [] := rfl
  have hr : sampleSensor.rise = some ((⟨0, ⟨0, 1, 1, 1, 1, 1⟩, 1 / 2⟩ : RiseGlf).sensorFunction) := rfl
  have hp : ∀ x, sampleSensor.plainResponse x = 0 := fun x => rfl
  simp only [hd, List.isEmpty_nil, Bool.not_true, Bool.false_and, Bool.false_eq_true, if_false, hr, hp]
  rw [bind_assoc, M.bind_run, h]
  simp only [pure_bind]
  rw [M.bind_run, ofPy_run, Scan.zip_map_self]
  simp only [M.pure_run, Scan.map_map]

theorem unitGlf_ok : (⟨0, 1, 1, 1, 1, 1⟩ : GlfParams).Ok := by constructor <;> norm_num

/-- C25 is refuted: with a final rise and both plunger gates swept, two calls of `sensor_response` with the same potential
directly after `sensor_potential` give different results (the first call replaces the stored voltages). -/
theorem C25_refuted (st : Option ScanState) : ∃ r1 r2 t,
    ((sampleSensor.potential (.d2 2 2 fun _ _ => (0, 0)) (.arr (0, 1)) (.arr (0, 1)) (.num true 1) (.num true 1) >>= fun mu =>
      sampleSensor.response mu >>= fun r1 => sampleSensor.response mu >>= fun r2 => pure (r1, r2)) st :
      Py (Scan ℝ × Scan ℝ) × Option ScanState) = (.ok (r1, r2), t) ∧ r1 ≠ r2 := by
  set F := (⟨1 / 4, 3 / 4, ⟨0, 1, 1, 1, 1, 1⟩, 0⟩ : BarrierGlf).fullyConductive with hF
  have f1 : sampleSensor.barrier1.fullyConductive = F := rfl
  have f2 : sampleSensor.barrier2.fullyConductive = F := rfl
  set st1 : ScanState := ⟨(0, 1), (0, 1), (1, 1), (1, 1), .d2 2 2 fun _ _ => (0, 0)⟩ with hst1
  have sw1 : st1.sensorSwept = false := by
    simp [hst1, ScanState.sensorSwept, eqB]
  have hp1 : sampleSensor.calcPoint st1 F F false = .ok (solvePoint (1, 0) (0, 1) (F - 1) (F - 1)) := by
    have : sampleSensor.calcPoint st1 F F false = .ok (solvePoint (1, 0) (0, 1)
      (F - (dot2 (1, 1) (1, 0) + 0 + -1 * 0 + -1 * 0)) (F - (dot2 (1, 1) (0, 1) + 0 + -1 * 0 + -1 * 0))) := rfl
    rw [this]
    norm_num [dot2]
  have hr1 := riseOffset_run sampleSensor st1 (0, 0) _ rfl (by rw [f1, f2, sw1]; exact hp1)
  set p1 := solvePoint (1, 0) (0, 1) (F - 1) (F - 1) with hp1d
  have sp1 := solvePoint_spec (1, 0) (0, 1) (F - 1) (F - 1) (by norm_num) (Or.inl rfl)
  set st2 : ScanState := ⟨(st1.g1.1, st1.g1.1), (st1.g2.1, st1.g2.1), (p1.1, p1.1), (p1.2, p1.2), .d1 1 fun _ => (0, 0)⟩ with hst2
  have sw2 : st2.sensorSwept = true := by
    simp [hst2, ScanState.sensorSwept, eqB]
  have hp2 : sampleSensor.calcPoint st2 F F true = .ok (solvePoint (1, 0) (0, 1) F F) := by
    have : sampleSensor.calcPoint st2 F F true = .ok (solvePoint (1, 0) (0, 1)
      (F - (dot2 (0, 0) (1, 1) + 0 + -1 * 0 + -1 * 0)) (F - (dot2 (0, 0) (1, 1) + 0 + -1 * 0 + -1 * 0))) := rfl
    rw [this]
    norm_num [dot2]
  have hr2 := riseOffset_run sampleSensor st2 (0, 0) _ rfl (by rw [f1, f2, sw2]; exact hp2)
  have sp2 := solvePoint_spec (1, 0) (0, 1) F F (by norm_num) (Or.inl rfl)
  set p2 := solvePoint (1, 0) (0, 1) F F with hp2d
  have e1 : sampleSensor.mu 0 (0, 0) (st1.g1.1, st1.g2.1) p1 = 2 * F - 2 := by
    have : sampleSensor.mu 0 (0, 0) (st1.g1.1, st1.g2.1) p1 = dot2 (0, 0) (0, 0) + dot2 (0, 0) (1, 1) + dot2 p1 (1, 1) + 0 := rfl
    rw [this]
    have := sp1.1; have := sp1.2
    simp only [dot2] at *
    linarith
  have e2 : sampleSensor.mu 0 (0, 0) (st2.g1.1, st2.g2.1) p2 = 2 * F := by
    have : sampleSensor.mu 0 (0, 0) (st2.g1.1, st2.g2.1) p2 = dot2 (0, 0) (0, 0) + dot2 (0, 0) (1, 1) + dot2 p2 (1, 1) + 0 := rfl
    rw [this]
    have := sp2.1; have := sp2.2
    simp only [dot2] at *
    linarith
  rw [e1] at hr1
  rw [e2] at hr2
  have R1 := sample_dot st1 _ _ hr1
  have R2 := sample_dot st2 _ _ hr2
  have run : ∀ mu r1 r2 t1 t2, sampleSensor.response mu (some st1) = (.ok r1, some t1) →
      sampleSensor.response mu (some t1) = (.ok r2, t2) →
      ((sampleSensor.response mu >>= fun r1 => sampleSensor.response mu >>= fun r2 => pure (r1, r2)) (some st1) :
        Py (Scan ℝ × Scan ℝ) × Option ScanState) = (.ok (r1, r2), t2) := by
    intro mu r1 r2 t1 t2 h1 h2
    rw [M.bind_run, h1]
    simp only
    rw [M.bind_run, h2]
    simp only [M.pure_run]
  have RR := run _ _ _ _ _ R1 R2
  rw [M.bind_run, samplePotential]
  refine ⟨_, _, _, RR, ?_⟩
  · intro H
    unfold sampleMu at H
    simp only [Scan.map, Scan.d2.injEq, heq_eq_eq, true_and] at H
    have h := congrFun (congrFun H 0) 0
    have hval : ∀ x, 0 < (⟨1 / 4, 3 / 4, ⟨0, 1, 1, 1, 1, 1⟩, 0⟩ : BarrierGlf).barrier.value x := fun x =>
      lt_of_le_of_lt (by norm_num) (C17_glf_between ⟨0, 1, 1, 1, 1, 1⟩ unitGlf_ok rfl 0 x).1
    have hs : ∀ x y, 0 < (⟨0, ⟨0, 1, 1, 1, 1, 1⟩, 1 / 2⟩ : RiseGlf).sensorFunction x y := fun x y =>
      lt_of_le_of_lt (by norm_num) (C17_glf_between ⟨0, 1, 1, 1, 1, 1⟩ unitGlf_ok rfl _ x).1
    rw [max_eq_right (hs _ _).le, max_eq_right (hs _ _).le] at h
    refine absurd h (ne_of_gt (series_strictMono_first _ _ _ _ (hs _ _) (hval _) (hval _) ?_))
    unfold RiseGlf.sensorFunction
    rw [C17_glf_offset, C17_glf_offset _ (-_ + (2 * F - 2))]
    exact (C17_glf_monotone ⟨0, 1, 1, 1, 1, 1⟩ unitGlf_ok 0).1 (by norm_num) (by linarith)

/-- Non-vacuity: a sensor without final rise and deformations with a stored state. -/
example : ∃ (s : ScanSensor) (st : ScanState), s.defs = [] ∧ s.rise = none ∧ s.peaks = some [] ∧ st.g1 ≠ st.g2 :=
  ⟨{ sampleSensor with rise := none }, ⟨(0, 1), (0, 2), (1, 1), (1, 1), .d2 2 2 fun _ _ => (0, 0)⟩, rfl, rfl, rfl, by simp⟩

end SimCATS
