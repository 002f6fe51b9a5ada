import Verif.Spec.Reversed
import Verif.Props.EmptyPeaks

/-! C117: without distortions, a measurement in the opposite direction is the mirrored measurement. -/

namespace SimCATS

open Spec

variable {σ : Type}

/-- `measure` without distortions, with the geometric ideal CSD and a `SensorGeneric`. -/
theorem plain_run {sim : Simulation σ} {cfg : IdealCfg} {lab : Labelling} {sens : SensorGeneric}
    (hgen : sim.gen = some (idealGen cfg lab)) (hsens : sim.sensor = genericSensor sens) (h1 : sim.occD = none) (h2 : sim.potD = none)
    (h3 : sim.respD = none) (rq : Request) (s : σ) :
    measure sim rq s = match measureCheck sim.lim true rq with
      | .error e => (.error e, s)
      | .ok (g1, g2) => match idealCsd cfg lab [g1.1, g1.2] [g2.1, g2.2] rq.res with
        | .error e => (.error e, s)
        | .ok out => match sens.potential out.data.1 g1 g2 with
          | .error e => (.error e, s)
          | .ok mu => (.ok (sens.response mu, out.data.1, out.data.2), s) := by
  unfold measure
  rw [hgen]
  simp only [Option.isSome_some]
  cases hck : measureCheck sim.lim true rq with
  | error e => rfl
  | ok g =>
    obtain ⟨g1, g2⟩ := g
    simp only
    unfold measureRun
    rw [M.bind_run, h1, hsens, h2, h3]
    unfold idealGen
    cases hi : idealCsd cfg lab [g1.1, g1.2] [g2.1, g2.2] rq.res with
    | error e => rfl
    | ok out =>
      cases hp : sens.potential out.data.1 g1 g2 with
      | error e =>
        simp only [Option.getD_none, applyOcc, M.bind_run, genericSensor, hp, pure, M.ret]
        rfl
      | ok mu =>
        simp only [Option.getD_none, applyOcc, distortPotential, distortResponse, M.bind_run, genericSensor, hp, pure, M.ret]

theorem rangeOutside_swap (lim : Option (ℝ × ℝ)) (a b : ℝ) : rangeOutside lim (b, a) = rangeOutside lim (a, b) := by
  unfold rangeOutside
  simp only [min_comm b a, max_comm b a]

theorem resCheck_swap (a1 b1 a2 b2 : ℝ) (res : Resolution) :
    resCheck (b1, a1) (a2, b2) res = resCheck (a1, b1) (a2, b2) res ∧ resCheck (a1, b1) (b2, a2) res = resCheck (a1, b1) (a2, b2) res := by
  unfold resCheck
  simp only [eq_comm (a := b1) (b := a1), eq_comm (a := b2) (b := a2), and_self]

/-- The checks of `measure` do not depend on the directions. -/
theorem check_swap (lim : Limits) (a1 b1 a2 b2 x1 y1 x2 y2 : ℝ) (h1 : (x1, y1) = (a1, b1) ∨ (x1, y1) = (b1, a1))
    (h2 : (x2, y2) = (a2, b2) ∨ (x2, y2) = (b2, a2)) (v1 v2 : Option ℝ) (res : Resolution) :
    (∃ e, measureCheck lim true ⟨[a1, b1], [a2, b2], v1, v2, res⟩ = .error e ∧
      measureCheck lim true ⟨[x1, y1], [x2, y2], v1, v2, res⟩ = .error e) ∨
    (measureCheck lim true ⟨[a1, b1], [a2, b2], v1, v2, res⟩ = .ok ((a1, b1), (a2, b2)) ∧
      measureCheck lim true ⟨[x1, y1], [x2, y2], v1, v2, res⟩ = .ok ((x1, y1), (x2, y2))) := by
  have e1 : rangeOutside lim.g1 (x1, y1) = rangeOutside lim.g1 (a1, b1) := by
    rcases h1 with h | h
    · rw [h]
    · rw [h, rangeOutside_swap]
  have e2 : rangeOutside lim.g2 (x2, y2) = rangeOutside lim.g2 (a2, b2) := by
    rcases h2 with h | h
    · rw [h]
    · rw [h, rangeOutside_swap]
  have e3 : resCheck (x1, y1) (x2, y2) res = resCheck (a1, b1) (a2, b2) res := by
    rcases h1 with h | h <;> rcases h2 with h' | h' <;> rw [h, h']
    · exact (resCheck_swap _ _ _ _ _).2
    · exact (resCheck_swap _ _ _ _ _).1
    · rw [(resCheck_swap _ _ _ _ _).1, (resCheck_swap _ _ _ _ _).2]
  simp only [measureCheck, e1, e2, e3]
  simp only [Bool.true_eq_false, if_false]
  by_cases hr : rangeOutside lim.g1 (a1, b1) = true ∨ rangeOutside lim.g2 (a2, b2) = true
  · rw [if_pos hr, if_pos hr]
    exact Or.inl ⟨_, rfl, rfl⟩
  rw [if_neg hr, if_neg hr]
  cases hs : sensorOutside lim v1 v2 with
  | error e => exact Or.inl ⟨_, rfl, rfl⟩
  | ok b =>
    cases b with
    | true => exact Or.inl ⟨_, rfl, rfl⟩
    | false =>
      dsimp only
      by_cases hn : v1.isNone ≠ v2.isNone
      · rw [if_pos hn, if_pos hn]
        exact Or.inl ⟨_, rfl, rfl⟩
      rw [if_neg hn, if_neg hn]
      cases hc : resCheck (a1, b1) (a2, b2) res with
      | error e => exact Or.inl ⟨_, rfl, rfl⟩
      | ok u => exact Or.inr ⟨rfl, rfl⟩

theorem linspace_swap {a b : ℝ} {n : ℕ} (hn : 2 ≤ n) (i : Fin n) : linspace b a n i = linspace a b n i.rev := by
  have h := sweepVolt_swap (a, b) hn i
  rw [← linspace_sweep, ← linspace_sweep] at h
  exact h

theorem response_reversed (sens : SensorGeneric) (cols rows : Bool) (mu : Scan ℝ) :
    sens.response (reversedScan cols rows mu) = reversedScan cols rows (sens.response mu) := by
  unfold SensorGeneric.response
  cases sens.peaks with
  | none => rfl
  | some ps =>
    cases ps with
    | nil => rfl
    | cons p ps => cases mu <;> rfl

section reversed

variable (sim : Simulation σ) (cfg : IdealCfg) (lab : Labelling) (sens : SensorGeneric)

/-- C117 (images): with reversed direction of gate 1, of gate 2 or of both, a measurement without distortions returns the signal,
occupations and lead transitions with reversed columns, rows or both, or raises the same exception. -/
theorem C117_image (hgen : sim.gen = some (idealGen cfg lab)) (hsens : sim.sensor = genericSensor sens) (h1 : sim.occD = none)
    (h2 : sim.potD = none) (h3 : sim.respD = none) (a1 b1 a2 b2 : ℝ) (v1 v2 : Option ℝ) (c r : ℤ) (s : σ) :
    measure sim ⟨[b1, a1], [a2, b2], v1, v2, .arr [c, r]⟩ s =
      reversedOutcome true false (measure sim ⟨[a1, b1], [a2, b2], v1, v2, .arr [c, r]⟩ s) ∧
    measure sim ⟨[a1, b1], [b2, a2], v1, v2, .arr [c, r]⟩ s =
      reversedOutcome false true (measure sim ⟨[a1, b1], [a2, b2], v1, v2, .arr [c, r]⟩ s) ∧
    measure sim ⟨[b1, a1], [b2, a2], v1, v2, .arr [c, r]⟩ s =
      reversedOutcome true true (measure sim ⟨[a1, b1], [a2, b2], v1, v2, .arr [c, r]⟩ s) := by
  have key : ∀ cols rows : Bool, ∀ x1 y1 x2 y2 : ℝ, (x1, y1) = (if cols then (b1, a1) else (a1, b1)) →
      (x2, y2) = (if rows then (b2, a2) else (a2, b2)) →
      idealCsd cfg lab [x1, y1] [x2, y2] (.arr [c, r]) =
        mapOk (IdealOut.mirror cols rows) (idealCsd cfg lab [a1, b1] [a2, b2] (.arr [c, r])) →
      measure sim ⟨[x1, y1], [x2, y2], v1, v2, .arr [c, r]⟩ s =
        reversedOutcome cols rows (measure sim ⟨[a1, b1], [a2, b2], v1, v2, .arr [c, r]⟩ s) := by
    intro cols rows x1 y1 x2 y2 hx hy hm
    rw [plain_run hgen hsens h1 h2 h3, plain_run hgen hsens h1 h2 h3]
    rcases check_swap sim.lim a1 b1 a2 b2 x1 y1 x2 y2 (by rw [hx]; cases cols <;> simp) (by rw [hy]; cases rows <;> simp) v1 v2
      (.arr [c, r]) with ⟨e, k1, k2⟩ | ⟨k1, k2⟩
    · rw [k1, k2]
      rfl
    rw [k1, k2]
    dsimp only
    rw [hm]
    cases hi : idealCsd cfg lab [a1, b1] [a2, b2] (.arr [c, r]) with
    | error e => rfl
    | ok out =>
      have hd : ∃ (r' c' : ℕ) (o : _) (l : _), out = .d2 r' c' o l ∧ 2 ≤ r' ∧ 2 ≤ c' := by
        unfold idealCsd at hi
        simp only [Resolution.entries, idealCheck_2d] at hi
        by_cases hbad : a1 = b1 ∨ a2 = b2 ∨ c ≤ 1 ∨ r ≤ 1
        · rw [if_pos hbad] at hi; exact nomatch hi
        rw [if_neg hbad] at hi
        simp only at hi
        split at hi
        · cases hi
        · cases hi
          exact ⟨_, _, _, _, rfl, by omega, by omega⟩
      obtain ⟨r', c', o, l, rfl, hr, hc⟩ := hd
      dsimp only [mapOk, IdealOut.mirror, IdealOut.data]
      have hmu : ∀ (g1 g2 : ℝ × ℝ) (f : Fin r' → Fin c' → ℝ × ℝ), sens.potential (.d2 r' c' f) g1 g2 = .ok (.d2 r' c' fun i j =>
          dot2 (f i j) sens.alphaDot + dot2 (linspace g1.1 g1.2 c' j, linspace g2.1 g2.2 r' i) sens.alphaGate + sens.offset) := by
        intro g1 g2 f
        unfold SensorGeneric.potential
        exact if_neg (by omega)
      rw [hmu, hmu]
      dsimp only [reversedOutcome]
      rw [← response_reversed]
      dsimp only [reversedScan]
      have c1 : ∀ j : Fin c', linspace x1 y1 c' j = linspace a1 b1 c' (if cols then j.rev else j) := by
        intro j
        cases cols with
        | true => cases hx; exact linspace_swap hc j
        | false => cases hx; rfl
      have c2 : ∀ i : Fin r', linspace x2 y2 r' i = linspace a2 b2 r' (if rows then i.rev else i) := by
        intro i
        cases rows with
        | true => cases hy; exact linspace_swap hr i
        | false => cases hy; rfl
      simp only [c1, c2]
  obtain ⟨m1, m2, m3⟩ := C15_api_2d cfg lab a1 b1 a2 b2 c r
  exact ⟨key true false _ _ _ _ rfl rfl m1, key false true _ _ _ _ rfl rfl m2, key true true _ _ _ _ rfl rfl m3⟩

/-- C117 (lines): a line measured in the opposite direction is the reversed line, or the same exception is raised. A single pixel is
excluded: it is measured at the first voltages. -/
theorem C117_line (hgen : sim.gen = some (idealGen cfg lab)) (hsens : sim.sensor = genericSensor sens) (h1 : sim.occD = none)
    (h2 : sim.potD = none) (h3 : sim.respD = none) (a1 b1 a2 b2 : ℝ) (v1 v2 : Option ℝ) (n : ℤ) (hn : n ≠ 1) (s : σ) :
    measure sim ⟨[b1, a1], [b2, a2], v1, v2, .int n⟩ s =
      reversedOutcome true true (measure sim ⟨[a1, b1], [a2, b2], v1, v2, .int n⟩ s) := by
  rw [plain_run hgen hsens h1 h2 h3, plain_run hgen hsens h1 h2 h3]
  rcases check_swap sim.lim a1 b1 a2 b2 b1 a1 b2 a2 (Or.inr rfl) (Or.inr rfl) v1 v2 (.int n) with ⟨e, k1, k2⟩ | ⟨k1, k2⟩
  · rw [k1, k2]
    rfl
  rw [k1, k2]
  dsimp only
  rw [C15_api_1d cfg lab a1 b1 a2 b2 n hn]
  cases hi : idealCsd cfg lab [a1, b1] [a2, b2] (.int n) with
  | error e => rfl
  | ok out =>
    have hd : ∃ (m : ℕ) (o : _) (l : _), out = .d1 m o l ∧ m ≠ 1 := by
      unfold idealCsd at hi
      simp only [Resolution.entries, idealCheck_1d] at hi
      split at hi
      · cases hi
      · split at hi
        · cases hi
        · cases hi
          exact ⟨_, _, _, rfl, by omega⟩
    obtain ⟨m, o, l, rfl, hm⟩ := hd
    dsimp only [mapOk, IdealOut.mirror, IdealOut.data, SensorGeneric.potential]
    by_cases h0 : m = 0
    · rw [if_pos h0, if_pos h0]
      rfl
    rw [if_neg h0, if_neg h0]
    dsimp only [reversedOutcome]
    rw [← response_reversed]
    dsimp only [reversedScan]
    have c1 : ∀ (a b : ℝ) (i : Fin m), linspace b a m i = linspace a b m i.rev := fun a b i => linspace_swap (by omega) i
    simp only [c1 a1 b1, c1 a2 b2]

/-- C117 (lines): the same if the number of pixels is given as an array with one entry. -/
theorem C117_line_array (hgen : sim.gen = some (idealGen cfg lab)) (hsens : sim.sensor = genericSensor sens) (h1 : sim.occD = none)
    (h2 : sim.potD = none) (h3 : sim.respD = none) (a1 b1 a2 b2 : ℝ) (v1 v2 : Option ℝ) (n : ℤ) (hn : n ≠ 1) (s : σ) :
    measure sim ⟨[b1, a1], [b2, a2], v1, v2, .arr [n]⟩ s =
      reversedOutcome true true (measure sim ⟨[a1, b1], [a2, b2], v1, v2, .arr [n]⟩ s) := by
  have h : ∀ x1 y1 x2 y2 : ℝ, measure sim ⟨[x1, y1], [x2, y2], v1, v2, .arr [n]⟩ s =
      measure sim ⟨[x1, y1], [x2, y2], v1, v2, .int n⟩ s := by
    intro x1 y1 x2 y2
    rw [plain_run hgen hsens h1 h2 h3, plain_run hgen hsens h1 h2 h3]
    have e : measureCheck sim.lim true ⟨[x1, y1], [x2, y2], v1, v2, .arr [n]⟩ =
        measureCheck sim.lim true ⟨[x1, y1], [x2, y2], v1, v2, .int n⟩ := by
      simp [measureCheck, resCheck]
    rw [e]
    rfl
  rw [h, h]
  exact C117_line sim cfg lab sens hgen hsens h1 h2 h3 a1 b1 a2 b2 v1 v2 n hn s

end reversed

/-- Non-vacuity: an image of the default configuration succeeds in both directions of gate 1. -/
example (lab : Labelling) : ∃ csd occ lead,
    measure (defaultSim lab) ⟨[-0.087, -0.2], [-0.2, -0.047], none, none, .arr [(100 : ℕ), (100 : ℕ)]⟩ () = (.ok (csd, occ, lead), ()) ∧
    measure (defaultSim lab) ⟨[-0.2, -0.087], [-0.2, -0.047], none, none, .arr [(100 : ℕ), (100 : ℕ)]⟩ () =
      (.ok (reversedScan true false csd, reversedScan true false occ, reversedScan true false lead), ()) := by
  obtain ⟨csd, occ, lead, h⟩ := C68_image_partial (σ := Unit) lab (-0.087) (-0.2) (-0.2) (-0.047) (by unfold Within; norm_num)
    (by unfold Within; norm_num) (by norm_num) (by norm_num) 100 100 (by norm_num)
    (by norm_num) (by rw [abs_of_nonpos (by norm_num), abs_of_nonneg (by norm_num)]; norm_num) none none rfl ()
  refine ⟨_, _, _, h, ?_⟩
  rw [(C117_image (defaultSim lab) defaultIdeal lab defaultSensor rfl rfl rfl rfl rfl (-0.087) (-0.2) (-0.2) (-0.047) none none ((100 : ℕ) : ℤ) ((100 : ℕ) : ℤ) ()).1]
  exact congrArg (reversedOutcome true false) h

/-- Non-vacuity: a line of the default configuration with an empty list of peak functions, measured from its end. -/
example (lab : Labelling) (s : σ) : measure (peaklessSim lab) ⟨[-0.1, -0.2], [-0.1, -0.2], none, none, .arr [50]⟩ s =
    reversedOutcome true true (measure (peaklessSim lab) ⟨[-0.2, -0.1], [-0.2, -0.1], none, none, .arr [50]⟩ s) :=
  C117_line_array (peaklessSim lab) defaultIdeal lab _ rfl rfl rfl rfl rfl _ _ _ _ _ _ _ (by norm_num) s

/-- Non-vacuity: a successful line of the default configuration and its mirror image. -/
example (lab : Labelling) : ∃ csd occ lead,
    measure (defaultSim lab) ⟨[-0.2, -0.1], [-0.2, -0.1], none, none, .int (50 : ℕ)⟩ () = (.ok (csd, occ, lead), ()) ∧
    measure (defaultSim lab) ⟨[-0.1, -0.2], [-0.1, -0.2], none, none, .int (50 : ℕ)⟩ () =
      (.ok (reversedScan true true csd, reversedScan true true occ, reversedScan true true lead), ()) := by
  obtain ⟨csd, occ, lead, h⟩ := C68_line_partial (σ := Unit) lab (-0.2) (-0.1) (-0.2) (-0.1) (by unfold Within; norm_num)
    (by unfold Within; norm_num) 50 (by norm_num) none none rfl ()
  refine ⟨_, _, _, h, ?_⟩
  rw [C117_line (defaultSim lab) defaultIdeal lab defaultSensor rfl rfl rfl rfl rfl (-0.2) (-0.1) (-0.2) (-0.1) none none ((50 : ℕ) : ℤ)
    (by norm_num) ()]
  exact congrArg (reversedOutcome true true) h

end SimCATS
