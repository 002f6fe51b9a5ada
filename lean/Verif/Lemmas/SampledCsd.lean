import Verif.Lemmas.SampledLadder
import Verif.Lemmas.LastTransition
import Verif.Model.GeometrySampler
import Verif.Props.Simulation
import Verif.Props.IdealCsd

/-! Sampled families of transitions as charge stability diagrams. -/

namespace SimCATS

open Spec

variable {p : TctParams} {v : ℝ × ℝ}

theorem IsCurves.getElem? {lut : Option ℕ} : ∀ {k : ℕ} {ps : List TctParams} {fs : List (ℝ → ℝ)},
    IsCurves lut k ps fs → ∀ {i : ℕ} {f : ℝ → ℝ}, fs[i]? = some f →
      ∃ q, ps[i]? = some q ∧ ∀ x, tctBezierAt q lut (some (k + i)) x = .ok (f x)
  | _, [], [], _, i, f, hf => by simp at hf
  | k, q :: ps, g :: fs, h, 0, f, hf => by
    simp at hf
    subst hf
    exact ⟨q, rfl, h.1⟩
  | k, q :: ps, g :: fs, h, i + 1, f, hf => by
    rw [List.getElem?_cons_succ] at hf
    obtain ⟨q', hq, hx⟩ := IsCurves.getElem? h.2.2 hf
    refine ⟨q', by rw [List.getElem?_cons_succ]; exact hq, ?_⟩
    have : k + (i + 1) = k + 1 + i := by omega
    rw [this]; exact hx
  | _, [], _ :: _, h, _, _, _ => absurd h (by simp [IsCurves])
  | _, _ :: _, [], h, _, _, _ => absurd h (by simp [IsCurves])

theorem ladder_getElem? (p : TctParams) (v : ℝ × ℝ) {n k : ℕ} (hk : k < n) : (ladder p v n)[k]? = some (moved p v k) := by
  unfold ladder
  rw [List.getElem?_map, List.getElem?_range hk]
  rfl

theorem ladder_length (p : TctParams) (v : ℝ × ℝ) (n : ℕ) : (ladder p v n).length = n := by simp [ladder]

/-- The curves of a sampled configuration are close to the exact ones. -/
theorem ladder_near (h : SampledFirst p v) {n : ℕ} {curves : List (ℝ → ℝ)} (hc : IsCurves (some 1000) 1 (ladder p v n) curves)
    {k : ℕ} {f : ℝ → ℝ} (hf : curves[k]? = some f) : k < n ∧ ∀ x, |f x - ladderCurve p v k x| ≤ 0.000003 := by
  have hk : k < n := by
    have := (List.getElem?_eq_some_iff.1 hf).1
    rw [hc.length, ladder_length] at this
    exact this
  obtain ⟨q, hq, hx⟩ := hc.getElem? hf
  rw [ladder_getElem? p v hk] at hq
  cases hq
  exact ⟨hk, fun x => ladder_lut h k (by rw [Nat.add_comm]; exact hx x)⟩

theorem rotatePoint_injective (a : ℝ) {P Q : ℝ × ℝ} (h : rotatePoint a P = rotatePoint a Q) : P = Q := by
  rw [← rotate_back a P, h, rotate_back]

theorem Spec.SampledFirst.cfgOk (h : SampledFirst p v) (n : ℕ) : CfgOk (sampledIdeal (ladder p v n)) := by
  refine ⟨?_, by simp [sampledIdeal], by simp [sampledIdeal], by simp [sampledIdeal], ?_⟩
  · intro q hq
    simp only [sampledIdeal, ladder, List.mem_map] at hq
    obtain ⟨k, -, rfl⟩ := hq
    exact h.tctOk k
  · intro k upper rows valley peak hu hr hv hp
    cases k with
    | zero => simp [allAnchors] at hr
    | succ k =>
      simp only [allAnchors, sampledIdeal, Nat.le_add_left, if_true, Nat.add_sub_cancel, Option.map_eq_some_iff] at hu hr
      obtain ⟨q, hq, rfl⟩ := hu
      obtain ⟨q', hq', rfl⟩ := hr
      have hk : k + 1 < n := by
        have := (List.getElem?_eq_some_iff.1 hq).1
        rwa [ladder_length] at this
      rw [ladder_getElem? p v hk] at hq
      rw [ladder_getElem? p v (by omega)] at hq'
      cases hq
      cases hq'
      rw [anchorsRaw_eq (p := moved p v (k + 1)) (ne_of_lt h.grad) (h.center_moved (k + 1)), List.map_map, List.getElem?_map] at hv
      rw [anchorsRaw_eq (p := moved p v k) (ne_of_lt h.grad) (h.center_moved k), List.map_map, List.getElem?_map] at hp
      rw [List.getElem?_range (by omega)] at hv hp
      simp only [Option.map_some, Function.comp, Option.some.injEq] at hv hp
      subst hv hp
      intro he
      simp only [Anchor.rotate] at he
      have := congrArg Prod.snd (rotatePoint_injective _ he)
      simp only [rowAnchor, midAnchor, moved] at this
      norm_num at this
      have hi := h.interdot_bounds.2.2.1
      simp only [interdot] at hi
      norm_num at hi
      linarith

theorem addOneTct_ladder (p : TctParams) (v : ℝ × ℝ) (n : ℕ) : addOneTct (ladder p v (n + 1)) v = .ok (ladder p v (n + 2)) := by
  unfold addOneTct
  have hl : (ladder p v (n + 1)).getLast? = some (moved p v n) := by
    simp [ladder, List.range_succ]
  rw [hl]
  simp only
  congr 1
  have : ladder p v (n + 2) = ladder p v (n + 1) ++ [moved p v (n + 1)] := by
    simp [ladder, List.range_succ]
  rw [this]
  congr 2
  simp only [TctParams.shift, moved, TctParams.mk.injEq, true_and]
  push_cast
  refine ⟨by ring, by ring, by ring, by ring⟩

theorem idealCsd_2d (cfg : IdealCfg) (lab : Labelling) {g1 g2 : ℝ × ℝ} (h1 : g1.1 ≠ g1.2) (h2 : g2.1 ≠ g2.2) {r c : ℕ}
    (hr : 2 ≤ r) (hc : 2 ≤ c) : idealCsd cfg lab [g1.1, g1.2] [g2.1, g2.2] (.arr [(c : ℤ), (r : ℤ)]) =
      match ideal2d cfg lab g1 g2 r c with
      | .error e => .error e
      | .ok (occ, lead) => .ok (.d2 r c occ lead) := by
  unfold idealCsd
  simp only [Resolution.entries, idealCheck_2d]
  rw [if_neg (by simp [h1, h2]; omega)]
  simp only [Int.toNat_natCast, Prod.mk.eta]
  cases ideal2d cfg lab g1 g2 r c <;> rfl

/-- The range of the test measurement. -/
abbrev testLim : ℝ × ℝ := (-0.2, -0.06)

theorem measure_test (lab : Labelling) (ps : List TctParams) :
    (∀ o, ideal2d (sampledIdeal ps) lab testLim testLim 10 10 = .ok o → ∃ x, (measure (testSim lab ps) testRequest ()).1 = .ok x) ∧
    ∀ e, ideal2d (sampledIdeal ps) lab testLim testLim 10 10 = .error e → (measure (testSim lab ps) testRequest ()).1 = .error e := by
  have hc : measureCheck (testSim lab ps).lim (testSim lab ps).gen.isSome testRequest = .ok (testLim, testLim) := by
    have hr : rangeOutside (some testLim) testLim = false := by
      unfold rangeOutside testLim
      norm_num
    unfold measureCheck testSim testRequest
    simp only [Option.isSome_some, Bool.true_eq_false, if_false]
    rw [show rangeOutside (some (-0.2, -0.06)) (-0.2, -0.06) = false from hr]
    simp only [Bool.false_eq_true, or_self, if_false, sensorOutside, valueOutside, resCheck]
    norm_num
  have hm : measure (testSim lab ps) testRequest () =
      measureRun (testSim lab ps) (idealGen (sampledIdeal ps) lab) testRequest testLim testLim () := by
    unfold measure
    rw [hc]
    rfl
  have hg : idealCsd (sampledIdeal ps) lab [testLim.1, testLim.2] [testLim.1, testLim.2] testRequest.res =
      match ideal2d (sampledIdeal ps) lab testLim testLim 10 10 with
      | .error e => .error e
      | .ok (occ, lead) => .ok (.d2 10 10 occ lead) := by
    have he : testRequest.res = .arr [((10 : ℕ) : ℤ), ((10 : ℕ) : ℤ)] := rfl
    rw [he]
    rw [idealCsd_2d (sampledIdeal ps) lab (g1 := testLim) (g2 := testLim) (by norm_num) (by norm_num) (r := 10) (c := 10)
      (by norm_num) (by norm_num)]
    cases ideal2d (sampledIdeal ps) lab testLim testLim 10 10 <;> rfl
  rw [hm]
  constructor
  · intro o ho
    rw [ho] at hg
    have hgen : idealGen (sampledIdeal ps) lab testLim testLim testRequest.res () = (.ok (.d2 10 10 o.1, .d2 10 10 o.2), ()) := by
      unfold idealGen
      rw [hg]
      rfl
    refine ⟨(.d2 10 10 fun i j => dot2 (o.1 i j) (-1, -1) + dot2 (linspace testLim.1 testLim.2 10 j, linspace testLim.1 testLim.2 10 i) (0, 0) + 0,
      .d2 10 10 o.1, .d2 10 10 o.2), ?_⟩
    unfold measureRun
    rw [M.bind_run, hgen]
    rfl
  · intro e he
    rw [he] at hg
    have hgen : idealGen (sampledIdeal ps) lab testLim testLim testRequest.res () = (.error e, ()) := by
      unfold idealGen
      rw [hg]
      rfl
    unfold measureRun
    rw [M.bind_run, hgen]

end SimCATS
