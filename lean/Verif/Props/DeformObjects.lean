import Verif.Lemmas.DeformObjects
import Mathlib.Tactic.NormNum

/-! Property C76: deformations use the lever arms of the sensor whose peaks they deform. -/

namespace SimCATS

open Spec

/-- C76, exact behaviour: every peak is deformed with the lever arms of the sensor whose constructor was the last one to get the deformation object
(`owner i` for peak `i`), whichever sensor is used. -/
theorem C76_actual (l : List DStmt) (s k : ℕ) (o : SensObj) (ps : List ℝ) (dist : ℝ) (owner : ℕ → ℕ) (arms : ℕ → ℝ × ℝ)
    (hs : (DefWorld.init.exec l).sensor s = some o) (hk : o.dict = some k) (hp : o.peaks = some ps)
    (hl : ∀ i < ps.length, ∀ d, dictGet ((DefWorld.init.exec l).content (some k)) i = some d →
      LastPassed .init l d (owner i) ∧ ((DefWorld.init.exec l).sensors[owner i]?).bind (·.alpha) = some (arms i)) :
    ∃ out, (DefWorld.init.exec l).positions s dist = .ok out ∧ out.length = ps.length ∧
      ∀ i (h : i < ps.length), out[i]? = some (match deformOf (DefWorld.init.exec l) s i with
        | none => ps[i]
        | some d => d.calcMu (Real.sqrt ((arms i).1 ^ 2 + (arms i).2 ^ 2)) dist ps[i]) := by
  have hsh : ∀ i < ps.length, ∀ d, dictGet ((DefWorld.init.exec l).content (some k)) i = some d →
      ∃ shape, (DefWorld.init.exec l).defs[d]? = some ⟨shape, some (owner i)⟩ := fun i hi d hd => exec_last DefValid.init (hl i hi d hd).1
  have harm : ∀ i < ps.length, ∀ d, dictGet ((DefWorld.init.exec l).content (some k)) i = some d →
      ((DefWorld.init.exec l).sensors[owner i]?).bind (·.alpha) = some (arms i) := fun i hi d hd => (hl i hi d hd).2
  generalize DefWorld.init.exec l = w at *
  have hdef : ∀ i, deformOf w s i = (dictGet (w.content (some k)) i).bind fun d => (w.defs[d]?).map (·.shape) := by
    intro i
    simp only [deformOf, hs, Option.bind_some, hk]
  obtain ⟨out, h1, h2, h3⟩ := peakLoop_ok (w := w) (content := w.content (some k)) (dist := dist)
    (fun i mu => match deformOf w s i with
        | none => mu
        | some d => d.calcMu (Real.sqrt ((arms i).1 ^ 2 + (arms i).2 ^ 2)) dist mu) ps 0 (by
    intro i hi mu
    rw [Nat.zero_add]
    unfold DefWorld.peakPos
    rw [hdef]
    cases hd : dictGet (w.content (some k)) i with
    | none => rfl
    | some d =>
      obtain ⟨shape, hsp⟩ := hsh i hi d hd
      simp only [DefWorld.calcMu, hsp, harm i hi d hd, Option.bind_some, Option.map_some]
      rfl)
  simp only [Nat.zero_add] at h3
  unfold DefWorld.positions
  simp only [hs, hk, hp]
  by_cases hc : w.content (some k) = []
  · rw [if_pos hc]
    refine ⟨ps, rfl, rfl, fun i hi => ?_⟩
    have : deformOf w s i = none := by
      rw [hdef, hc]
      rfl
    rw [this]
    exact List.getElem?_eq_getElem hi
  · rw [if_neg hc]
    exact ⟨out, h1, h2, h3⟩

/-- C76, exact behaviour: a peak with a deformation object that no constructor has got makes every response fail with `AttributeError`. -/
theorem C76_unset_actual (l : List DStmt) (s k i d : ℕ) (o : SensObj) (ps : List ℝ) (dist : ℝ)
    (hs : (DefWorld.init.exec l).sensor s = some o) (hk : o.dict = some k) (hp : o.peaks = some ps) (hi : i < ps.length)
    (hd : dictGet ((DefWorld.init.exec l).content (some k)) i = some d) (hn : NeverPassed .init l d) :
    (DefWorld.init.exec l).positions s dist = .error .attributeError := by
  have hv := DefValid.init.exec (l := l)
  have hu := exec_unset (w := .init) (by simp [DefWorld.init]) hn
  generalize DefWorld.init.exec l = w at *
  have hne : w.content (some k) ≠ [] := by
    intro he
    rw [he] at hd
    simp [dictGet] at hd
  unfold DefWorld.positions
  simp only [hs, hk, hp, if_neg hne]
  refine peakLoop_error ps 0 ?_ ⟨i, hi, fun mu => ⟨.attributeError, ?_⟩⟩
  · intro j hj mu e he
    unfold DefWorld.peakPos at he
    cases hd' : dictGet (w.content (some k)) (0 + j) with
    | none => rw [hd'] at he; exact nomatch he
    | some d' =>
      rw [hd'] at he
      simp only [DefWorld.calcMu] at he
      rw [List.getElem?_eq_getElem (dictGet_valid hv _ _ _ hd')] at he
      simp only at he
      split at he
      · exact (Except.error.inj he).symm
      · split at he
        · exact (Except.error.inj he).symm
        · exact nomatch he
  · unfold DefWorld.peakPos
    have hlt := dictGet_valid hv _ _ _ hd
    have ho := hu _ (List.getElem?_eq_getElem hlt)
    rw [Nat.zero_add, hd]
    simp only [DefWorld.calcMu, List.getElem?_eq_getElem hlt, ho]

/-- C76, the part that holds: after a sensor was made with a dictionary of deformations, its peaks are deformed with its own (current) lever arms, as
long as its peak functions and its dictionary stay and none of its deformation objects is passed to another constructor. -/
theorem C76_partial (before after : List DStmt) (alpha a : ℝ × ℝ) (ps : List ℝ) (arg : DictArg) (k s : ℕ) (o : SensObj) (dist : ℝ)
    (harg : arg.ref = some k) (hnew : s = (DefWorld.init.exec before).sensors.length)
    (hs : (DefWorld.init.exec (before ++ .newSensor (some alpha) (some ps) arg true :: after)).sensor s = some o)
    (ha : o.alpha = some a) (hp : o.peaks = some ps) (hk : o.dict = some k)
    (hc : (DefWorld.init.exec (before ++ .newSensor (some alpha) (some ps) arg true :: after)).content (some k) =
      (DefWorld.init.exec before).content (some k))
    (hn : ∀ i < ps.length, ∀ d, dictGet ((DefWorld.init.exec before).content (some k)) i = some d →
      NeverPassed ((DefWorld.init.exec before).exec [.newSensor (some alpha) (some ps) arg true]) after d) :
    ∃ out, (DefWorld.init.exec (before ++ .newSensor (some alpha) (some ps) arg true :: after)).positions s dist = .ok out ∧
      OwnPositions a ps (deformOf (DefWorld.init.exec (before ++ .newSensor (some alpha) (some ps) arg true :: after)) s) dist out := by
  refine C76_actual _ s k o ps dist (fun _ => s) (fun _ => a) hs hk hp fun i hi d hd => ⟨?_, ?_⟩
  · rw [hc] at hd
    refine ⟨before, _, after, rfl, hnew.symm, ⟨_, ps, arg, _, i, rfl, hi, by rw [harg]; exact hd⟩, ?_⟩
    exact hn i hi d hd
  · unfold DefWorld.sensor at hs
    have := (Option.filter_eq_some_iff.1 hs).1
    simp only [this, Option.bind_some, ha]

/-- C76: lever arms and peaks of a sensor are those of the constructor call or of the last assignment to this sensor, whatever else happens. -/
theorem C76_assigned (w : DefWorld) (alpha : ℝ × ℝ) (ps : Option (List ℝ)) (arg : DictArg) (after : List DStmt)
    (harg : arg.ref = none ∨ ∃ k, arg.ref = some k ∧ k < w.dicts.length) :
    ∃ o, (w.exec (.newSensor (some alpha) ps arg true :: after)).sensor w.sensors.length = some o ∧
      o.alpha = some (armsAfter w.sensors.length alpha after) ∧ o.peaks = peaksAfter w.sensors.length ps after := by
  have h0 : ((DStmt.newSensor (some alpha) ps arg true).run w).2.sensor w.sensors.length = some ⟨some alpha, ps, arg.ref, true⟩ := by
    have hc : ¬ ((arg.ref.bind fun k => w.dicts[k]?).isNone = true ∧ arg.ref.isSome = true) := by
      rcases harg with h | ⟨k, h, hk⟩
      · simp [h]
      · simp [h, hk]
    unfold DStmt.run
    simp only [hc, if_false]
    simp [DefWorld.sensor, Option.filter]
  rw [DefWorld.exec, List.foldl_cons]
  exact exec_assigned after _ _ _ _ h0 rfl rfl

/-- Non-vacuity: two assignments to the first and one to the second sensor. -/
example : ∃ o, (DefWorld.init.exec [.newSensor (some (1, 0)) (some [0]) .default true, .newSensor (some (5, 0)) (some [0]) .default true,
      .setAlpha 0 (2, 0), .setAlpha 1 (7, 0), .setAlpha 0 (3, 0), .setPeaks 0 (some [4])]).sensor 0 = some o ∧
    o.alpha = some (3, 0) ∧ o.peaks = some [4] :=
  C76_assigned .init (1, 0) (some [0]) .default _ (.inr ⟨0, rfl, by simp [DefWorld.init]⟩)

/-- The tangent of the angle of the examples. -/
theorem inv_tan_one : 1 / Real.tan (Real.arctan 1) = 1 := by rw [Real.tan_arctan]; norm_num

theorem sqrt_pair (x : ℝ) (h : 0 ≤ x) : Real.sqrt (x ^ 2 + 0 ^ 2) = x := by
  rw [zero_pow two_ne_zero, add_zero, Real.sqrt_sq h]

/-- C76 is refuted by two sensors with the same deformation object: at distance 1 the peak of the first sensor (lever arm 1) has to be at 1, but it is at 3
because the lever arms of the second sensor are used. -/
theorem C76_shared_refuted : ∃ w : DefWorld, DefWorld.init.exec [.newDef (.linear (Real.arctan 1)), .newDict, .put 1 0 0,
      .newSensor (some (1, 0)) (some [0]) (.given 1) true, .newSensor (some (3, 0)) (some [0]) (.given 1) true] = w ∧
    w.positions 0 1 = .ok [3] ∧ ¬ OwnPositions (1, 0) [0] (deformOf w 0) 1 [3] := by
  refine ⟨_, rfl, ?_, ?_⟩
  · simp [DefWorld.exec, DefWorld.init, DStmt.run, DictArg.ref, DefWorld.content, registered, dictGet, DefWorld.register, DefWorld.positions,
      DefWorld.sensor, DefWorld.peakLoop, DefWorld.peakPos, DefWorld.calcMu, Deform.calcMu, linearCalcMu, pairNorm, Real.tan_arctan, List.range_succ, Option.filter, List.filterMap_cons]
  · rintro ⟨-, h⟩
    have := h 0 (by simp)
    simp [DefWorld.exec, DefWorld.init, DStmt.run, DictArg.ref, DefWorld.content, registered, dictGet, DefWorld.register,
      DefWorld.sensor, deformOf, Deform.calcMu, linearCalcMu, Real.tan_arctan, List.range_succ, Option.filter, List.filterMap_cons] at this

/-- C76 is refuted by deformations that are set after the construction, and by peaks that are added: the response fails with `AttributeError`. -/
theorem C76_later_refuted : ∃ w w' : DefWorld, DefWorld.init.exec [.newDef (.linear (Real.arctan 1)), .newDict, .put 1 0 0,
      .newSensor (some (1, 0)) (some [0]) .default true, .setDict 0 1] = w ∧
    DefWorld.init.exec [.newDef (.linear (Real.arctan 1)), .newDict, .put 1 1 0,
      .newSensor (some (1, 0)) (some [0]) (.given 1) true, .setPeaks 0 (some [0, 1])] = w' ∧
    w.positions 0 1 = .error .attributeError ∧ w'.positions 0 1 = .error .attributeError := by
  refine ⟨_, _, rfl, rfl, ?_, ?_⟩ <;>
  simp [DefWorld.exec, DefWorld.init, DStmt.run, DictArg.ref, DefWorld.content, registered, dictGet, DefWorld.positions,
      DefWorld.sensor, DefWorld.peakLoop, DefWorld.peakPos, DefWorld.calcMu, List.range_succ, Option.filter, List.filterMap_cons]

/-- C76 is refuted by the shared default dictionary: a deformation added to one sensor is also added to another sensor, whose response then fails. -/
theorem C76_default_refuted : ∃ w w' : DefWorld, DefWorld.init.exec [.newDef (.linear (Real.arctan 1)),
      .newSensor (some (1, 0)) (some [0]) .default true, .newSensor (some (3, 0)) (some [0]) .default true] = w ∧ w.exec [.putOf 0 0 0] = w' ∧
    w.positions 1 1 = .ok [0] ∧ w'.positions 1 1 = .error .attributeError := by
  refine ⟨_, _, rfl, rfl, ?_, ?_⟩ <;>
  simp [DefWorld.exec, DefWorld.init, DStmt.run, DictArg.ref, DefWorld.content, registered, dictGet, DefWorld.positions,
      DefWorld.sensor, DefWorld.peakLoop, DefWorld.peakPos, DefWorld.calcMu, List.range_succ, Option.filter, List.filterMap_cons]

/-- C76 is refuted by a constructor that fails: it raises `ValueError`, but the sensor that used the deformation before does not work any more. -/
theorem C76_failed_refuted : ∃ w : DefWorld, DefWorld.init.exec [.newDef (.linear (Real.arctan 1)), .newDict, .put 1 0 0,
      .newSensor (some (1, 0)) (some [0]) (.given 1) true] = w ∧ w.positions 0 1 = .ok [1] ∧
    ∃ w', (DStmt.newSensor none (some [0]) (.given 1) true).run w = (.error .valueError, w') ∧
      w'.positions 0 1 = .error .attributeError := by
  refine ⟨_, rfl, ?_, ((DStmt.newSensor none (some [0]) (.given 1) true).run (DefWorld.init.exec [.newDef (.linear (Real.arctan 1)), .newDict,
    .put 1 0 0, .newSensor (some (1, 0)) (some [0]) (.given 1) true])).2, ?_, ?_⟩ <;>
  simp [DefWorld.exec, DefWorld.init, DStmt.run, DictArg.ref, DefWorld.content, registered, dictGet, DefWorld.register, DefWorld.positions,
      DefWorld.sensor, DefWorld.peakLoop, DefWorld.peakPos, DefWorld.calcMu, Deform.calcMu, linearCalcMu, pairNorm, Real.tan_arctan, List.range_succ, Option.filter, List.filterMap_cons]

/-- Non-vacuity of `C76_partial`: two sensors with deformations of their own; the lever arms of the first one are changed afterwards. -/
example : ∃ (before after : List DStmt) (o : SensObj) (k : ℕ), after.length = 2 ∧
    (DefWorld.init.exec (before ++ .newSensor (some (1, 0)) (some [0]) (.given k) true :: after)).sensor 0 = some o ∧
    o.alpha = some (2, 0) ∧ (∃ d, dictGet ((DefWorld.init.exec before).content (some k)) 0 = some d) ∧
    ∃ out, (DefWorld.init.exec (before ++ .newSensor (some (1, 0)) (some [0]) (.given k) true :: after)).positions 0 1 = .ok out ∧
      OwnPositions (2, 0) [0] (deformOf (DefWorld.init.exec (before ++ .newSensor (some (1, 0)) (some [0]) (.given k) true :: after)) 0) 1 out := by
  refine ⟨[.newDef (.linear (Real.arctan 1)), .newDef (.linear (Real.arctan 1)), .newDict, .newDict, .put 1 0 0, .put 2 0 1],
    [.newSensor (some (3, 0)) (some [0]) (.given 2) true, .setAlpha 0 (2, 0)], ⟨some (2, 0), some [0], some 1, true⟩, 1, rfl, ?_, rfl, ⟨0, ?_⟩,
    C76_partial _ _ (1, 0) (2, 0) [0] (.given 1) 1 0 ⟨some (2, 0), some [0], some 1, true⟩ 1 rfl ?_ ?_ rfl rfl rfl ?_ ?_⟩
  case refine_6 =>
    intro i hi d hd
    have hi0 : i = 0 := by simpa using hi
    subst hi0
    have hd0 : d = 0 := by
      simp [DefWorld.exec, DefWorld.init, DStmt.run, DefWorld.content, dictGet] at hd
      exact hd.symm
    subst hd0
    refine never_cons ?_ (never_cons ?_ (never_nil _ _))
    · rintro ⟨_, ps, dict, _, i, hc, -, h⟩
      cases hc
      simp [DefWorld.exec, DefWorld.init, DStmt.run, DictArg.ref, DefWorld.content, registered, dictGet, DefWorld.register, List.range_succ,
        List.filterMap_cons] at h
    · rintro ⟨_, ps, dict, _, i, hc, -, h⟩
      cases hc
  all_goals simp [DefWorld.exec, DefWorld.init, DStmt.run, DictArg.ref, DefWorld.content, registered, dictGet, DefWorld.register,
    DefWorld.sensor, List.range_succ, Option.filter, List.filterMap_cons]

end SimCATS
