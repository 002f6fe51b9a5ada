import Verif.Lemmas.History
import Verif.Spec.History
import Verif.Lemmas.DefaultNoise

/-! The default configurations and the sampled configurations; simulations without distortions. -/

namespace SimCATS

variable {τ : Type}

/-- The comparison of two states of the objects of a default configuration. -/
def noiseMemory (τ : Type) : Memory (NoiseState τ) (Fin 7) where
  same s t := s.gens = t.gens
  own k s t := match k with
    | 0 => s.blur = t.blur
    | 1 => DotAgree s.jumps0 t.jumps0
    | 2 => DotAgree s.jumps1 t.jumps1
    | 3 => s.pink = t.pink
    | 4 => s.potRtn = t.potRtn
    | 5 => s.respRtn = t.respRtn
    | 6 => s.white = t.white

theorem blur_placed : Placed (noiseMemory τ) (blurSlot τ) 0 (· = ·) where
  same _ _ _ _ h := h
  other j hj d d' s t h := by fin_cases j <;> first | exact absurd rfl hj | exact h
  own _ _ := Iff.rfl

theorem jumps0_placed : Placed (noiseMemory τ) (jumps0Slot τ) 1 DotAgree where
  same _ _ _ _ h := h
  other j hj d d' s t h := by fin_cases j <;> first | exact absurd rfl hj | exact h
  own _ _ := Iff.rfl

theorem jumps1_placed : Placed (noiseMemory τ) (jumps1Slot τ) 2 DotAgree where
  same _ _ _ _ h := h
  other j hj d d' s t h := by fin_cases j <;> first | exact absurd rfl hj | exact h
  own _ _ := Iff.rfl

theorem pink_placed : Placed (noiseMemory τ) (pinkSlot τ) 3 (· = ·) where
  same _ _ _ _ h := h
  other j hj d d' s t h := by fin_cases j <;> first | exact absurd rfl hj | exact h
  own _ _ := Iff.rfl

theorem potRtn_placed : Placed (noiseMemory τ) (potRtnSlot τ) 4 (· = ·) where
  same _ _ _ _ h := h
  other j hj d d' s t h := by fin_cases j <;> first | exact absurd rfl hj | exact h
  own _ _ := Iff.rfl

theorem respRtn_placed : Placed (noiseMemory τ) (respRtnSlot τ) 5 (· = ·) where
  same _ _ _ _ h := h
  other j hj d d' s t h := by fin_cases j <;> first | exact absurd rfl hj | exact h
  own _ _ := Iff.rfl

theorem white_placed : Placed (noiseMemory τ) (whiteSlot τ) 6 (· = ·) where
  same _ _ _ _ h := h
  other j hj d d' s t h := by fin_cases j <;> first | exact absurd rfl hj | exact h
  own _ _ := Iff.rfl

theorem onGens_same {α : Type} (x : M τ α) (K : Set (Fin 7)) :
    Same ((noiseMemory τ).rel K) ((noiseMemory τ).rel K) (noiseMemory τ).same (onGens x) (onGens x) := by
  intro s t h
  have hg : s.gens = t.gens := h.1
  unfold onGens
  rw [hg]
  rcases x t.gens with ⟨r, g⟩
  cases r with
  | ok a => exact .ok _ _ _ ⟨rfl, fun k hk => by have := h.2 k hk; fin_cases k <;> exact this⟩
  | error e => exact .err _ _ _ rfl

/-- A place that a draw does not touch. -/
def Untouched {D : Type} (L : Slot (NoiseState τ) D) : Prop := ∀ d s g, L.put d { s with gens := g } = { L.put d s with gens := g } ∧ (L.put d s).gens = s.gens

theorem onGens_draw {D α : Type} {L : Slot (NoiseState τ) D} (hL : Untouched L) (x : M τ α) : IsDraw (noiseMemory τ) L (onGens x) := by
  refine ⟨fun d s => ?_, onGens_same x⟩
  unfold onGens
  rw [(hL d s s.gens).2]
  exact Prod.ext rfl (hL d s _).1.symm

theorem rng_draw {D : Type} {L : Slot (NoiseState τ) D} (hL : Untouched L) (rng : Rng τ) : RngDraws (noiseMemory τ) L rng.onGens :=
  ⟨fun _ => onGens_draw hL _, fun _ _ => onGens_draw hL _, fun _ => onGens_draw hL _, fun _ _ => onGens_draw hL _⟩

theorem blur_untouched : Untouched (blurSlot τ) := fun _ _ _ => ⟨rfl, rfl⟩
theorem jumps0_untouched : Untouched (jumps0Slot τ) := fun _ _ _ => ⟨rfl, rfl⟩
theorem jumps1_untouched : Untouched (jumps1Slot τ) := fun _ _ _ => ⟨rfl, rfl⟩
theorem pink_untouched : Untouched (pinkSlot τ) := fun _ _ _ => ⟨rfl, rfl⟩
theorem potRtn_untouched : Untouched (potRtnSlot τ) := fun _ _ _ => ⟨rfl, rfl⟩
theorem respRtn_untouched : Untouched (respRtnSlot τ) := fun _ _ _ => ⟨rfl, rfl⟩
theorem white_untouched : Untouched (whiteSlot τ) := fun _ _ _ => ⟨rfl, rfl⟩

/-! ### Default configurations -/

theorem default_occ_fresh (env : NoiseEnv τ) : List.Forall₂ (OccFresh (noiseMemory τ)) [0, 1, 2]
    [defaultBlur, OccDist.on (jumps0Slot τ) (defaultJumps0 env).noiseFunction, OccDist.on (jumps1Slot τ) (defaultJumps1 env).noiseFunction] :=
  .cons (blur_fresh' blur_placed (.pure _)) (.cons (dotJumps_fresh jumps0_placed (rng_draw jumps0_untouched _) (.pure _) (.pure _))
    (.cons (dotJumps_fresh jumps1_placed (rng_draw jumps1_untouched _) (.pure _) (.pure _)) .nil))

theorem default_pot_fresh (env : NoiseEnv τ) : List.Forall₂ (SigFresh (noiseMemory τ)) [3, 4]
    [SigDist.on (pinkSlot τ) (defaultPink env).noiseFunction, SigDist.on (potRtnSlot τ) (defaultPotRtn env).noiseFunction] :=
  .cons (white_fresh pink_placed (onGens_draw pink_untouched _) fun _ _ => onGens_draw pink_untouched _)
    (.cons (rtn_fresh potRtn_placed (rng_draw potRtn_untouched _) (.pure _) (.pure _) (.pure _)) .nil)

theorem default_resp_fresh (env : NoiseEnv τ) : List.Forall₂ (SigFresh (noiseMemory τ)) [5, 6]
    [SigDist.on (respRtnSlot τ) (defaultRespRtn env).noiseFunction, SigDist.on (whiteSlot τ) (defaultWhite env).noiseFunction] :=
  .cons (rtn_fresh respRtn_placed (rng_draw respRtn_untouched _) (.pure _) (.pure _) (.pure _))
    (.cons (white_fresh white_placed (onGens_draw white_untouched _) fun _ _ => onGens_draw white_untouched _) .nil)

theorem noisySim_fresh (env : NoiseEnv τ) (lab : Labelling) : SimFresh (noiseMemory τ) [0, 1, 2] [3, 4] [5, 6] (noisySim env lab) :=
  ⟨fun _ h => ideal_same (some defaultIdeal) lab _ h, ⟨_, generic_fresh _⟩, default_occ_fresh env, default_pot_fresh env, default_resp_fresh env⟩

theorem forall2_some {β γ κ : Type} {P : κ → β → Prop} {Q : Option κ → γ → Prop} {f : β → γ} (h : ∀ k b, P k b → Q (some k) (f b)) {ks : List κ}
    {bs : List β} (hb : List.Forall₂ P ks bs) : List.Forall₂ Q (ks.map some) (bs.map f) := by
  induction hb with
  | nil => exact .nil
  | cons hb _ ih => exact .cons (h _ _ hb) ih

theorem extendedSim_fresh (env : NoiseEnv τ) (lab : Labelling) : ScanSimFresh (noiseMemory τ) [0, 1, 2] [3, 4] [6] (extendedSim env lab) :=
  ⟨fun _ h => ideal_same (some defaultIdeal) lab _ h, forall2_some (fun _ _ => occ_fresh_beside) (default_occ_fresh env),
    forall2_some (fun _ _ => sig_fresh_beside) (default_pot_fresh env),
    forall2_some (fun _ _ => sig_fresh_beside) (.cons (white_fresh white_placed (onGens_draw white_untouched _) fun _ _ =>
      onGens_draw white_untouched _) .nil)⟩

/-! ### Sampled configurations -/

/-- The key of the object of a sampled distortion. -/
def occKey : OccDistortion → Fin 7
  | .fermiDirac _ => 0
  | .dotJumps _ _ _ axis => if axis = 0 then 1 else 2

/-- The key of the object of a sampled distortion of the potential. -/
def potKey : SigDistortion → Fin 7
  | .pinkNoise _ => 3
  | .whiteNoise _ => 6
  | .telegraph .. => 4

/-- The key of the object of a sampled distortion of the response. -/
def respKey : SigDistortion → Fin 7
  | .pinkNoise _ => 3
  | .whiteNoise _ => 6
  | .telegraph .. => 5

theorem sampled_occ_fresh (env : SampledEnv τ) (d : OccDistortion) : OccFresh (noiseMemory τ) (occKey d) (env.occDist d) := by
  cases d with
  | fermiDirac sigma => exact blur_fresh' blur_placed (onGens_draw blur_untouched _)
  | dotJumps ratio scale lam axis =>
    unfold SampledEnv.occDist occKey
    dsimp only
    by_cases h : axis = 0
    · rw [if_pos h, if_pos h]
      exact dotJumps_fresh jumps0_placed (rng_draw jumps0_untouched _) (.pure _) (.pure _)
    · rw [if_neg h, if_neg h]
      exact dotJumps_fresh jumps1_placed (rng_draw jumps1_untouched _) (.pure _) (.pure _)

theorem sampled_pot_fresh (env : SampledEnv τ) (d : SigDistortion) : SigFresh (noiseMemory τ) (potKey d) (env.potDist d) := by
  cases d with
  | pinkNoise sigma => exact white_fresh pink_placed (onGens_draw pink_untouched _) fun _ _ => onGens_draw pink_untouched _
  | whiteNoise sigma => exact white_fresh white_placed (onGens_draw white_untouched _) fun _ _ => onGens_draw white_untouched _
  | telegraph scale std height ratio => exact rtn_fresh potRtn_placed (rng_draw potRtn_untouched _) (.pure _) (.pure _) (.pure _)

theorem sampled_resp_fresh (env : SampledEnv τ) (d : SigDistortion) : SigFresh (noiseMemory τ) (respKey d) (env.respDist d) := by
  cases d with
  | pinkNoise sigma => exact white_fresh pink_placed (onGens_draw pink_untouched _) fun _ _ => onGens_draw pink_untouched _
  | whiteNoise sigma => exact white_fresh white_placed (onGens_draw white_untouched _) fun _ _ => onGens_draw white_untouched _
  | telegraph scale std height ratio => exact rtn_fresh respRtn_placed (rng_draw respRtn_untouched _) (.pure _) (.pure _) (.pure _)

theorem sampled_generic_fresh (env : SampledEnv τ) (lab : Labelling) (c : SampledConfig) (d : SensorGeneric) : SimFresh (noiseMemory τ)
    (c.occ.map occKey) (c.pot.map potKey) (c.resp.map respKey) (c.genericSim env lab d) :=
  ⟨fun _ h => ideal_same (some c.ideal) lab _ h, ⟨_, generic_fresh _⟩, forall2_map _ _ (sampled_occ_fresh env) _,
    forall2_map _ _ (sampled_pot_fresh env) _, forall2_map _ _ (sampled_resp_fresh env) _⟩

theorem sampled_scan_fresh (env : SampledEnv τ) (lab : Labelling) (c : SampledConfig) (d : ScanSensor) : ScanSimFresh (noiseMemory τ)
    (c.occ.map occKey) (c.pot.map potKey) (c.resp.map respKey) (c.scanSim env lab d) :=
  ⟨fun _ h => ideal_same (some c.ideal) lab _ h,
    forall2_some (fun _ _ => occ_fresh_beside) (forall2_map _ _ (sampled_occ_fresh env) _),
    forall2_some (fun _ _ => sig_fresh_beside) (forall2_map _ _ (sampled_pot_fresh env) _),
    forall2_some (fun _ _ => sig_fresh_beside) (forall2_map _ _ (sampled_resp_fresh env) _)⟩

/-- The generators are in the same state. -/
def SameNoise (s t : Option ScanState × NoiseState τ) : Prop := s.2.gens = t.2.gens

theorem sampled_measure_same (env : SampledEnv τ) (lab : Labelling) (c : SampledConfig) (rq : Request) :
    Same SameNoise SameNoise SameNoise (c.measure env lab rq) (c.measure env lab rq) := by
  unfold SampledConfig.measure
  cases c.sensor with
  | generic d => exact (onRest_same (measure_same (sampled_generic_fresh env lab c d) rq)).mono (fun _ _ h => h) (fun _ _ h => h.1) fun _ _ h => h
  | scan d => exact (measure_same (sampled_scan_fresh env lab c d).csd rq).mono (fun _ _ h => h) (fun _ _ h => h.1) fun _ _ h => h

theorem sampled_measureScan_same (env : SampledEnv τ) (lab : Labelling) (c : SampledConfig) (rq : ScanRequest) :
    Same SameNoise SameNoise SameNoise (c.measureScan env lab rq) (c.measureScan env lab rq) := by
  unfold SampledConfig.measureScan
  cases c.sensor with
  | generic d => exact .raise _ fun _ _ h => h
  | scan d => exact (measureScan_same (sampled_scan_fresh env lab c d) rq).mono (fun _ _ h => h) (fun _ _ h => h.1) fun _ _ h => h

/-! ### Simulations without distortions -/

/-- Nothing is compared. -/
def anyMemory (σ : Type) : Memory σ Empty := ⟨fun _ _ => True, fun _ _ _ => True⟩

theorem map_getD_nil {α β : Type} {l : Option (List α)} {f : α → β} (h : l.getD [] = []) : (l.map fun l => l.map f).getD [] = [] := by
  cases l with
  | none => rfl
  | some l =>
    have h : l = [] := h
    rw [h]
    rfl

theorem plain_call {sim : AnySim τ} (h : Spec.Undistorted sim) (lab : Labelling) (c : MeasureCall) :
    Same (fun _ _ => True) (fun _ _ => True) (fun _ _ => True) (sim.call lab c) (sim.call lab c) := by
  obtain ⟨h1, h2, h3⟩ := h
  have hg : ∀ d, SimFresh (anyMemory (ObjState τ)) [] [] [] (sim.generic lab d) := fun d => ⟨ideal_same sim.ideal lab, ⟨_, generic_fresh d⟩, by
      rw [show (sim.generic lab d).occD.getD [] = [] from map_getD_nil h1]; exact .nil, by
      unfold AllFresh; rw [show (sim.generic lab d).potD.getD [] = [] from map_getD_nil h2]; exact .nil, by
      unfold AllFresh; rw [show (sim.generic lab d).respD.getD [] = [] from map_getD_nil h3]; exact .nil⟩
  have hs : ∀ d, ScanSimFresh (anyMemory (ObjState τ)) [] [] [] (sim.scan lab d) := fun d => ⟨ideal_same sim.ideal lab, by
      rw [show (sim.scan lab d).occD.getD [] = [] by simp only [AnySim.scan, List.map_map]; exact map_getD_nil h1]; exact .nil, by
      unfold AllFresh; rw [show (sim.scan lab d).potD.getD [] = [] by simp only [AnySim.scan, List.map_map]; exact map_getD_nil h2]; exact .nil, by
      unfold AllFresh; rw [show (sim.scan lab d).respD.getD [] = [] by simp only [AnySim.scan, List.map_map]; exact map_getD_nil h3]; exact .nil⟩
  cases c with
  | csd rq =>
    refine Same.bind (R' := fun _ _ => True) ?_ fun _ => .pure _ fun _ _ h => h
    unfold AnySim.measure
    cases sim.sensor with
    | generic d => exact (onRest_same (measure_same (hg d) rq)).mono (fun _ _ h => h) (fun _ _ _ => trivial) fun _ _ h => h
    | scan d => exact (measure_same (hs d).csd rq).mono (fun _ _ h => h) (fun _ _ _ => trivial) fun _ _ h => h
  | scan rq =>
    refine Same.bind (R' := fun _ _ => True) ?_ fun _ => .pure _ fun _ _ h => h
    unfold AnySim.measureScan
    cases sim.sensor with
    | generic d => exact .raise _ fun _ _ h => h
    | scan d => exact (measureScan_same (hs d) rq).mono (fun _ _ h => h) (fun _ _ _ => trivial) fun _ _ h => h

/-! ### Programs and reports -/

theorem callAll_same (lab : Labelling) : ∀ (cs : List (AnySim τ × MeasureCall)) (s t : SimState τ), SameGens s t →
    (callAll lab cs s).1 = (callAll lab cs t).1 ∧ SameGens (callAll lab cs s).2 (callAll lab cs t).2
  | [], _, _, h => ⟨rfl, h⟩
  | (sim, c) :: cs, s, t, h => by
    have hc := anySim_call sim lab c s t h
    have ih := callAll_same lab cs _ _ (hc.after (fun _ _ h => h) fun _ _ h => h)
    unfold callAll
    exact ⟨congrArg₂ List.cons hc.fst ih.1, ih.2⟩

theorem occReport_eq {d : OccObject τ} {K : Set (Fin 3 × ℕ)} (hd : d.key ∈ K) {s t : SimState τ} (h : SameObjects K s t) :
    Spec.occReport s d = Spec.occReport t d := by
  have h := h.2 _ hd
  cases d with
  | fermi i sigma => exact congrArg (·, none) h
  | gauss i sigma => exact congrArg (·, none) h
  | jumps i scale lam axis ratio rng np2 nan => exact congrArg (none, ·) (show DotAgree _ _ from h).1

theorem sigReport_eq {d : SigObject τ} {K : Set (Fin 3 × ℕ)} (hd : d.key ∈ K) {s t : SimState τ} (h : SameObjects K s t) :
    Spec.sigReport s d = Spec.sigReport t d := by
  have h := h.2 _ hd
  cases d with
  | additive i sigma noise => exact congrArg (·, none) h
  | rtn i scale std height ratio rng => exact congrArg (none, ·) h

/-! ### A concrete program -/

/-- A blurring whose width is counted by the generator. -/
noncomputable def countingBlur : OccObject ℕ := .fermi 0 fun n => (.ok (n : ℝ), n + 1)

/-- The default configuration with a blurring whose width is counted by the generator: 0, 1, 2, ... -/
noncomputable def countingSim : AnySim ℕ where
  lim := ⟨none, none, none, none⟩
  ideal := some defaultIdeal
  sensor := .generic defaultSensor
  occ := some [countingBlur]
  pot := none
  resp := none

/-- A 1D scan. -/
noncomputable def countingRequest : Request := ⟨[-0.2, -0.1], [-0.2, -0.1], none, none, .int (10 : ℕ)⟩

theorem counting_measure (lab : Labelling) (p : Option ScanState) (o : ObjState ℕ) (h0 : o.gens = 0) : ∃ out,
    countingSim.measure lab countingRequest (p, o) = (.ok out, (p, { o with sigma := Function.update o.sigma 0 (some 0), gens := 1 })) := by
  have hl : Line (-0.2, -0.1) (-0.2, -0.1) 10 := ⟨by norm_num, by norm_num, by norm_num, Or.inl (by norm_num)⟩
  obtain ⟨c, l, s', hg, hs'⟩ := (ideal_serves lab o).one (-0.2, -0.1) (-0.2, -0.1) 10 o rfl hl
  subst s'
  obtain ⟨f, hf⟩ := generic_pot1d defaultSensor (g1 := (-0.2, -0.1)) (g2 := (-0.2, -0.1)) (n := 10) (by norm_num) c
  refine ⟨(defaultSensor.response (.d1 10 f), .d1 10 c, .d1 10 l), ?_⟩
  have hc : measureCheck (countingSim.generic lab defaultSensor).lim (countingSim.generic lab defaultSensor).gen.isSome countingRequest =
      .ok ((-0.2, -0.1), (-0.2, -0.1)) := by
    simp [measureCheck, countingSim, AnySim.generic, countingRequest, rangeOutside, sensorOutside, valueOutside, resCheck]
  have hb : countingBlur.dist (.d1 10 c, .d1 10 l) (-0.2, -0.1) (-0.2, -0.1) (idealGen defaultIdeal lab) false o =
      (.ok (.d1 10 c, .d1 10 l), { o with sigma := Function.update o.sigma 0 (some 0), gens := 1 }) := by
    have hd : drawing (fun n : ℕ => ((.ok (n : ℝ) : Py ℝ), n + 1)) o = (.ok 0, { o with gens := 1 }) := by
      unfold drawing
      simp only [h0]
      norm_num
    show (sigmaSlot ℕ 0).run ((fermiBlur (drawing fun n : ℕ => ((.ok (n : ℝ) : Py ℝ), n + 1))).noiseFunction (.d1 10 c, .d1 10 l) (-0.2, -0.1) (-0.2, -0.1)
      (fun v1 v2 res => (sigmaSlot ℕ 0).inner (idealGen defaultIdeal lab v1 v2 res)) false) o = _
    refine run_of (sigmaSlot ℕ 0) (p := (some 0, { o with gens := 1 })) ?_ rfl
    unfold Blur.noiseFunction Blur.sample
    rw [if_neg Bool.false_ne_true, bind_assoc]
    have h1 : onRest (fermiBlur (drawing fun n : ℕ => ((.ok (n : ℝ) : Py ℝ), n + 1))).sigma ((sigmaSlot ℕ 0).get o, o) =
        (.ok 0, ((sigmaSlot ℕ 0).get o, { o with gens := 1 })) := onRest_eq (D := Option ℝ) hd ((sigmaSlot ℕ 0).get o)
    rw [M.step h1, M.step (M.pure_run _ _), M.step (setOwn_run _ _ _)]
    simp only [ofPy_run, Blur.apply, lt_irrefl, if_false]
  unfold AnySim.measure
  show onRest (measure (countingSim.generic lab defaultSensor) countingRequest) (p, o) = _
  refine onRest_eq ?_ p
  unfold measure
  rw [hc]
  show measureRun (countingSim.generic lab defaultSensor) (idealGen defaultIdeal lab) countingRequest (-0.2, -0.1) (-0.2, -0.1) o = _
  unfold measureRun
  rw [M.step (show idealGen defaultIdeal lab (-0.2, -0.1) (-0.2, -0.1) countingRequest.res o = _ from hg)]
  have ha : applyOcc (-0.2, -0.1) (-0.2, -0.1) ((countingSim.generic lab defaultSensor).occD.getD []) (idealGen defaultIdeal lab)
      (.d1 10 c, .d1 10 l) o = (.ok ((.d1 10 c, .d1 10 l), withNoise (idealGen defaultIdeal lab) (countingBlur.dist)),
        { o with sigma := Function.update o.sigma 0 (some 0), gens := 1 }) := by
    show applyOcc _ _ [countingBlur.dist] _ _ _ = _
    unfold applyOcc
    rw [M.step hb]
    rfl
  rw [M.step ha]
  have hp : (countingSim.generic lab defaultSensor).sensor.potential (.d1 10 c) (-0.2, -0.1) (-0.2, -0.1) none
      { o with sigma := Function.update o.sigma 0 (some 0), gens := 1 } =
      (.ok (.single (.d1 10 f)), { o with sigma := Function.update o.sigma 0 (some 0), gens := 1 }) := by
    show (match defaultSensor.potential (.d1 10 c) (-0.2, -0.1) (-0.2, -0.1) with
      | .ok p => (pure (Pot.single p) : M (ObjState ℕ) Pot) | .error e => M.raise e) _ = _
    rw [hf]
    rfl
  have hp' : (countingSim.generic lab defaultSensor).sensor.potential (.d1 10 c) (-0.2, -0.1) (-0.2, -0.1)
      (if (countingSim.generic lab defaultSensor).sensor.scan then some (countingRequest.s1, countingRequest.s2) else none)
      { o with sigma := Function.update o.sigma 0 (some 0), gens := 1 } =
      (.ok (.single (.d1 10 f)), { o with sigma := Function.update o.sigma 0 (some 0), gens := 1 }) := hp
  rw [M.step hp']
  rfl

end SimCATS
