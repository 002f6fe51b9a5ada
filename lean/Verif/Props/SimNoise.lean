import Verif.Lemmas.SimNoise
import Verif.Props.SimObjects

/-!
C79: no random number is used twice.
C80: the metadata of a measurement allow to repeat it.
-/

namespace SimCATS

/-! ### C79 -/

/-- Simulations created one after the other from the same arguments use the same random numbers in their measurements, whatever
else the program does. -/
theorem C79_simulations_actual (p q : List SStmt) (args : SimAttr → Option OExpr) (vals : SimAttr → OVal)
    (hv : ∀ a, (SimWorld.init.exec p).ctorVals args a = some (vals a))
    (hok : ∀ a, Spec.Accepted (SimWorld.init.exec p).heap a (vals a))
    (hq : let s := (SimWorld.init.exec p).sims.length
      ∀ c ∈ q, ∀ t, t = s ∨ t = s + 1 → ¬ Spec.Gets t c ∧ ¬ Spec.Sets t c ∧ ¬ Spec.Measures t c)
    (scan : Bool) (args1 args2 : List OExpr) (code : Code) (fuel : ℕ) (ok1 ok2 : Bool) (vs1 vs2 : List OVal)
    (h1 : OExpr.evals (SimWorld.init.exec (p ++ [.newSim args, .newSim args] ++ q)).vars args1 = some vs1)
    (h2 : OExpr.evals (SimWorld.init.exec (p ++ [.newSim args, .newSim args] ++ q)).vars args2 = some vs2) :
    let s := (SimWorld.init.exec p).sims.length
    let w := SimWorld.init.exec (p ++ [.newSim args, .newSim args] ++ q)
    ∃ L : List (ℝ × ℝ), (w.exec [.measure s scan args1 code fuel ok1, .measure (s + 1) scan args2 code fuel ok2]).log =
      w.log ++ L.map (fun d => (some s, d)) ++ L.map (fun d => (some (s + 1), d)) := by
  intro s w3
  have g := guarded_reachable p
  have hw3 : w3 = ((SimWorld.init.exec p).exec [.newSim args, .newSim args]).exec q := by
    simp only [w3, exec_append]
  rw [← show w3 = SimWorld.init.exec (p ++ [.newSim args, .newSim args] ++ q) from rfl] at h1 h2
  clear_value w3
  have hg1 : Guarded ((SimWorld.init.exec p).exec [.newSim args]) (fun _ => False) (fun _ => False) (fun _ _ => False) := by
    have := guarded_reachable (p ++ [.newSim args])
    rwa [exec_append] at this
  have hs : s = (SimWorld.init.exec p).sims.length := rfl
  replace hq : ∀ c ∈ q, ∀ t, t = s ∨ t = s + 1 → ¬ Spec.Gets t c ∧ ¬ Spec.Sets t c ∧ ¬ Spec.Measures t c := hq
  clear_value s
  generalize SimWorld.init.exec p = w at *
  -- the two constructor calls
  have hb : ∀ a r, vals a = .ref r → r < w.heap.length := fun a r hr => ctorVals_bound g args (hv a) r hr
  have acc1 := (newSim_accepts g hv).2 hok
  have r1 := newSim_run g hv
  obtain ⟨⟨H1, o1⟩, c1⟩ := (construct_iff g.part hb SimAttr.all).2 fun a _ => hok a
  rw [c1] at r1
  have e1 : w.exec [.newSim args] = ⟨H1, w.vars, w.sims ++ [o1], w.log⟩ := by
    rw [exec_cons, r1]; rfl
  rw [e1] at hg1
  have p1 := construct_prefix c1
  have hv1 : ∀ a, (SimWorld.mk H1 w.vars (w.sims ++ [o1]) w.log).ctorVals args a = some (vals a) := hv
  obtain ⟨⟨H2, o2⟩, c2⟩ := (construct_iff hg1.part (fun a r hr => lt_of_lt_of_le (hb a r hr) p1.length_le) SimAttr.all).2
    fun a _ => (accepted_extend g.part p1 (hb a)).2 (hok a)
  have r2 := newSim_run hg1 hv1
  simp only at r2
  rw [c2] at r2
  have e2 : w.exec [.newSim args, .newSim args] = ⟨H2, w.vars, w.sims ++ [o1] ++ [o2], w.log⟩ := by
    rw [exec_cons, exec_cons, r1]
    simp only
    rw [r2]; rfl
  obtain ⟨B, cB, mB, _⟩ := construct_joint g.part hb SimAttr.all (List.prefix_refl _) p1 c1 c2
  have j12 : Spec.SameAll H1 o1 H2 o2 := ⟨B, cB, mB⟩
  -- the rest of the program
  have notNew : ∀ t, ¬ Spec.Gets t (.newSim args) ∧ ¬ Spec.Sets t (.newSim args) ∧ ¬ Spec.Measures t (.newSim args) := by
    intro t
    refine ⟨?_, ?_, ?_⟩
    · rintro ⟨a, h⟩; exact nomatch h
    · rintro ⟨a, e, h⟩; exact nomatch h
    · rintro ⟨_, _, _, _, _, h⟩; exact nomatch h
  have i1 := isolated_of (w := w) g (s := s) hs.ge [.newSim args] (.newSim args :: q) (by
      intro c hc
      simp only [List.cons_append, List.nil_append, List.mem_cons] at hc
      rcases hc with rfl | rfl | hc
      · exact (notNew s).1
      · exact (notNew s).1
      · exact (hq c hc s (Or.inl rfl)).1) (by
      intro c hc
      rcases List.mem_cons.1 hc with rfl | hc
      · exact (notNew s).2
      · exact (hq c hc s (Or.inl rfl)).2) (o := o1) (by rw [e1, hs]; simp)
  have x1 : (w.exec [.newSim args]).exec (.newSim args :: q) = w3 := by
    rw [hw3]; rfl
  rw [x1, e1] at i1
  have i2 : ∀ l : List SStmt, (∀ c ∈ l, ¬ Spec.Gets (s + 1) c ∧ ¬ Spec.Sets (s + 1) c ∧ ¬ Spec.Measures (s + 1) c) →
      (w3.exec l).sims[s + 1]? = some o2 ∧ Spec.SameAll H2 o2 (w3.exec l).heap o2 := by
    intro l hl
    have := isolated_of (w := w) g (s := s + 1) (by omega) [.newSim args, .newSim args] (q ++ l) (by
      intro c hc
      simp only [List.cons_append, List.nil_append, List.mem_cons, List.mem_append] at hc
      rcases hc with rfl | rfl | hc | hc
      · exact (notNew _).1
      · exact (notNew _).1
      · exact (hq c hc _ (Or.inr rfl)).1
      · exact (hl c hc).1) (by
      intro c hc
      rcases List.mem_append.1 hc with hc | hc
      · exact (hq c hc _ (Or.inr rfl)).2
      · exact (hl c hc).2) (o := o2) (by rw [e2, hs]; simp)
    rw [exec_append, ← hw3, e2] at this
    exact this
  -- the measurements
  have i2' := i2 [.measure s scan args1 code fuel ok1] (by
    intro c hc
    rw [List.mem_singleton.1 hc]
    refine ⟨?_, ?_, ?_⟩
    · rintro ⟨a, h⟩; exact nomatch h
    · rintro ⟨a, e, h⟩; exact nomatch h
    · rintro ⟨_, _, _, _, _, h⟩
      cases h)
  have j := sameAll_trans (sameAll_trans (sameAll_symm i1.2) j12) i2'.2
  rw [exec_cons]
  change ∃ L : List (ℝ × ℝ), ((w3.exec [.measure s scan args1 code fuel ok1]).exec [.measure (s + 1) scan args2 code fuel ok2]).log = _
  have hev := evals_prefix (exec_vars [.measure s scan args1 code fuel ok1] w3) h2
  have m1 := measure_log (scan := scan) (code := code) (fuel := fuel) (ok := ok1) i1.1 h1
  have m2 := measure_log (scan := scan) (code := code) (fuel := fuel) (ok := ok2) i2'.1 hev
  have x4 : w3.exec [.measure s scan args1 code fuel ok1] = ((SStmt.measure s scan args1 code fuel ok1).run w3).2 := rfl
  by_cases hst : Starts w3 o1 scan
  · obtain ⟨B', cB', vB'⟩ := start_corr j
    obtain ⟨_, _, _, L, l1, l2⟩ := Code.run_corr code fuel [] cB' vB'
    refine ⟨L, ?_⟩
    rw [exec_cons]
    show ((SStmt.measure (s + 1) scan args2 code fuel ok2).run _).2.log = _
    rw [m2.1 ((starts_same j scan).1 hst), l2]
    rw [x4, m1.1 hst, l1]
    rfl
  · refine ⟨[], ?_⟩
    rw [exec_cons]
    show ((SStmt.measure (s + 1) scan args2 code fuel ok2).run _).2.log = _
    rw [m2.2 (fun h => hst ((starts_same j scan).2 h))]
    rw [x4, m1.2 hst]
    simp

theorem demo_measure_log : (SimWorld.init.exec (demo ++ [.measure 0 false [] demoCode 6 true])).log = [(some 0, 7, 0), (some 0, 7, 0)] := by
  obtain ⟨h, o, n, m, e, _, hi, a1, a2, a3, a4, b1, b2, b3, b4, hnm⟩ := demo_made
  rw [exec_append, e]
  show ((SStmt.measure 0 false [] demoCode 6 true).run _).2.log = _
  have := measure_log (w := ⟨h, demoVars, [o], []⟩) (s := 0) (scan := false) (args := []) (code := demoCode) (fuel := 6) (ok := true)
    (o := o) (vs := []) rfl rfl
  rw [this.1 (Or.inr ⟨rfl, hi⟩)]
  have lk : ∀ (r : ℕ) (x : OObj), h[r]? = some x → (h ++ h.map (OObj.shift h.length))[r]? = some x := by
    intro r x hx
    rw [List.getElem?_append_left (List.getElem?_eq_some_iff.1 hx).1]; exact hx
  rw [demoCode_log _ ((o .ideal).shift h.length) (o .sensor) (o .potD) n m 0 (by simp only [SimWorld.start, a1, b1, deepcopy])
    (lk _ _ a2) (lk _ _ a3) (lk _ _ a4) (lk _ _ b2) (lk _ _ b3) (lk _ _ b4) hnm]
  rfl

/-- Two distortions of one simulation that are made with the same generator draw the same random numbers, if they belong to
different stages: each list of distortions is copied separately, together with its generators. -/
theorem C79_stages_refuted : ∃ p, Spec.OwnSeeds p ∧ (SimWorld.init.exec p).log = [(some 0, 7, 0), (some 0, 7, 0)] := by
  refine ⟨_, ⟨?_, ?_⟩, demo_measure_log⟩
  · simp [Spec.seedsOf, demo, demoSetup]
  · rintro c hc s scan args code fuel ok rfl
    simp [demo, demoSetup] at hc
    rw [hc.2.2.2.1]
    exact demoCode_keeps

theorem demo_two_log : (SimWorld.init.exec (demoSetup ++ [.newSim demoArgs, .newSim demoArgs] ++
    [.measure 0 false [] demoCode1 3 true, .measure 1 false [] demoCode1 3 true])).log = [(some 0, 7, 0), (some 1, 7, 0)] := by
  obtain ⟨L, hL⟩ := C79_simulations_actual demoSetup [] demoArgs demoVals
    (demo_vals _ (by rw [demo_setup]; exact List.prefix_refl _)) (by rw [demo_setup]; exact demo_accepted)
    (by intro s c hc; exact absurd hc List.not_mem_nil) false [] [] demoCode1 3 true true [] [] rfl rfl
  rw [List.append_nil, ← exec_append] at hL
  have hlen : (SimWorld.init.exec demoSetup).sims.length = 0 := by rw [demo_setup]; rfl
  rw [hlen] at hL
  -- the first measurement
  obtain ⟨h, o, n, m, e, hpre, hi, a1, a2, a3, a4, _⟩ := demo_made
  have g := guarded_reachable demo
  have e2 : SimWorld.init.exec (demoSetup ++ [.newSim demoArgs, .newSim demoArgs]) =
      ((SStmt.newSim demoArgs).run (SimWorld.init.exec demo)).2 := by
    rw [show demoSetup ++ [.newSim demoArgs, .newSim demoArgs] = demo ++ [.newSim demoArgs] by simp [demo], exec_append]; rfl
  obtain ⟨k1, _, k2⟩ := C77_constructed demo demoArgs demoVals (demo_vals _ (by rw [e]; exact List.prefix_refl _))
  obtain ⟨o2, k3, k4, k5, _⟩ := k2 (k1.2 (by
    intro a
    rw [e]
    exact (accepted_extend (by have := guarded_reachable demoSetup; rw [demo_setup] at this; exact this.part) hpre (by
      intro r hr
      cases a <;> simp only [demoVals] at hr
      all_goals cases hr
      all_goals simp [demoHeap])).2 (demo_accepted a)))
  have k6 : ((SStmt.newSim demoArgs).run (SimWorld.init.exec demo)).2.log = [] := by
    obtain ⟨t, L', hL', ht⟩ := (SStmt.newSim demoArgs).run_log (SimWorld.init.exec demo)
    rw [newSim_run g (demo_vals _ (by rw [e]; exact List.prefix_refl _))]
    split <;> rw [e]
  rw [← e2] at k3 k4 k5 k6
  rw [e] at k3 k4 k5
  have m1 := measure_log (w := SimWorld.init.exec (demoSetup ++ [.newSim demoArgs, .newSim demoArgs])) (s := 0) (scan := false)
    (args := []) (code := demoCode1) (fuel := 3) (ok := true) (o := o) (vs := []) (by rw [k3]; rfl) rfl
  replace m1 := m1.1 (Or.inr ⟨rfl, hi⟩)
  have lk : ∀ (r : ℕ) (x : OObj), h[r]? = some x →
      ((SimWorld.init.exec (demoSetup ++ [.newSim demoArgs, .newSim demoArgs])).start o).heap[r]? = some x := by
    intro r x hx
    obtain ⟨t, ht⟩ := k5
    have hlt := (List.getElem?_eq_some_iff.1 hx).1
    show (_ ++ _)[r]? = _
    rw [← ht, List.getElem?_append_left (by simp only [List.length_append]; omega), List.getElem?_append_left hlt]; exact hx
  rw [demoCode1_log _ _ (o .sensor) (o .potD) (o .respD) (6 + n) (5 + n) (4 + n) 7 0 (by simp only [SimWorld.start, a1]; rfl)
    (lk _ _ a2) (lk _ _ a3) (lk _ _ a4), k6] at m1
  -- the numbers of the first simulation
  obtain ⟨t, L', hL', ht⟩ := (SStmt.measure 1 false [] demoCode1 3 true).run_log
    ((SStmt.measure 0 false [] demoCode1 3 true).run (SimWorld.init.exec (demoSetup ++ [.newSim demoArgs, .newSim demoArgs]))).2
  have hx : (SimWorld.init.exec (demoSetup ++ [.newSim demoArgs, .newSim demoArgs] ++
      [.measure 0 false [] demoCode1 3 true, .measure (0 + 1) false [] demoCode1 3 true])).log = [(some 0, 7, 0)] ++ L'.map fun d => (t, d) := by
    rw [exec_append, exec_cons, exec_cons]
    show ((SStmt.measure 1 false [] demoCode1 3 true).run _).2.log = _
    rw [hL', m1]
    rfl
  have hx2 := hx
  rw [hL, k6] at hx
  have key := congrArg (Spec.numbersOf (· = 0)) hx
  simp only [List.nil_append, numbersOf_append] at key
  rw [(numbersOf_tag (· = 0) _ L).1 ⟨0, rfl, rfl⟩, (numbersOf_tag (· = 0) (some (0 + 1)) L).2 (by simp), (numbersOf_tag (· = 0) t L').2 (by
    rintro ⟨s, hs, rfl⟩
    obtain ⟨_, _, _, _, _, hm⟩ := ht s rfl
    subst hs
    simp at hm)] at key
  simp [Spec.numbersOf] at key
  rw [hL, k6, key]
  rfl

/-- Two simulations made from the same distortion draw the same random numbers: each has a copy of its generator. -/
theorem C79_simulations_refuted : ∃ p, Spec.OwnSeeds p ∧ (SimWorld.init.exec p).log = [(some 0, 7, 0), (some 1, 7, 0)] := by
  refine ⟨_, ⟨?_, ?_⟩, demo_two_log⟩
  · simp [Spec.seedsOf, demoSetup]
  · rintro c hc s scan args code fuel ok rfl
    have : code = demoCode1 := by
      simp [demoSetup] at hc
      rcases hc with hc | hc
      · exact hc.2.2.2.1
      · exact hc.2.2.2.1
    rw [this]
    intro seen seed h
    have := List.mem_of_getElem? h
    simp at this

/-- It is not true that no random number is used twice in measurements if all generators of a program have different seeds. -/
theorem C79_refuted : ¬ ∀ p, Spec.OwnSeeds p → (Spec.numbersOf (fun _ => True) (SimWorld.init.exec p).log).Nodup := by
  intro h
  obtain ⟨p, hp, hl⟩ := C79_stages_refuted
  have := h p hp
  rw [hl] at this
  simp [Spec.numbersOf] at this

/-- If the generators that the components of simulations can reach all have different seeds, no random number is used twice in their
measurements.  (In particular the copies must not be made from the same generator.)  Missing to the full property: seeds that differ
only between the generators the program creates. -/
theorem C79_partial (p q : List SStmt) (S : ℕ → Prop) (made : ∀ s, S s → s < (SimWorld.init.exec p).sims.length)
    (hg : ∀ c ∈ p ++ q, ∀ s, S s → ¬ Spec.Gets s c) (hset : ∀ c ∈ q, ∀ s, S s → ¬ Spec.Sets s c)
    (hcode : ∀ c ∈ q, ∀ s scan args code fuel ok, S s → c = .measure s scan args code fuel ok → Spec.KeepsGenerators code)
    (noGen : ∀ s o, S s → (SimWorld.init.exec p).sims[s]? = some o → Spec.NoGenerator (SimWorld.init.exec p).heap (o .ideal))
    (seeds : Spec.DistinctSeeds (SimWorld.init.exec p).heap (Spec.Components (SimWorld.init.exec p) S)) :
    ∃ L, (SimWorld.init.exec (p ++ q)).log = (SimWorld.init.exec p).log ++ L ∧ (Spec.numbersOf S L).Nodup := by
  obtain ⟨P, P2, hi⟩ := noiseInv_start p S (fun c hc => hg c (List.mem_append_left _ hc)) made noGen seeds
  obtain ⟨_, _, L, hi', hL⟩ := hi.exec q (fun c hc => hg c (List.mem_append_right _ hc)) hset hcode
  rw [exec_append]
  exact ⟨L, hL, by simpa using hi'.fresh.nodup⟩

/-- A simulation with one distortion and one generator, measured twice. -/
example : ∃ L, (SimWorld.init.exec (demoSetup ++ [.newSim quietArgs] ++
    [.measure 0 false [] demoCode1 3 true, .measure 0 false [] demoCode1 3 true])).log = [] ++ L ∧ (Spec.numbersOf (· = 0) L).Nodup := by
  obtain ⟨h, o, n, ni, ns, e, _⟩ := quiet_made
  have := C79_partial (demoSetup ++ [.newSim quietArgs]) [.measure 0 false [] demoCode1 3 true, .measure 0 false [] demoCode1 3 true]
    (· = 0) (by rintro s rfl; rw [e]; simp)
    (by
      rintro c hc s rfl
      simp [demoSetup] at hc
      rcases hc with h | h | h | h | h | h | h | h <;> subst h <;> simp [Spec.Gets])
    (by rintro c hc s rfl; simp at hc; subst hc; simp [Spec.Sets])
    (by
      rintro c hc s scan args code fuel ok rfl rfl seen seed h
      simp at hc
      rw [hc.2.2.1] at h
      have := List.mem_of_getElem? h
      simp at this) quiet_seeds.2 quiet_seeds.1
  rw [e] at this
  exact this

/-! ### C80 -/

/-- A simulation that is created from the metadata has, attribute by attribute, the content that the configuration has after the
measurement. -/
theorem C80_actual (p : List SStmt) (s : ℕ) (scan : Bool) (args : List OExpr) (code : Code) (fuel : ℕ) (o : SimObj) (vs : List OVal)
    (ho : (SimWorld.init.exec p).sims[s]? = some o) (hvs : OExpr.evals (SimWorld.init.exec p).vars args = some vs)
    (hok : ((SStmt.measure s scan args code fuel true).run (SimWorld.init.exec p)).1 = .ok ())
    (hacc : ∀ a, Spec.Accepted (SimWorld.init.exec (p ++ [.measure s scan args code fuel true])).heap a (o a)) :
    let w := SimWorld.init.exec (p ++ [.measure s scan args code fuel true])
    let w' := w.exec (Spec.rebuild (SimWorld.init.exec p).vars.length vs.length)
    ∃ o', w'.sims = (SimWorld.init.exec p).sims ++ [o'] ∧ w'.log = w.log ∧ ∀ a, Spec.Stored w.heap a (o a) w'.heap (o' a) := by
  obtain ⟨hsims, r, fs, hvars, hr, hf⟩ := C78_content p s scan args code fuel true o vs ho hvs hok
  have hw : SimWorld.init.exec (p ++ [.measure s scan args code fuel true]) =
      ((SStmt.measure s scan args code fuel true).run (SimWorld.init.exec p)).2 := by
    rw [exec_append]; rfl
  rw [← hw] at hsims hvars hr hf
  generalize hW : SimWorld.init.exec (p ++ [.measure s scan args code fuel true]) = w at *
  intro w1 w'
  have hlen : fs.length = vs.length + 9 := by
    rw [← hf.length_eq]; simp [SimAttr.all]
  have ent : ∀ a, ∃ v, fs[vs.length + Spec.pos a]? = some v ∧ Spec.Same w.heap (o a) w.heap v := by
    intro a
    rcases forall₂_getElem? hf (vs.length + Spec.pos a) with ⟨_, hn⟩ | ⟨x, y, h1, h2, h3⟩
    · rw [List.getElem?_eq_none_iff] at hn
      cases a <;> simp [Spec.pos] at hn <;> omega
    · rw [List.getElem?_append_right (by omega), Nat.add_sub_cancel_left] at h1
      have : x = o a := by
        cases a <;> simp [Spec.pos, SimAttr.all] at h1 <;> exact h1.symm
      subst this
      exact ⟨y, h2, h3⟩
  choose g hg1 hg2 using ent
  have loads : w.exec ([0, 1, 2, 3, 4, 5, 6, 7, 8].map fun j => .prim (.load (SimWorld.init.exec p).vars.length (vs.length + j))) =
      ⟨w.heap, w.vars ++ SimAttr.all.map g, w.sims, w.log⟩ :=
    rebuild_loads (by rw [hvars]; simp) hr
      (.cons (hg1 .limG1) (.cons (hg1 .limG2) (.cons (hg1 .limSensorG1) (.cons (hg1 .limSensorG2) (.cons (hg1 .ideal)
        (.cons (hg1 .sensor) (.cons (hg1 .occD) (.cons (hg1 .potD) (.cons (hg1 .respD) .nil)))))))))
  have hw' : w' = ((SStmt.newSim fun a => some (.var ((SimWorld.init.exec p).vars.length + 1 + Spec.pos a))).run
      ⟨w.heap, w.vars ++ SimAttr.all.map g, w.sims, w.log⟩).2 := by
    rw [← loads]
    rfl
  have gd : Guarded ⟨w.heap, w.vars ++ SimAttr.all.map g, w.sims, w.log⟩ (fun _ => False) (fun _ => False) (fun _ _ => False) := by
    rw [← loads, ← hW, ← exec_append]
    exact guarded_reachable _
  have hcv : ∀ a, (SimWorld.mk w.heap (w.vars ++ SimAttr.all.map g) w.sims w.log).ctorVals
      (fun a => some (.var ((SimWorld.init.exec p).vars.length + 1 + Spec.pos a))) a = some (g a) := by
    intro a
    show (w.vars ++ SimAttr.all.map g)[(SimWorld.init.exec p).vars.length + 1 + Spec.pos a]? = some (g a)
    rw [hvars, List.getElem?_append_right (by simp)]
    cases a <;> simp [Spec.pos, SimAttr.all]
  have hb : ∀ a r, g a = .ref r → r < w.heap.length := fun a r hr => ctorVals_bound gd _ (hcv a) r hr
  obtain ⟨⟨H, o'⟩, hc⟩ := (construct_iff gd.part hb SimAttr.all).2 fun a _ => accepted_same (hg2 a) (hacc a)
  rw [newSim_run gd hcv] at hw'
  simp only at hw' hc
  rw [hc] at hw'
  rw [hw']
  refine ⟨o', by rw [← hsims], rfl, fun a => ⟨fun h1 h2 => ?_, fun hne => ?_⟩⟩
  · subst h1
    refine construct_default hc (mem_all _) ?_
    have := hg2 .sensor
    rw [h2] at this
    obtain ⟨B, _, hm⟩ := this
    generalize g .sensor = x at hm
    cases hm
    rfl
  · refine same_trans (hg2 a) (construct_same gd.part hb hc (mem_all a) ?_)
    rintro ⟨h1, h2⟩
    rcases hne with hne | hne
    · exact hne h1
    · have := hg2 a
      rw [h2] at this
      obtain ⟨B, _, hm⟩ := this
      generalize o a = x at hm hne
      cases hm
      exact hne rfl

theorem demo_has_accepted (o : SimObj) (ho : (SimWorld.init.exec demo).sims[0]? = some o) (a : SimAttr) :
    Spec.Accepted (SimWorld.init.exec demo).heap a (o a) := by
  have hv := demo_vals (SimWorld.init.exec demoSetup) (by rw [demo_setup]; exact List.prefix_refl _)
  have hx := C77_constructed demoSetup demoArgs demoVals hv
  have hok' := hx.1.2 (by rw [demo_setup]; exact demo_accepted)
  obtain ⟨o', k1, _, _, k4⟩ := hx.2.2 hok'
  have hd : SimWorld.init.exec demo = ((SStmt.newSim demoArgs).run (SimWorld.init.exec demoSetup)).2 := by
    rw [demo, exec_append]; rfl
  rw [← hd] at k1 k4
  rw [k1, demo_setup] at ho
  cases ho
  rw [demo_setup] at k4
  exact accepted_same ((k4 a).2 (by cases a <;> simp [demoVals])) (demo_accepted a)

/-- A measurement whose distortion draws a random number, and the measurement with a simulation created from its metadata. -/
theorem demo_repeat_log : (∀ o, (SimWorld.init.exec demo).sims[0]? = some o → ∀ a,
      Spec.Accepted (SimWorld.init.exec (demo ++ [.measure 0 false [] demoCode1 3 true])).heap a (o a)) ∧
    ((SStmt.measure 0 false [] demoCode1 3 true).run (SimWorld.init.exec demo)).1 = .ok () ∧
    (SimWorld.init.exec (demo ++ [.measure 0 false [] demoCode1 3 true])).log = [(some 0, 7, 0)] ∧
    (((SimWorld.init.exec (demo ++ [.measure 0 false [] demoCode1 3 true])).exec (Spec.rebuild 6 0)).exec
      [.measure 1 false [] demoCode1 3 true]).log = [(some 0, 7, 0), (some 1, 7, 1)] := by
  obtain ⟨h, o, n, m, e, hpre, hi, a1, a2, a3, a4, _⟩ := demo_made
  have g := guarded_reachable demo
  have hw : SimWorld.init.exec (demo ++ [.measure 0 false [] demoCode1 3 true]) =
      ((SStmt.measure 0 false [] demoCode1 3 true).run (SimWorld.init.exec demo)).2 := by
    rw [exec_append]; rfl
  have hst : Starts (SimWorld.init.exec demo) o false := Or.inr ⟨rfl, hi⟩
  have hsim : (SimWorld.init.exec demo).sims[0]? = some o := by rw [e]; rfl
  have hok : ((SStmt.measure 0 false [] demoCode1 3 true).run (SimWorld.init.exec demo)).1 = .ok () := by
    rw [e]
    simp [SStmt.run, OExpr.evals, hi]
  have lk : ∀ (r : ℕ) (x : OObj), h[r]? = some x → ((SimWorld.init.exec demo).start o).heap[r]? = some x := by
    intro r x hx
    rw [e]
    show (h ++ h.map (OObj.shift h.length))[r]? = some x
    rw [List.getElem?_append_left (List.getElem?_eq_some_iff.1 hx).1]; exact hx
  have hrun := demoCode1_log ((SimWorld.init.exec demo).start o) ((o .ideal).shift h.length) (o .sensor) (o .potD) (o .respD) (6 + n)
    (5 + n) (4 + n) 7 0 (by rw [e]; simp only [SimWorld.start, a1, deepcopy]) (lk _ _ a2) (lk _ _ a3) (lk _ _ a4)
  have hlog := (measure_log (scan := false) (args := []) (code := demoCode1) (fuel := 3) (ok := true) (vs := []) hsim rfl).1 hst
  have hheap := measure_heap (scan := false) (args := []) (code := demoCode1) (fuel := 3) (ok := true) (vs := []) hsim rfl hst
  rw [hrun] at hlog hheap
  rw [← hw] at hlog hheap
  -- the heap after the measurement
  have keep : ∀ (r : ℕ) (x : OObj), h[r]? = some x → x.cls ≠ .generator →
      (SimWorld.init.exec (demo ++ [.measure 0 false [] demoCode1 3 true])).heap[r]? = some x := by
    intro r x hx hg
    obtain ⟨t, ht⟩ := hheap
    have hlt := (List.getElem?_eq_some_iff.1 (lk r x hx)).1
    rw [← ht, List.getElem?_append_left (by simpa using hlt)]
    simp only
    rw [List.getElem?_set_ne]
    · exact lk r x hx
    · rintro rfl
      rw [a4] at hx
      cases hx
      exact hg rfl
  have gen : (SimWorld.init.exec (demo ++ [.measure 0 false [] demoCode1 3 true])).heap[4 + n]? =
      some ⟨.generator, [.num 7, .num (0 + 1)]⟩ := by
    obtain ⟨t, ht⟩ := hheap
    have hlt := (List.getElem?_eq_some_iff.1 (lk _ _ a4)).1
    rw [← ht, List.getElem?_append_left (by simpa using hlt)]
    exact List.getElem?_set_self hlt
  have hacc : ∀ a, Spec.Accepted (SimWorld.init.exec (demo ++ [.measure 0 false [] demoCode1 3 true])).heap a (o a) :=
    fun a => accepted_kept keep (by simpa [e] using demo_has_accepted o hsim a)
  refine ⟨fun o' ho' a => ?_, hok, ?_, ?_⟩
  · rw [hsim] at ho'
    cases ho'
    exact hacc a
  · rw [hlog, e]; rfl
  · obtain ⟨o', s1, s2, s3⟩ := C80_actual demo 0 false [] demoCode1 3 o [] hsim rfl hok hacc
    have hlen : (SimWorld.init.exec demo).vars.length = 6 := by rw [e]; rfl
    rw [hlen] at s1 s2 s3
    simp only [List.length_nil] at s1 s2 s3
    have so := (s3 .occD).2 (Or.inl (by simp))
    rw [a1] at so
    obtain ⟨x', y', z', b1, b2, b3, b4⟩ := same_chain so (keep _ _ a2 (by simp)) (keep _ _ a3 (by simp)) gen
    have hi' : (o' .ideal).isNone = false := by
      rw [← same_isNone ((s3 .ideal).2 (Or.inl (by simp)))]; exact hi
    generalize hW : (SimWorld.init.exec (demo ++ [.measure 0 false [] demoCode1 3 true])).exec (Spec.rebuild 6 0) = W at *
    have m2 := (measure_log (w := W) (s := 1) (scan := false) (args := []) (code := demoCode1) (fuel := 3) (ok := true) (o := o')
      (vs := []) (by rw [s1, e]; rfl) rfl).1 (Or.inr ⟨rfl, hi'⟩)
    rw [exec_cons]
    show ((SStmt.measure 1 false [] demoCode1 3 true).run W).2.log = _
    have lk2 : ∀ (r : ℕ) (x : OObj), W.heap[r]? = some x → (W.start o').heap[r]? = some x := by
      intro r x hx
      show (W.heap ++ W.heap.map (OObj.shift W.heap.length))[r]? = some x
      rw [List.getElem?_append_left (List.getElem?_eq_some_iff.1 hx).1]; exact hx
    rw [m2, demoCode1_log (W.start o') _ (o' .sensor) (o' .potD) (o' .respD) x' y' z' 7 (0 + 1)
      (by simp only [SimWorld.start, b1]; rfl) (lk2 _ _ b2) (lk2 _ _ b3) (lk2 _ _ b4), s2, hlog, e]
    simp [SimWorld.start]

/-- It is not true that measuring with a simulation created from the metadata uses the same random numbers as the measurement. -/
theorem C80_refuted : ¬ ∀ (p : List SStmt) (s : ℕ) (scan : Bool) (args : List OExpr) (code : Code) (fuel : ℕ) (o : SimObj)
    (vs : List OVal), (SimWorld.init.exec p).sims[s]? = some o → OExpr.evals (SimWorld.init.exec p).vars args = some vs →
    ((SStmt.measure s scan args code fuel true).run (SimWorld.init.exec p)).1 = .ok () →
    (∀ a, Spec.Accepted (SimWorld.init.exec (p ++ [.measure s scan args code fuel true])).heap a (o a)) →
    let w := SimWorld.init.exec (p ++ [.measure s scan args code fuel true])
    let w' := w.exec (Spec.rebuild (SimWorld.init.exec p).vars.length vs.length)
    ∃ L : List (ℝ × ℝ), w.log = (SimWorld.init.exec p).log ++ L.map (fun d => (some s, d)) ∧
      (w'.exec [.measure (SimWorld.init.exec p).sims.length scan args code fuel true]).log =
        w.log ++ L.map (fun d => (some (SimWorld.init.exec p).sims.length, d)) := by
  intro hall
  obtain ⟨h, o, n, m, e, _⟩ := demo_made
  obtain ⟨r1, r2, r3, r4⟩ := demo_repeat_log
  have hsim : (SimWorld.init.exec demo).sims[0]? = some o := by rw [e]; rfl
  obtain ⟨L, l1, l2⟩ := hall demo 0 false [] demoCode1 3 o [] hsim rfl r2 (r1 o hsim)
  have hlen : (SimWorld.init.exec demo).vars.length = 6 := by rw [e]; rfl
  have hlen' : (SimWorld.init.exec demo).sims.length = 1 := by rw [e]; rfl
  rw [hlen, hlen'] at l2
  simp only [List.length_nil] at l2
  rw [r4, r3] at l2
  rw [r3, e] at l1
  rcases L with _ | ⟨d, _ | ⟨d', L⟩⟩
  · simp at l1
  · simp at l1 l2
    rw [← l1] at l2
    simp at l2
  · simp at l1

/-- If the components neither change objects nor draw random numbers, a simulation created from the metadata has the configuration
that the measurement started with.  Missing to the full property: components with random numbers or internal state. -/
theorem C80_partial (p : List SStmt) (s : ℕ) (scan : Bool) (args : List OExpr) (code : Code) (fuel : ℕ) (o : SimObj) (vs : List OVal)
    (hpure : Spec.Pure code) (ho : (SimWorld.init.exec p).sims[s]? = some o)
    (hvs : OExpr.evals (SimWorld.init.exec p).vars args = some vs)
    (hok : ((SStmt.measure s scan args code fuel true).run (SimWorld.init.exec p)).1 = .ok ())
    (hacc : ∀ a, Spec.Accepted (SimWorld.init.exec p).heap a (o a)) :
    let w' := (SimWorld.init.exec (p ++ [.measure s scan args code fuel true])).exec
      (Spec.rebuild (SimWorld.init.exec p).vars.length vs.length)
    ∃ o', w'.sims = (SimWorld.init.exec p).sims ++ [o'] ∧ ∀ a, Spec.Stored (SimWorld.init.exec p).heap a (o a) w'.heap (o' a) := by
  have g := guarded_reachable p
  have hst : Starts (SimWorld.init.exec p) o scan := by
    by_contra hn
    unfold Starts at hn
    simp only [SStmt.run, ho, hvs] at hok
    rw [if_neg hn] at hok
    exact nomatch hok
  have hpre : (SimWorld.init.exec p).heap <+: (SimWorld.init.exec (p ++ [.measure s scan args code fuel true])).heap := by
    rw [exec_append]
    exact ((List.prefix_append _ _).trans (Code.run_pure hpure fuel [] ((SimWorld.init.exec p).start o))).trans
      (measure_heap (ok := true) ho hvs hst)
  have hb : ∀ a r, o a = .ref r → r < (SimWorld.init.exec p).heap.length := fun a r hr => (g.sims s o a ho r hr).1
  obtain ⟨o', s1, _, s3⟩ := C80_actual p s scan args code fuel o vs ho hvs hok
    (fun a => (accepted_extend g.part hpre (hb a)).2 (hacc a))
  exact ⟨o', s1, fun a => ⟨(s3 a).1, fun hne => ((s3 a).2 hne).restrict g.part hpre (hb a)⟩⟩

/-- The metadata of a measurement without distortions in the components' code gives back the simulation. -/
example (o : SimObj) (ho : (SimWorld.init.exec demo).sims[0]? = some o) :
    ∃ o', ((SimWorld.init.exec (demo ++ [.measure 0 false [] (fun _ => none) 3 true])).exec
      (Spec.rebuild (SimWorld.init.exec demo).vars.length 0)).sims = (SimWorld.init.exec demo).sims ++ [o'] ∧
    ∀ a, Spec.Stored (SimWorld.init.exec demo).heap a (o a)
      ((SimWorld.init.exec (demo ++ [.measure 0 false [] (fun _ => none) 3 true])).exec
        (Spec.rebuild (SimWorld.init.exec demo).vars.length 0)).heap (o' a) := by
  refine C80_partial demo 0 false [] (fun _ => none) 3 o [] (by intro seen p h; cases h) ho rfl ?_ (demo_has_accepted o ho)
  obtain ⟨h, o1, n, m, e, _, hi, _⟩ := demo_made
  rw [e]
  simp [SStmt.run, OExpr.evals, hi]

end SimCATS
