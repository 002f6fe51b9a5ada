import Verif.Lemmas.SimDemo

/-!
C77: a simulation is changed only through its own interface.
C78: the metadata of a measurement are an independent record of the configuration.
-/

namespace SimCATS

/-! ### C77 -/

/-- Setting an attribute succeeds exactly for the documented values, and otherwise changes nothing. -/
theorem C77_set_accepts (p : List SStmt) (s : ℕ) (a : SimAttr) (e : OExpr) (o : SimObj) (v : OVal)
    (ho : (SimWorld.init.exec p).sims[s]? = some o) (he : e.eval (SimWorld.init.exec p).vars = some v) :
    (((SStmt.set s a e).run (SimWorld.init.exec p)).1 = .ok () ↔ Spec.Accepted (SimWorld.init.exec p).heap a v) ∧
    (((SStmt.set s a e).run (SimWorld.init.exec p)).1 ≠ .ok () →
      ((SStmt.set s a e).run (SimWorld.init.exec p)).2 = SimWorld.init.exec p) := by
  generalize SimWorld.init.exec p = w at *
  rw [← check_iff]
  simp only [SStmt.run, ho, he]
  cases a.check w.heap v with
  | error x => simp
  | ok u => simp

/-- A list of distortions, and a number, for the occupation distortions of a simulation. -/
example : ∃ o, (SimWorld.init.exec demo).sims[0]? = some o ∧
    OExpr.eval (SimWorld.init.exec demo).vars (.var 3) = some (.ref 6) ∧ Spec.Accepted (SimWorld.init.exec demo).heap .occD (.ref 6) ∧
    OExpr.eval (SimWorld.init.exec demo).vars (.num 1) = some (.num 1) ∧
    ¬ Spec.Accepted (SimWorld.init.exec demo).heap .occD (.num 1) := by
  obtain ⟨h, o, n, m, e, ⟨t, rfl⟩, _⟩ := demo_made
  rw [e]
  refine ⟨o, rfl, rfl, ?_, rfl, ?_⟩
  · refine Or.inr ⟨6, ⟨.list, [.ref 5]⟩, rfl, rfl, Or.inl rfl, fun x hx => ?_⟩
    rw [List.mem_singleton.1 hx]
    exact ⟨5, ⟨.occDist, [.ref 4]⟩, rfl, rfl, rfl⟩
  · rintro (h | ⟨r, _, h, _⟩) <;> exact nomatch h

/-- The stored value has the content of the argument at that moment; no other attribute and no other simulation changes. -/
theorem C77_set_stores (p : List SStmt) (s : ℕ) (a : SimAttr) (e : OExpr) (o : SimObj) (v : OVal)
    (ho : (SimWorld.init.exec p).sims[s]? = some o) (he : e.eval (SimWorld.init.exec p).vars = some v)
    (hok : ((SStmt.set s a e).run (SimWorld.init.exec p)).1 = .ok ()) :
    let w := SimWorld.init.exec p
    let w' := ((SStmt.set s a e).run w).2
    (∃ o', w'.sims[s]? = some o' ∧
      Spec.Stored w.heap a v w'.heap (o' a) ∧
      (∀ b, b ≠ a → o' b = o b)) ∧
    (∀ s', s' ≠ s → w'.sims[s']? = w.sims[s']?) ∧ w'.vars = w.vars ∧ w.heap <+: w'.heap := by
  have g := guarded_reachable p
  generalize SimWorld.init.exec p = w at *
  intro w1 w'
  have hw' : w' = ((SStmt.set s a e).run w).2 := rfl
  simp only [SStmt.run, ho, he] at hok hw'
  cases hc : a.check w.heap v with
  | error x => simp only [hc] at hok; exact nomatch hok
  | ok u =>
    simp only [hc] at hw'
    rw [hw']
    refine ⟨⟨_, List.getElem?_set_self (List.getElem?_eq_some_iff.1 ho).1, ?_, ?_⟩, ?_, rfl, store_prefix _ _ _⟩
    · simp only [if_true]
      refine ⟨fun h1 h2 => ?_, fun hne => ?_⟩
      · subst h1 h2
        exact store_default
      · exact store_same g.part (eval_bound g.names he) (fun h => hne.elim (fun h' => h' h.1) (fun h' => h' h.2))
    · intro b hb
      simp only [if_neg hb]
    · intro s' hs'
      exact List.getElem?_set_ne (Ne.symm hs')

/-- The occupation distortions of a simulation are set to a list of distortions. -/
example : ((SStmt.set 0 .occD (.var 3)).run (SimWorld.init.exec demo)).1 = .ok () := by
  obtain ⟨h, o, n, m, e, ⟨t, ht⟩, _⟩ := demo_made
  have e1 := C77_set_accepts demo 0 .occD (.var 3) o (.ref 6) (by rw [e]; rfl) (by rw [e]; rfl)
  refine e1.1.2 ?_
  rw [e]
  show Spec.Accepted h _ _
  rw [← ht]
  refine Or.inr ⟨6, ⟨.list, [.ref 5]⟩, rfl, rfl, Or.inl rfl, fun x hx => ?_⟩
  rw [List.mem_singleton.1 hx]
  exact ⟨5, ⟨.occDist, [.ref 4]⟩, rfl, rfl, rfl⟩

/-- The constructor succeeds exactly if all arguments have documented values; then each attribute has the content of its argument,
or of its default; otherwise nothing changes. -/
theorem C77_constructed (p : List SStmt) (args : SimAttr → Option OExpr) (vals : SimAttr → OVal)
    (hv : ∀ a, (SimWorld.init.exec p).ctorVals args a = some (vals a)) :
    let w := SimWorld.init.exec p
    let r := (SStmt.newSim args).run w
    (r.1 = .ok () ↔ ∀ a, Spec.Accepted w.heap a (vals a)) ∧
    (r.1 ≠ .ok () → r.2 = w) ∧
    (r.1 = .ok () → ∃ o, r.2.sims = w.sims ++ [o] ∧ r.2.vars = w.vars ∧ w.heap <+: r.2.heap ∧
      ∀ a, Spec.Stored w.heap a (vals a) r.2.heap (o a)) := by
  have g := guarded_reachable p
  generalize SimWorld.init.exec p = w at *
  intro w1 r
  have hr : r = (SStmt.newSim args).run w := rfl
  refine ⟨newSim_accepts g hv, ?_⟩
  rw [newSim_run g hv] at hr
  cases hc : construct w.heap vals SimAttr.all with
  | error e =>
    rw [hc] at hr
    rw [hr]
    exact ⟨fun _ => rfl, fun h => nomatch h⟩
  | ok x =>
    obtain ⟨h', o⟩ := x
    rw [hc] at hr
    rw [hr]
    refine ⟨fun h => absurd rfl h, fun _ => ⟨o, rfl, rfl, construct_prefix hc, ?_⟩⟩
    intro a
    refine ⟨fun h1 h2 => ?_, fun hne => ?_⟩
    · subst h1
      exact construct_default hc (mem_all _) h2
    · exact construct_same g.part (fun a r hr => ctorVals_bound g args (hv a) r hr) hc (mem_all a)
        (fun h => hne.elim (fun h' => h' h.1) (fun h' => h' h.2))

/-- A simulation with an ideal CSD configuration and two kinds of distortions can be constructed; one with a list of occupation
distortions instead of an ideal CSD configuration cannot. -/
example : (∀ a, (SimWorld.init.exec demoSetup).ctorVals demoArgs a = some (demoVals a)) ∧
    (∀ a, Spec.Accepted (SimWorld.init.exec demoSetup).heap a (demoVals a)) ∧
    (SimWorld.init.exec demoSetup).ctorVals (fun a => if a = .ideal then some (.var 3) else none) .ideal = some (.ref 6) ∧
    ¬ Spec.Accepted (SimWorld.init.exec demoSetup).heap .ideal (.ref 6) := by
  rw [demo_setup]
  refine ⟨demo_vals _ (List.prefix_refl _), demo_accepted, rfl, ?_⟩
  rintro (h | ⟨r, o, h1, h2, h3⟩)
  · exact nomatch h
  · cases h1
    cases h2
    simp at h3

/-- If the objects of a simulation were never handed out by its getters, nothing a program does changes its configuration, except
setting its attributes and measuring with it: not the objects passed to it, other simulations, metadata, or the default values of
the constructor. -/
theorem C77_isolated (p q : List SStmt) (s : ℕ) (hg : ∀ c ∈ p ++ q, ¬ Spec.Gets s c)
    (hq : ∀ c ∈ q, ¬ Spec.Sets s c ∧ ¬ Spec.Measures s c) (o : SimObj) (ho : (SimWorld.init.exec p).sims[s]? = some o) :
    (SimWorld.init.exec (p ++ q)).sims[s]? = some o ∧
      Spec.SameAll (SimWorld.init.exec p).heap o (SimWorld.init.exec (p ++ q)).heap o := by
  rw [exec_append]
  exact isolated_of (guarded_reachable []) (by simp [SimWorld.exec, SimWorld.init]) p q hg hq ho

/-- The generator that the program has passed to a simulation is used up and its distortion is changed by the program, and a second
simulation is created, configured and used. -/
example : ∃ o, (SimWorld.init.exec demo).sims[0]? = some o ∧
    (SimWorld.init.exec demo).heap[4]? = some ⟨.generator, [.num 7, .num 0]⟩ ∧
    ∃ q : List SStmt, q = [.prim (.draw 1), .prim (.store 2 0 (.num 3)), .newSim demoArgs, .get 1 .occD, .set 1 .respD .none,
      .measure 1 false [] (fun _ => none) 0 true] ∧
      (∀ c ∈ demo ++ q, ¬ Spec.Gets 0 c) ∧ (∀ c ∈ q, ¬ Spec.Sets 0 c ∧ ¬ Spec.Measures 0 c) := by
  obtain ⟨h, o, n, m, e, ⟨t, ht⟩, _⟩ := demo_made
  rw [e]
  refine ⟨o, rfl, by rw [← ht]; rfl, _, rfl, ?_, ?_⟩
  · intro c hc
    rintro ⟨a, rfl⟩
    simp [demo, demoSetup] at hc
  · intro c hc
    refine ⟨?_, ?_⟩
    · rintro ⟨a, e', rfl⟩
      simp at hc
    · rintro ⟨sc, as, co, fu, ok, rfl⟩
      simp at hc

/-- Measurements change neither the voltage limits nor the ideal CSD configuration, whatever the components do. -/
theorem C77_measure_keeps (p q : List SStmt) (s : ℕ) (a : SimAttr) (ha : Spec.ReadOnly a) (hg : ∀ c ∈ p ++ q, c ≠ .get s a)
    (hq : ∀ c ∈ q, ∀ e, c ≠ .set s a e) (o : SimObj) (ho : (SimWorld.init.exec p).sims[s]? = some o) :
    ∃ o', (SimWorld.init.exec (p ++ q)).sims[s]? = some o' ∧ o' a = o a ∧
      Spec.Same (SimWorld.init.exec p).heap (o a) (SimWorld.init.exec (p ++ q)).heap (o' a) := by
  let PS : ℕ → SimAttr → Prop := fun s' b => s' = s ∧ b = a
  have no : ∀ s' b, ¬ Spec.ReadOnly b → ¬ PS s' b := by
    rintro s' b hb ⟨_, rfl⟩
    exact hb ha
  have safe : ∀ c ∈ p ++ q, ∀ w, Safe w (fun _ => False) PS c := by
    intro c hc w
    cases c with
    | prim p => exact ⟨fun _ _ => id, id⟩
    | newSim args => trivial
    | set s' b e => trivial
    | get s' b =>
      refine ⟨?_, id⟩
      rintro ⟨rfl, rfl⟩
      exact hg _ hc rfl
    | measure s' _ _ _ _ _ =>
      have n1 := no s' .sensor (by simp [Spec.ReadOnly])
      exact ⟨iff_of_false (no s' .occD (by simp [Spec.ReadOnly])) n1, iff_of_false (no s' .potD (by simp [Spec.ReadOnly])) n1,
        iff_of_false (no s' .respD (by simp [Spec.ReadOnly])) n1⟩
  have g0 := (guarded_reachable []).future (PV := fun _ => False) (PS := PS) (fun _ _ => id) (fun s' a h => by
    exact absurd h (by simp [SimWorld.exec, SimWorld.init]))
  obtain ⟨P1, g1, _, _⟩ := g0.exec p (fun c hc w _ => safe c (List.mem_append_left _ hc) w)
  change Guarded (SimWorld.init.exec p) P1 _ PS at g1
  obtain ⟨P2, g2, _, k2⟩ := g1.exec q (fun c hc w _ => safe c (List.mem_append_right _ hc) w)
  have hnr : ∀ c ∈ q, ¬ RunsIn PS c := by
    intro c hc hr
    cases c with
    | measure s' scan args code fuel ok => exact no s' .sensor (by simp [Spec.ReadOnly]) hr
    | _ => exact hr
  rw [exec_append]
  obtain ⟨o', ho', hk⟩ := exec_sims q (SimWorld.init.exec p) ho
  have hoo := hk a hq
  refine ⟨o', ho', hoo, ?_⟩
  rw [hoo]
  obtain ⟨B, hB, hm⟩ := same_of_part g1.part (fun r hr => (k2 hnr r hr).1) (fun _ : Unit => o a) (by
    intro _ r hr
    have := g1.sims s o a ho r hr
    exact ⟨this.1, this.2.trans (iff_of_true ⟨rfl, rfl⟩ trivial)⟩)
  exact ⟨B, hB, hm ()⟩

/-- A measurement whose code tries to change the ideal CSD configuration, whose other attributes are read and set. -/
example : ∃ o, (SimWorld.init.exec demo).sims[0]? = some o ∧ (o .ideal).isNone = false ∧ Spec.ReadOnly .ideal ∧
    ∃ q : List SStmt, q = [.measure 0 false [] (fun _ => some (.store 0 0 (.num 1))) 5 true, .get 0 .occD, .set 0 .limG1 .none] ∧
      (∀ c ∈ demo ++ q, c ≠ .get 0 .ideal) ∧ (∀ c ∈ q, ∀ e, c ≠ .set 0 .ideal e) := by
  obtain ⟨h, o, n, m, e, _, hi, _⟩ := demo_made
  rw [e]
  refine ⟨o, rfl, hi, by simp [Spec.ReadOnly], _, rfl, ?_, ?_⟩
  · rintro c hc rfl
    simp [demo, demoSetup] at hc
  · rintro c hc e' rfl
    simp at hc

/-- A getter returns the configuration itself: an object that is adjusted through it is adjusted in the simulation. -/
theorem C77_adjust (w : SimWorld) (s : ℕ) (a : SimAttr) (o : SimObj) (r k : ℕ) (x : ℝ) (b : OObj) (ho : w.sims[s]? = some o)
    (hr : o a = .ref r) (hb : w.heap[r]? = some b) (hc : b.cls ≠ .generator) (hk : k < b.fields.length) :
    let w' := w.exec [.get s a, .prim (.store w.vars.length k (.num x))]
    w'.sims[s]? = some o ∧ ∃ b', w'.heap[r]? = some b' ∧ b'.cls = b.cls ∧ b'.fields = b.fields.set k (.num x) := by
  have hf : (Frame.obj ⟨w.heap, w.vars ++ [.ref r], []⟩ w.vars.length) = some (r, b) := by
    simp [Frame.obj, hb]
  simp only [exec_cons, SStmt.run, ho, hr, Prim.step, hf, OExpr.eval, if_neg hc, if_pos hk]
  refine ⟨ho, ⟨b.cls, b.fields.set k (.num x)⟩, ?_, rfl, rfl⟩
  show (w.heap.set r _)[r]? = _
  exact List.getElem?_set_self (List.getElem?_eq_some_iff.1 hb).1

/-- The list of response distortions of a simulation. -/
example : ∃ o r b, (SimWorld.init.exec demo).sims[0]? = some o ∧ o .respD = .ref r ∧ (SimWorld.init.exec demo).heap[r]? = some b ∧
    b.cls ≠ .generator ∧ 0 < b.fields.length := by
  obtain ⟨h, o, n, m, e, _, _, _, _, _, _, h1, h2, _⟩ := demo_made
  rw [e]
  exact ⟨o, 8 + m, _, rfl, h1, h2, by simp, by simp⟩

/-! ### C78 -/

/-- A measurement that returns adds metadata whose entries have the content of the arguments and of the configuration at the end
of the measurement. -/
theorem C78_content (p : List SStmt) (s : ℕ) (scan : Bool) (args : List OExpr) (code : Code) (fuel : ℕ) (ok : Bool) (o : SimObj)
    (vs : List OVal) (ho : (SimWorld.init.exec p).sims[s]? = some o) (hvs : OExpr.evals (SimWorld.init.exec p).vars args = some vs)
    (hok : ((SStmt.measure s scan args code fuel ok).run (SimWorld.init.exec p)).1 = .ok ()) :
    let w := SimWorld.init.exec p
    let w' := ((SStmt.measure s scan args code fuel ok).run w).2
    w'.sims = w.sims ∧ ∃ r fs, w'.vars = w.vars ++ [.ref r] ∧ w'.heap[r]? = some ⟨.metadata, fs⟩ ∧
      List.Forall₂ (fun v v' => Spec.Same w'.heap v w'.heap v') (vs ++ SimAttr.all.map o) fs := by
  have g := guarded_reachable p
  generalize SimWorld.init.exec p = w at *
  intro w1 w'
  have hw' : w' = ((SStmt.measure s scan args code fuel ok).run w).2 := rfl
  simp only [SStmt.run, ho, hvs] at hok hw'
  split at hok
  · next hcond =>
    rw [if_pos hcond] at hw'
    cases ok with
    | false => rw [if_neg (by simp)] at hok; exact nomatch hok
    | true =>
      rw [if_pos rfl] at hw'
      obtain ⟨P1, p1, g1, n1⟩ := g.start ho ⟨Iff.rfl, Iff.rfl, Iff.rfl⟩
      obtain ⟨P2, p2, g2⟩ := Code.run_part code fuel [] p1 n1
      have g12 := (g1 False).trans g2
      have hb : ∀ v ∈ vs ++ SimAttr.all.map o, ∀ r, v = .ref r → r < (code.run fuel [] (w.start o)).heap.length := by
        intro v hv r hr
        refine lt_of_lt_of_le ?_ g12.1
        rcases List.mem_append.1 hv with hv | hv
        · exact evals_bound g.names hvs v hv r hr
        · obtain ⟨a, _, ha⟩ := List.mem_map.1 hv
          exact (g.sims s o a ho r (ha.trans hr)).1
      rw [hw']
      refine ⟨rfl, (deepcopies (code.run fuel [] (w.start o)).heap (vs ++ SimAttr.all.map o)).1.length,
        (deepcopies (code.run fuel [] (w.start o)).heap (vs ++ SimAttr.all.map o)).2, rfl, by simp [makeMetadata], ?_⟩
      have := deepcopies_same p2 hb (H := (makeMetadata (code.run fuel [] (w.start o)).heap vs o).1) (List.prefix_append _ _)
      exact this.imp fun v v' hs => hs.extend ((deepcopies_prefix _ _).trans (List.prefix_append _ _)) (List.prefix_refl _)
  · exact nomatch hok

/-- A measurement that returns, with a distortion that draws a random number. -/
example : ∃ o, (SimWorld.init.exec demo).sims[0]? = some o ∧
    OExpr.evals (SimWorld.init.exec demo).vars [.num 1, .var 0] = some [.num 1, .ref 3] ∧
    ((SStmt.measure 0 false [.num 1, .var 0] (fun seen => [Prim.load 2 0, .load 5 0, .draw 6][seen.length]?) 9 true).run
      (SimWorld.init.exec demo)).1 = .ok () := by
  obtain ⟨h, o, n, m, e, _, hi, _⟩ := demo_made
  rw [e]
  refine ⟨o, rfl, rfl, ?_⟩
  have hv : OExpr.evals demoVars [.num 1, .var 0] = some [.num 1, .ref 3] := rfl
  simp [SStmt.run, hv, hi]

/-- The metadata keep their content, whatever happens to the simulation, to its configuration objects and to the objects passed to
it, as long as the program does not work with the metadata themselves. -/
theorem C78_snapshot (p q : List SStmt) (s : ℕ) (scan : Bool) (args : List OExpr) (code : Code) (fuel : ℕ) (ok : Bool)
    (hok : ((SStmt.measure s scan args code fuel ok).run (SimWorld.init.exec p)).1 = .ok ())
    (hq : ∀ c ∈ q, ∀ d, c = .prim d → (SimWorld.init.exec p).vars.length ∉ Spec.names d) :
    let m := (SimWorld.init.exec p).vars.length
    let w := SimWorld.init.exec (p ++ [.measure s scan args code fuel ok])
    let w' := SimWorld.init.exec (p ++ [.measure s scan args code fuel ok] ++ q)
    ∃ v, w.vars[m]? = some v ∧ w'.vars[m]? = some v ∧ Spec.Same w.heap v w'.heap v := by
  intro m w w'
  let PV : ℕ → Prop := fun i => i = m
  have g0 := (guarded_reachable p).future (PV := PV) (PS := fun _ _ => False) (fun i hi => by
    simp only [PV, m]; omega) (fun _ _ _ => id)
  obtain ⟨P1, g1, _⟩ := g0.step (.measure s scan args code fuel ok) ⟨Iff.rfl, Iff.rfl, Iff.rfl⟩
  have hw : w = ((SStmt.measure s scan args code fuel ok).run (SimWorld.init.exec p)).2 := by
    simp only [w, exec_append, exec_cons]
    rfl
  have hw' : w' = w.exec q := exec_append _ _ _
  rw [← hw] at g1
  have hlen : m < w.vars.length := by
    rw [hw]
    simp only [SStmt.run] at hok ⊢
    cases ho : (SimWorld.init.exec p).sims[s]? with
    | none => simp only [ho] at hok; exact nomatch hok
    | some o =>
      cases he : OExpr.evals (SimWorld.init.exec p).vars args with
      | none => simp only [ho, he] at hok; exact nomatch hok
      | some vs =>
        simp only [ho, he] at hok ⊢
        split at hok
        · next hcond =>
          rw [if_pos hcond]
          cases ok with
          | false => rw [if_neg (by simp)] at hok; exact nomatch hok
          | true => rw [if_pos rfl]; simp [m]
        · exact nomatch hok
  obtain ⟨P2, g2, _, k2⟩ := g1.exec q (by
    intro c hc w2 hw2
    cases c with
    | prim d =>
      refine ⟨fun i hi hpi => ?_, fun hpv => ?_⟩
      · have : i = m := hpi
        rw [this] at hi
        exact hq _ hc d rfl hi
      · have : w2.vars.length = m := hpv
        omega
    | newSim args => trivial
    | set s' a e => trivial
    | get s' a =>
      refine ⟨id, fun hpv => ?_⟩
      have : w2.vars.length = m := hpv
      omega
    | measure s' _ _ _ _ _ => exact ⟨Iff.rfl, Iff.rfl, Iff.rfl⟩)
  have hnr : ∀ c ∈ q, ¬ RunsIn (fun _ _ => False) c := by
    intro c _ hr
    cases c <;> exact hr
  refine ⟨w.vars[m], List.getElem?_eq_getElem hlen, ?_, ?_⟩
  · rw [hw']
    obtain ⟨e, he⟩ := exec_vars q w
    rw [← he, List.getElem?_append_left hlen, List.getElem?_eq_getElem hlen]
  · rw [hw']
    obtain ⟨B, hB, hm⟩ := same_of_part g1.part (fun r hr => (k2 hnr r hr).1) (fun _ : Unit => w.vars[m]) (by
      intro _ r hr
      have := g1.names m _ (List.getElem?_eq_getElem hlen) r hr
      exact ⟨this.1, this.2.trans (iff_of_true rfl trivial)⟩)
    exact ⟨B, hB, hm ()⟩

/-- After a measurement the simulation is reconfigured and its distortions are changed in place. -/
example : ((SStmt.measure 0 false [.num 1] (fun _ => none) 9 true).run (SimWorld.init.exec demo)).1 = .ok () ∧
    ∀ c ∈ [SStmt.get 0 .respD, .prim (.store 7 0 (.num 5)), .set 0 .occD .none, .measure 0 false [] (fun _ => none) 0 true],
      ∀ d, c = .prim d → (SimWorld.init.exec demo).vars.length ∉ Spec.names d := by
  obtain ⟨h, o, n, m, e, _, hi, _⟩ := demo_made
  rw [e]
  refine ⟨?_, ?_⟩
  · have hv : OExpr.evals demoVars [.num 1] = some [.num 1] := rfl
    simp [SStmt.run, hv, hi]
  · rintro c hc d rfl
    simp only [List.mem_cons, SStmt.prim.injEq, reduceCtorEq, List.not_mem_nil, or_false, false_or] at hc
    subst hc
    simp [Spec.names, Spec.exprNames, demoVars]

end SimCATS
