import Verif.Lemmas.SimRandom

/-! A concrete program with a simulation, for the examples and counterexamples: an ideal CSD configuration, one random number
generator, and an occupation and a response distortion that use it. -/

namespace SimCATS

/-- Where the copies of the arguments of a new simulation are. -/
theorem construct_at {h0 : OHeap} {vals : SimAttr → OVal} {l : List SimAttr} (hl : l.Nodup) {h h' : OHeap} {o : SimObj}
    (hpre : h0 <+: h) (hc : construct h vals l = .ok (h', o)) :
    ∃ n : SimAttr → ℕ,
      (∀ a ∈ l, ¬ (a = .sensor ∧ vals a = .none) → o a = (vals a).shift (n a) ∧ h.length ≤ n a ∧
        ∀ r x, h0[r]? = some x → h'[r + n a]? = some (x.shift (n a))) ∧
      ∀ a ∈ l, ∀ b ∈ l, a ≠ b → ¬ (a = .sensor ∧ vals a = .none) → ¬ (b = .sensor ∧ vals b = .none) →
        n a + h0.length ≤ n b ∨ n b + h0.length ≤ n a := by
  induction l generalizing h h' o with
  | nil => exact ⟨fun _ => 0, fun a ha => absurd ha List.not_mem_nil, fun a ha => absurd ha List.not_mem_nil⟩
  | cons b l ih =>
    simp only [construct] at hc
    cases hck : b.check h (vals b) with
    | error e => rw [hck] at hc; exact nomatch hc
    | ok u =>
      rw [hck] at hc
      cases hr : construct (b.store h (vals b)).1 vals l with
      | error e => simp only [hr] at hc; exact nomatch hc
      | ok x =>
        obtain ⟨h2, o2⟩ := x
        simp only [hr, Except.ok.injEq, Prod.mk.injEq] at hc
        obtain ⟨rfl, rfl⟩ := hc
        obtain ⟨hbl, hl'⟩ := List.nodup_cons.1 hl
        have sp := store_prefix h b (vals b)
        obtain ⟨n, k1, k2⟩ := ih hl' (hpre.trans sp) hr
        have hlen := sp.length_le
        have dc : ¬ (b = .sensor ∧ vals b = .none) → b.store h (vals b) = deepcopy h (vals b) := by
          intro hn
          unfold SimAttr.store
          split
          · next e1 => exact absurd ⟨rfl, e1⟩ hn
          · rfl
        have ne : ∀ a ∈ l, a ≠ b := by
          rintro a ha rfl
          exact hbl ha
        have gap : ¬ (b = .sensor ∧ vals b = .none) → ∀ a ∈ l, ¬ (a = .sensor ∧ vals a = .none) → h.length + h0.length ≤ n a := by
          intro hn a ha hna
          have := (k1 a ha hna).2.1
          rw [dc hn] at this
          simp only [deepcopy, List.length_append, List.length_map] at this
          have := hpre.length_le
          omega
        refine ⟨fun a => if a = b then h.length else n a, ?_, ?_⟩
        · intro a ha hna
          by_cases hab : a = b
          · subst hab
            simp only [if_true]
            rw [dc hna]
            refine ⟨rfl, le_refl _, fun r x hx => ?_⟩
            obtain ⟨t, ht⟩ := construct_prefix hr
            rw [dc hna] at ht
            rw [← ht]
            obtain ⟨u, rfl⟩ := hpre
            have hlt := (List.getElem?_eq_some_iff.1 hx).1
            simp only [deepcopy]
            rw [List.getElem?_append_left (by simp only [List.length_append, List.length_map]; omega),
              List.getElem?_append_right (by omega), Nat.add_sub_cancel, List.getElem?_map, List.getElem?_append_left hlt, hx]
            rfl
          · simp only [if_neg hab]
            obtain ⟨e1, e2, e3⟩ := k1 a ((List.mem_cons.1 ha).resolve_left hab) hna
            exact ⟨e1, le_trans hlen e2, e3⟩
        · intro a ha c hc' hac hna hnc
          by_cases hab : a = b
          · subst hab
            have hcl := (List.mem_cons.1 hc').resolve_left (Ne.symm hac)
            simp only [if_true, if_neg (Ne.symm hac)]
            exact Or.inl (gap hna c hcl hnc)
          · by_cases hcb : c = b
            · subst hcb
              simp only [if_true, if_neg hab]
              exact Or.inr (gap hnc a ((List.mem_cons.1 ha).resolve_left hab) hna)
            · simp only [if_neg hab, if_neg hcb]
              exact k2 a ((List.mem_cons.1 ha).resolve_left hab) c ((List.mem_cons.1 hc').resolve_left hcb) hac hna hnc

/-- Creates the objects. -/
def demoSetup : List SStmt :=
  [.prim (.new .ideal []), .prim (.newGen 7), .prim (.new .occDist [.var 1]), .prim (.new .list [.var 2]),
    .prim (.new .respDist [.var 1]), .prim (.new .list [.var 4])]

/-- Arguments of the simulation: the ideal CSD configuration and the two lists of distortions. -/
def demoArgs : SimAttr → Option OExpr
  | .ideal => some (.var 0)
  | .occD => some (.var 3)
  | .respD => some (.var 5)
  | _ => none

def demoHeap : OHeap :=
  [⟨.array, [.num (-1), .num (-1)]⟩, ⟨.array, [.num 0, .num 0]⟩, ⟨.sensor, [.none, .ref 0, .ref 1, .num 0]⟩,
    ⟨.ideal, []⟩, ⟨.generator, [.num 7, .num 0]⟩, ⟨.occDist, [.ref 4]⟩, ⟨.list, [.ref 5]⟩, ⟨.respDist, [.ref 4]⟩, ⟨.list, [.ref 7]⟩]

def demoVars : List OVal := [.ref 3, .ref 4, .ref 5, .ref 6, .ref 7, .ref 8]

def demoVals : SimAttr → OVal
  | .ideal => .ref 3
  | .occD => .ref 6
  | .respD => .ref 8
  | .sensor => .ref 2
  | _ => .none

theorem demo_setup : SimWorld.init.exec demoSetup = ⟨demoHeap, demoVars, [], []⟩ := by
  simp [demoSetup, SimWorld.exec, SStmt.run, Prim.step, OExpr.evals, OExpr.eval, SimWorld.init, newSensorGeneric, demoHeap, demoVars]

theorem demo_vals (w : SimWorld) (hv : demoVars <+: w.vars) (a : SimAttr) : w.ctorVals demoArgs a = some (demoVals a) := by
  obtain ⟨t, ht⟩ := hv
  cases a <;> simp [SimWorld.ctorVals, demoArgs, demoVals, OExpr.eval, SimAttr.default, ← ht, demoVars]

theorem demo_accepted (a : SimAttr) : Spec.Accepted demoHeap a (demoVals a) := by
  cases a
  case ideal => exact Or.inr ⟨3, _, rfl, rfl, by simp⟩
  case sensor => exact Or.inr ⟨2, _, rfl, rfl, by simp⟩
  case occD =>
    refine Or.inr ⟨6, _, rfl, rfl, Or.inl rfl, fun x hx => ?_⟩
    rw [List.mem_singleton.1 hx]
    exact ⟨5, _, rfl, rfl, rfl⟩
  case respD =>
    refine Or.inr ⟨8, _, rfl, rfl, Or.inl rfl, fun x hx => ?_⟩
    rw [List.mem_singleton.1 hx]
    exact ⟨7, _, rfl, rfl, rfl⟩
  all_goals exact Or.inl rfl

/-- The demonstration program: the objects and a simulation made from them. -/
def demo : List SStmt := demoSetup ++ [.newSim demoArgs]

/-- The simulation exists, and has the distortions with their generators. -/
theorem demo_made : ∃ h o n m, SimWorld.init.exec demo = ⟨h, demoVars, [o], []⟩ ∧ demoHeap <+: h ∧ (o .ideal).isNone = false ∧
    o .occD = .ref (6 + n) ∧ h[6 + n]? = some ⟨.list, [.ref (5 + n)]⟩ ∧ h[5 + n]? = some ⟨.occDist, [.ref (4 + n)]⟩ ∧
    h[4 + n]? = some ⟨.generator, [.num 7, .num 0]⟩ ∧
    o .respD = .ref (8 + m) ∧ h[8 + m]? = some ⟨.list, [.ref (7 + m)]⟩ ∧ h[7 + m]? = some ⟨.respDist, [.ref (4 + m)]⟩ ∧
    h[4 + m]? = some ⟨.generator, [.num 7, .num 0]⟩ ∧ (n + 9 ≤ m ∨ m + 9 ≤ n) := by
  have g := guarded_reachable demoSetup
  have hv := demo_vals (SimWorld.init.exec demoSetup) (by rw [demo_setup]; exact List.prefix_refl _)
  have hac := (newSim_accepts g hv).2 (by rw [demo_setup]; exact demo_accepted)
  have hex : SimWorld.init.exec demo = ((SStmt.newSim demoArgs).run (SimWorld.init.exec demoSetup)).2 := by
    rw [demo, exec_append]; rfl
  rw [newSim_run g hv] at hac hex
  cases hc : construct (SimWorld.init.exec demoSetup).heap demoVals SimAttr.all with
  | error e => rw [hc] at hac; exact nomatch hac
  | ok x =>
    obtain ⟨h, o⟩ := x
    rw [hc] at hex
    rw [demo_setup] at hc hex
    obtain ⟨n, k1, k2⟩ := construct_at (h0 := demoHeap) (by simp [SimAttr.all]) (List.prefix_refl _) hc
    obtain ⟨a1, _, a3⟩ := k1 .occD (mem_all _) (by simp)
    obtain ⟨b1, _, b3⟩ := k1 .respD (mem_all _) (by simp)
    obtain ⟨c1, _, _⟩ := k1 .ideal (mem_all _) (by simp)
    refine ⟨h, o, n .occD, n .respD, hex, construct_prefix hc, by rw [c1]; rfl, a1, a3 6 _ rfl, a3 5 _ rfl, a3 4 _ rfl,
      b1, b3 8 _ rfl, b3 7 _ rfl, b3 4 _ rfl, ?_⟩
    exact k2 .occD (mem_all _) .respD (mem_all _) (by simp) (by simp) (by simp)

end SimCATS
