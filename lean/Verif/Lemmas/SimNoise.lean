import Verif.Lemmas.SimDraws

/-! Helper lemmas: the random numbers used in the measurements of a program. -/

namespace SimCATS

/-- The objects that measurements of the simulations `S` can reach, apart from copies of the ideal CSD configuration. -/
def Reached (w : SimWorld) (S : ℕ → Prop) (r : ℕ) : Prop := ∃ v, Spec.Components w S v ∧ Spec.LeadsTo w.heap v r

/-- The simulations `S` are isolated, their ideal CSD configurations have no generators, and the generators of the other components
are fresh. -/
structure NoiseInv (w : SimWorld) (S : ℕ → Prop) (P P2 : ℕ → Prop) (N : List (ℝ × ℝ)) : Prop where
  all : Guarded w P (fun _ => False) (fun s _ => S s)
  ideal : Guarded w P2 (fun _ => False) (fun s a => S s ∧ a = .ideal)
  made : ∀ s, S s → s < w.sims.length
  noGen : ∀ s o, S s → w.sims[s]? = some o → Spec.NoGenerator w.heap (o .ideal)
  fresh : Fresh w.heap (Reached w S) N

theorem numbersOf_append (S : ℕ → Prop) (l l' : List (Option ℕ × ℝ × ℝ)) :
    Spec.numbersOf S (l ++ l') = Spec.numbersOf S l ++ Spec.numbersOf S l' := by
  unfold Spec.numbersOf
  rw [List.filterMap_append]

open Classical in
theorem numbersOf_tag (S : ℕ → Prop) (t : Option ℕ) (l : List (ℝ × ℝ)) :
    ((∃ s, S s ∧ t = some s) → Spec.numbersOf S (l.map fun d => (t, d)) = l) ∧
    ((¬ ∃ s, S s ∧ t = some s) → Spec.numbersOf S (l.map fun d => (t, d)) = []) := by
  unfold Spec.numbersOf
  rw [List.filterMap_map]
  constructor
  · intro h
    have : ((fun d : Option ℕ × ℝ × ℝ => if ∃ s, S s ∧ d.1 = some s then some d.2 else none) ∘ fun d : ℝ × ℝ => (t, d)) = some := by
      funext d
      simp only [Function.comp, if_pos h]
    rw [this, List.filterMap_some]
  · intro h
    have : ((fun d : Option ℕ × ℝ × ℝ => if ∃ s, S s ∧ d.1 = some s then some d.2 else none) ∘ fun d : ℝ × ℝ => (t, d)) =
        fun _ => none := by
      funext d
      simp only [Function.comp, if_neg h]
    rw [this]
    simp

theorem SStmt.run_log (c : SStmt) (w : SimWorld) : ∃ (t : Option ℕ) (L : List (ℝ × ℝ)), (c.run w).2.log = w.log ++ L.map (fun d => (t, d)) ∧
    (∀ s, t = some s → Spec.Measures s c) := by
  have triv : ∃ (t : Option ℕ) (L : List (ℝ × ℝ)), w.log = w.log ++ L.map (fun d => (t, d)) ∧ (∀ s, t = some s → Spec.Measures s c) :=
    ⟨none, [], by simp, fun s h => nomatch h⟩
  cases c with
  | prim p => exact ⟨none, _, rfl, fun s h => nomatch h⟩
  | newSim args =>
    simp only [SStmt.run]
    by_cases hall : ∀ a, (w.ctorVals args a).isSome
    · rw [if_pos hall]
      cases construct w.heap (fun a => (w.ctorVals args a).getD .none) SimAttr.all with
      | error e => exact triv
      | ok x => exact triv
    · rw [if_neg hall]; exact triv
  | set s a e =>
    simp only [SStmt.run]
    cases w.sims[s]? with
    | none => exact triv
    | some o =>
      cases e.eval w.vars with
      | none => exact triv
      | some v =>
        dsimp only
        cases a.check w.heap v with
        | error e => exact triv
        | ok u => exact triv
  | get s a =>
    simp only [SStmt.run]
    cases w.sims[s]? with
    | none => exact triv
    | some o => exact triv
  | measure s scan args code fuel ok =>
    cases ho : w.sims[s]? with
    | none => simp only [SStmt.run, ho]; exact triv
    | some o =>
      cases hv : OExpr.evals w.vars args with
      | none => simp only [SStmt.run, ho, hv]; exact triv
      | some vs =>
        obtain ⟨h1, h2⟩ := measure_log (scan := scan) (code := code) (fuel := fuel) (ok := ok) ho hv
        by_cases hs : Starts w o scan
        · rw [h1 hs]
          exact ⟨some s, _, rfl, fun s' h => by cases h; exact ⟨scan, args, code, fuel, ok, rfl⟩⟩
        · rw [h2 hs]; exact triv

theorem measure_heap {w : SimWorld} {s : ℕ} {scan : Bool} {args : List OExpr} {code : Code} {fuel : ℕ} {ok : Bool} {o : SimObj}
    {vs : List OVal} (ho : w.sims[s]? = some o) (hvs : OExpr.evals w.vars args = some vs) (hs : Starts w o scan) :
    (code.run fuel [] (w.start o)).heap <+: ((SStmt.measure s scan args code fuel ok).run w).2.heap := by
  simp only [SStmt.run, ho, hvs]
  unfold Starts at hs
  rw [if_pos hs]
  cases ok with
  | false => exact List.prefix_refl _
  | true => exact (deepcopies_prefix _ _).trans (List.prefix_append _ _)

theorem ClosedSet.extend {h h' : OHeap} {G : ℕ → Prop} (hG : ClosedSet h G) (hp : h <+: h') : ClosedSet h' G := by
  obtain ⟨e, rfl⟩ := hp
  refine ⟨fun r hr => ?_, fun r o q hr ho hq => ?_⟩
  · have := hG.bound r hr
    rw [List.length_append]; omega
  · rw [List.getElem?_append_left (hG.bound r hr)] at ho
    exact hG.refs r o q hr ho hq

theorem Fresh.mono {h h' : OHeap} {G G' : ℕ → Prop} {N : List (ℝ × ℝ)} (hF : Fresh h G N) (hG : ∀ r, G' r → G r)
    (hh : ∀ r, G' r → h'[r]? = h[r]?) : Fresh h' G' N := by
  refine ⟨fun r r' s k k' a b c d => ?_, fun r s k a b => ?_, hF.nodup⟩
  · rw [hh r a] at c
    rw [hh r' b] at d
    exact hF.seeds r r' s k k' (hG r a) (hG r' b) c d
  · rw [hh r a] at b
    exact hF.past r s k (hG r a) b

theorem NoiseInv.reached {w : SimWorld} {S P P2 : ℕ → Prop} {N : List (ℝ × ℝ)} (hi : NoiseInv w S P P2 N) {v : OVal}
    (hv : Spec.Components w S v) : v.on w.heap P True := by
  obtain ⟨s, o, hs, ho, hv⟩ := hv
  rcases hv with rfl | rfl | rfl | rfl <;> intro r hr <;>
    exact ⟨(hi.all.sims s o _ ho r hr).1, (hi.all.sims s o _ ho r hr).2.trans (iff_true_intro hs)⟩

theorem reached_closed {w : SimWorld} {S P P2 : ℕ → Prop} {N : List (ℝ × ℝ)} (hi : NoiseInv w S P P2 N) :
    ClosedSet w.heap (Reached w S) := by
  refine ⟨?_, ?_⟩
  · rintro r ⟨v, hv, hl⟩
    exact hi.all.part.bound r (LeadsTo.part hi.all.part (hi.reached hv) hl)
  · rintro r o q ⟨v, hv, hl⟩ ho hq
    exact ⟨v, hv, .step hl ho hq⟩

theorem NoiseInv.step {w : SimWorld} {S P P2 : ℕ → Prop} {N : List (ℝ × ℝ)} (hi : NoiseInv w S P P2 N) (c : SStmt)
    (hg : ∀ s, S s → ¬ Spec.Gets s c) (hset : ∀ s, S s → ¬ Spec.Sets s c)
    (hcode : ∀ s scan args code fuel ok, S s → c = .measure s scan args code fuel ok → Spec.KeepsGenerators code) :
    ∃ P' P2' L, NoiseInv (c.run w).2 S P' P2' (N ++ Spec.numbersOf S L) ∧ (c.run w).2.log = w.log ++ L := by
  have safe : Safe w (fun _ => False) (fun s _ => S s) c := by
    cases c with
    | prim p => exact ⟨fun _ _ => id, id⟩
    | get s a => exact ⟨fun h => hg s h ⟨a, rfl⟩, id⟩
    | measure s _ _ _ _ _ => exact ⟨Iff.rfl, Iff.rfl, Iff.rfl⟩
    | _ => trivial
  have safe2 : Safe w (fun _ => False) (fun s a => S s ∧ a = .ideal) c := by
    cases c with
    | prim p => exact ⟨fun _ _ => id, id⟩
    | get s a => exact ⟨fun h => hg s h.1 ⟨a, rfl⟩, id⟩
    | measure s _ _ _ _ _ => simp [Safe]
    | _ => trivial
  have nr2 : ¬ RunsIn (fun s a => S s ∧ a = .ideal) c := by
    cases c with
    | measure s _ _ _ _ _ => simp [RunsIn]
    | _ => exact id
  obtain ⟨P1, g1, gr1⟩ := hi.all.step c safe
  obtain ⟨P2', g2, gr2⟩ := hi.ideal.step c safe2
  have keep : ∀ s, S s → ∃ o, w.sims[s]? = some o ∧ (c.run w).2.sims[s]? = some o := by
    intro s hs
    obtain ⟨o', ho', hk⟩ := c.run_sims w (List.getElem?_eq_getElem (hi.made s hs))
    have : o' = w.sims[s]'(hi.made s hs) := by
      funext a
      exact hk a fun e he => hset s hs ⟨a, e, he⟩
    subst this
    exact ⟨_, List.getElem?_eq_getElem (hi.made s hs), ho'⟩
  have comp : ∀ v, Spec.Components (c.run w).2 S v → Spec.Components w S v := by
    rintro v ⟨s, o, hs, ho, hv⟩
    obtain ⟨o', h1, h2⟩ := keep s hs
    rw [ho] at h2
    cases h2
    exact ⟨s, o, hs, h1, hv⟩
  have made : ∀ s, S s → s < (c.run w).2.sims.length := fun s hs => lt_of_lt_of_le (hi.made s hs) (c.run_sims_length w)
  have noGen : ∀ s o, S s → (c.run w).2.sims[s]? = some o → Spec.NoGenerator (c.run w).2.heap (o .ideal) := by
    intro s o hs ho r u hl hu
    obtain ⟨o', h1, h2⟩ := keep s hs
    rw [ho] at h2
    cases h2
    have hk : ∀ r, P2 r → (c.run w).2.heap[r]? = w.heap[r]? := fun r hr =>
      (gr2.2 r (hi.ideal.part.bound r hr)).2 (iff_of_true hr nr2)
    have hon : (o .ideal).on w.heap P2 True := fun r hr =>
      ⟨(hi.ideal.sims s o .ideal h1 r hr).1, (hi.ideal.sims s o .ideal h1 r hr).2.trans (iff_true_intro ⟨hs, rfl⟩)⟩
    have hl' := LeadsTo.kept hi.ideal.part hk hon hl
    rw [hk r (LeadsTo.part hi.ideal.part hon hl')] at hu
    exact hi.noGen s o hs h1 r u hl' hu
  by_cases hr : RunsIn (fun s _ => S s) c
  · cases c with
    | measure s scan args code fuel ok =>
      have hs : S s := hr
      obtain ⟨o, ho, _⟩ := keep s hs
      cases hv : OExpr.evals w.vars args with
      | none =>
        have e : ((SStmt.measure s scan args code fuel ok).run w).2 = w := by simp only [SStmt.run, ho, hv]
        rw [e]
        exact ⟨P, P2, [], by simpa [Spec.numbersOf] using hi, by simp⟩
      | some vs =>
        obtain ⟨l1, l2⟩ := measure_log (scan := scan) (code := code) (fuel := fuel) (ok := ok) ho hv
        by_cases hst : Starts w o scan
        · refine ⟨P1, P2', _, ⟨g1, g2, made, noGen, ?_⟩, l1 hst⟩
          rw [(numbersOf_tag S (some s) _).1 ⟨s, hs, rfl⟩]
          let G : ℕ → Prop := fun r => Reached w S r ∨ ∃ x, Spec.LeadsTo w.heap (o .ideal) x ∧ r = x + w.heap.length
          have rc := reached_closed hi
          have ilt : ∀ x, Spec.LeadsTo w.heap (o .ideal) x → x < w.heap.length := fun x hx =>
            hi.ideal.part.bound x (LeadsTo.part hi.ideal.part (fun r hr =>
              ⟨(hi.ideal.sims s o .ideal ho r hr).1, (hi.ideal.sims s o .ideal ho r hr).2.trans (iff_true_intro ⟨hs, rfl⟩)⟩) hx)
          have look1 : ∀ r, Reached w S r → (w.start o).heap[r]? = w.heap[r]? := fun r hr =>
            List.getElem?_append_left (rc.bound r hr)
          have look2 : ∀ x, Spec.LeadsTo w.heap (o .ideal) x →
              (w.start o).heap[x + w.heap.length]? = (w.heap[x]?).map (OObj.shift w.heap.length) := by
            intro x _
            show (w.heap ++ w.heap.map (OObj.shift w.heap.length))[x + w.heap.length]? = _
            rw [List.getElem?_append_right (by omega), Nat.add_sub_cancel, List.getElem?_map]
          have hG : ClosedSet (w.start o).heap G := by
            refine ⟨?_, ?_⟩
            · show ∀ r, G r → r < (w.heap ++ w.heap.map (OObj.shift w.heap.length)).length
              rw [List.length_append, List.length_map]
              rintro r (hr | ⟨x, hx, rfl⟩)
              · have := rc.bound r hr; omega
              · have := ilt x hx; omega
            · rintro r u q (hr | ⟨x, hx, rfl⟩) hu hq
              · rw [look1 r hr] at hu
                exact Or.inl (rc.refs r u q hr hu hq)
              · rw [look2 x hx] at hu
                obtain ⟨u', hu', rfl⟩ := Option.map_eq_some_iff.1 hu
                obtain ⟨t, rfl, ht⟩ := mem_shift_ref hq
                exact Or.inr ⟨t, .step hx hu' ht, rfl⟩
          have hvars : VarsIn G (w.start o).vars := by
            intro v hvm r hrv
            have slot : ∀ a, (a = .sensor ∨ a = .occD ∨ a = .potD ∨ a = .respD) → o a = .ref r → G r := by
              intro a ha hoa
              refine Or.inl ⟨o a, ⟨s, o, hs, ho, ?_⟩, hoa ▸ .here r⟩
              rcases ha with rfl | rfl | rfl | rfl <;> simp
            have hvm' : v ∈ [(o .ideal).shift w.heap.length, o .sensor, o .occD, o .potD, o .respD] := hvm
            simp only [List.mem_cons, List.not_mem_nil, or_false] at hvm'
            rcases hvm' with h | h | h | h | h
            · subst h
              cases hoi : o .ideal with
              | none => rw [hoi] at hrv; exact nomatch hrv
              | num x => rw [hoi] at hrv; exact nomatch hrv
              | ref x =>
                rw [hoi] at hrv
                simp only [OVal.shift, OVal.ref.injEq] at hrv
                exact Or.inr ⟨x, hoi ▸ .here x, hrv.symm⟩
            · exact slot .sensor (by simp) (h ▸ hrv)
            · exact slot .occD (by simp) (h ▸ hrv)
            · exact slot .potD (by simp) (h ▸ hrv)
            · exact slot .respD (by simp) (h ▸ hrv)
          have gen : ∀ r k, G r → (w.start o).heap[r]? = some ⟨.generator, k⟩ → Reached w S r ∧ w.heap[r]? = some ⟨.generator, k⟩ := by
            rintro r k (hr | ⟨x, hx, rfl⟩) hk
            · rw [look1 r hr] at hk
              exact ⟨hr, hk⟩
            · rw [look2 x hx] at hk
              obtain ⟨u', hu', hsh⟩ := Option.map_eq_some_iff.1 hk
              have := hi.noGen s o hs ho x u' hx hu'
              simp only [OObj.shift, OObj.mk.injEq] at hsh
              exact absurd hsh.1 this
          have hF : Fresh (w.start o).heap G (N ++ (w.start o).log) := by
            have e : (w.start o).log = [] := rfl
            rw [e, List.append_nil]
            refine ⟨fun r r' t k k' a b c d => ?_, fun r t k a b => ?_, hi.fresh.nodup⟩
            · obtain ⟨a1, a2⟩ := gen r _ a c
              obtain ⟨b1, b2⟩ := gen r' _ b d
              exact hi.fresh.seeds r r' t k k' a1 b1 a2 b2
            · obtain ⟨a1, a2⟩ := gen r _ a b
              exact hi.fresh.past r t k a1 a2
          obtain ⟨G', m1, c1, f1⟩ := Code.run_fresh code (hcode s scan args code fuel ok hs rfl) fuel [] hG hvars hF
          have hpre := measure_heap (scan := scan) (code := code) (fuel := fuel) (ok := ok) ho hv hst
          have sub : ∀ r, Reached ((SStmt.measure s scan args code fuel ok).run w).2 S r → G' r := by
            rintro r ⟨v, hcv, hl⟩
            refine LeadsTo.closed (c1.extend hpre) (fun q hq => ?_) hl
            have := comp v hcv
            exact m1 q (Or.inl ⟨v, this, hq ▸ .here q⟩)
          refine f1.mono sub (fun r hr => ?_)
          obtain ⟨e, he⟩ := hpre
          rw [← he, List.getElem?_append_left (c1.bound r (sub r hr))]
        · rw [l2 hst]
          exact ⟨P, P2, [], by simpa [Spec.numbersOf] using hi, by simp⟩
    | _ => exact hr.elim
  · obtain ⟨t, L, hL, ht⟩ := c.run_log w
    refine ⟨P1, P2', _, ⟨g1, g2, made, noGen, ?_⟩, hL⟩
    have hnt : ¬ ∃ s, S s ∧ t = some s := by
      rintro ⟨s, hs, rfl⟩
      obtain ⟨scan, args, code, fuel, ok, rfl⟩ := ht s rfl
      exact hr hs
    rw [(numbersOf_tag S t L).2 hnt, List.append_nil]
    have hk : ∀ r, P r → (c.run w).2.heap[r]? = w.heap[r]? := fun r hP =>
      (gr1.2 r (hi.all.part.bound r hP)).2 (iff_of_true hP hr)
    have sub : ∀ r, Reached (c.run w).2 S r → Reached w S r := by
      rintro r ⟨v, hcv, hl⟩
      exact ⟨v, comp v hcv, LeadsTo.kept hi.all.part hk (hi.reached (comp v hcv)) hl⟩
    refine hi.fresh.mono sub (fun r hr => hk r ?_)
    obtain ⟨v, hcv, hl⟩ := sub r hr
    exact LeadsTo.part hi.all.part (hi.reached hcv) hl

theorem NoiseInv.exec {w : SimWorld} {S P P2 : ℕ → Prop} {N : List (ℝ × ℝ)} (hi : NoiseInv w S P P2 N) (q : List SStmt)
    (hg : ∀ c ∈ q, ∀ s, S s → ¬ Spec.Gets s c) (hset : ∀ c ∈ q, ∀ s, S s → ¬ Spec.Sets s c)
    (hcode : ∀ c ∈ q, ∀ s scan args code fuel ok, S s → c = .measure s scan args code fuel ok → Spec.KeepsGenerators code) :
    ∃ P' P2' L, NoiseInv (w.exec q) S P' P2' (N ++ Spec.numbersOf S L) ∧ (w.exec q).log = w.log ++ L := by
  induction q generalizing w P P2 N with
  | nil => exact ⟨P, P2, [], by simpa [Spec.numbersOf, SimWorld.exec] using hi, by simp [SimWorld.exec]⟩
  | cons c q ih =>
    obtain ⟨P1, P21, L1, i1, l1⟩ := hi.step c (hg c (List.mem_cons_self ..)) (hset c (List.mem_cons_self ..))
      (hcode c (List.mem_cons_self ..))
    obtain ⟨P3, P23, L2, i2, l2⟩ := ih i1 (fun c' h => hg c' (List.mem_cons_of_mem _ h))
      (fun c' h => hset c' (List.mem_cons_of_mem _ h)) (fun c' h => hcode c' (List.mem_cons_of_mem _ h))
    refine ⟨P3, P23, L1 ++ L2, ?_, ?_⟩
    · rw [numbersOf_append, ← List.append_assoc]; exact i2
    · rw [exec_cons, l2, l1, List.append_assoc]

/-- The invariant holds after any program that has not called getters of the simulations. -/
theorem noiseInv_start (p : List SStmt) (S : ℕ → Prop) (hg : ∀ c ∈ p, ∀ s, S s → ¬ Spec.Gets s c)
    (made : ∀ s, S s → s < (SimWorld.init.exec p).sims.length)
    (noGen : ∀ s o, S s → (SimWorld.init.exec p).sims[s]? = some o → Spec.NoGenerator (SimWorld.init.exec p).heap (o .ideal))
    (seeds : Spec.DistinctSeeds (SimWorld.init.exec p).heap (Spec.Components (SimWorld.init.exec p) S)) :
    ∃ P P2, NoiseInv (SimWorld.init.exec p) S P P2 [] := by
  have g0 := fun PS => (guarded_reachable []).future (PV := fun _ => False) (PS := PS) (fun _ _ => id) (fun s' a h => by
    exact absurd h (by simp [SimWorld.exec, SimWorld.init]))
  obtain ⟨P, g1, _⟩ := (g0 (fun s _ => S s)).exec p (by
    intro c hc w _
    cases c with
    | prim p => exact ⟨fun _ _ => id, id⟩
    | get s a => exact ⟨fun h => hg _ hc s h ⟨a, rfl⟩, id⟩
    | measure s _ _ _ _ _ => exact ⟨Iff.rfl, Iff.rfl, Iff.rfl⟩
    | _ => trivial)
  obtain ⟨P2, g2, _⟩ := (g0 (fun s a => S s ∧ a = .ideal)).exec p (by
    intro c hc w _
    cases c with
    | prim p => exact ⟨fun _ _ => id, id⟩
    | get s a => exact ⟨fun h => hg _ hc s h.1 ⟨a, rfl⟩, id⟩
    | measure s _ _ _ _ _ => simp [Safe]
    | _ => trivial)
  refine ⟨P, P2, g1, g2, made, noGen, ⟨?_, ?_, List.nodup_nil⟩⟩
  · rintro r r' s k k' ⟨v, hv, hl⟩ ⟨v', hv', hl'⟩ h1 h2
    exact seeds v v' hv hv' r r' s k k' hl hl' h1 h2
  · intro r s k _ _ k' hk'
    exact absurd hk' List.not_mem_nil

/-! ### Demonstration code -/

/-- Draws from the generator of the first occupation distortion, and then from that of the first response distortion. -/
def demoCode : Code := fun seen => [Prim.load 2 0, .load 5 0, .draw 6, .load 4 0, .load 7 0, .draw 8][seen.length]?

theorem demoCode_log (f : Frame) (a b c : OVal) (n m : ℕ) (k : ℝ) (hv : f.vars = [a, b, .ref (6 + n), c, .ref (8 + m)])
    (h1 : f.heap[6 + n]? = some ⟨.list, [.ref (5 + n)]⟩) (h2 : f.heap[5 + n]? = some ⟨.occDist, [.ref (4 + n)]⟩)
    (h3 : f.heap[4 + n]? = some ⟨.generator, [.num 7, .num k]⟩) (h4 : f.heap[8 + m]? = some ⟨.list, [.ref (7 + m)]⟩)
    (h5 : f.heap[7 + m]? = some ⟨.respDist, [.ref (4 + m)]⟩) (h6 : f.heap[4 + m]? = some ⟨.generator, [.num 7, .num k]⟩)
    (hnm : n + 9 ≤ m ∨ m + 9 ≤ n) : (demoCode.run 6 [] f).log = f.log ++ [(7, k), (7, k)] := by
  obtain ⟨h, v, l⟩ := f
  simp only at hv h1 h2 h3 h4 h5 h6
  subst hv
  have n1 : 4 + n ≠ 8 + m := by omega
  have n2 : 4 + n ≠ 7 + m := by omega
  have n3 : 4 + n ≠ 4 + m := by omega
  simp [Code.run, demoCode, Prim.step, Frame.obj, h1, h2, h3, h4, h5, h6, List.getElem?_set_ne n1, List.getElem?_set_ne n2,
    List.getElem?_set_ne n3]

theorem demoCode_keeps : Spec.KeepsGenerators demoCode := by
  intro seen seed h
  have := List.mem_of_getElem? h
  simp at this

/-- Draws once from the generator of the first occupation distortion. -/
def demoCode1 : Code := fun seen => [Prim.load 2 0, .load 5 0, .draw 6][seen.length]?

theorem demoCode1_log (f : Frame) (a b c d : OVal) (x y z : ℕ) (seed k : ℝ) (hv : f.vars = [a, b, .ref x, c, d])
    (h1 : f.heap[x]? = some ⟨.list, [.ref y]⟩) (h2 : f.heap[y]? = some ⟨.occDist, [.ref z]⟩)
    (h3 : f.heap[z]? = some ⟨.generator, [.num seed, .num k]⟩) :
    demoCode1.run 3 [] f =
      ⟨f.heap.set z ⟨.generator, [.num seed, .num (k + 1)]⟩, f.vars ++ [.ref y, .ref z], f.log ++ [(seed, k)]⟩ := by
  obtain ⟨h, v, l⟩ := f
  simp only at hv h1 h2 h3
  subst hv
  simp [Code.run, demoCode1, Prim.step, Frame.obj, h1, h2, h3]

/-! ### Rebuilding simulations -/

theorem accepted_same {h h' : OHeap} {v v' : OVal} (hs : Spec.Same h v h' v') {a : SimAttr} (ha : Spec.Accepted h a v) :
    Spec.Accepted h' a v' := by
  obtain ⟨B, hc, hm⟩ := hs
  have dist : ∀ c, Spec.IsDistortions h c v → Spec.IsDistortions h' c v' := by
    rintro c ⟨r, o, rfl, hr, hcl, hx⟩
    cases hm with
    | ref hB =>
      obtain ⟨u, u', e1, e2, e3, e4⟩ := hc.obj _ _ hB
      rw [hr] at e1
      cases e1
      refine ⟨_, u', rfl, e2, e3 ▸ hcl, fun x hxm => ?_⟩
      obtain ⟨i, hi⟩ := List.mem_iff_getElem?.1 hxm
      rcases forall₂_getElem? e4 i with ⟨_, hn⟩ | ⟨y, x', h1, h2, h3⟩
      · rw [hi] at hn; exact nomatch hn
      · rw [hi] at h2
        cases h2
        obtain ⟨q, d, rfl, hq, hd⟩ := hx y (List.mem_of_getElem? h1)
        cases h3 with
        | ref hB' =>
          obtain ⟨t, t', f1, f2, f3, _⟩ := hc.obj _ _ hB'
          rw [hq] at f1
          cases f1
          exact ⟨_, t', rfl, f2, f3 ▸ hd⟩
  have cl : ∀ cs, Spec.HasClass h cs v → Spec.HasClass h' cs v' := by
    rintro cs ⟨r, o, rfl, hr, hcl⟩
    cases hm with
    | ref hB =>
      obtain ⟨u, u', e1, e2, e3, _⟩ := hc.obj _ _ hB
      rw [hr] at e1
      cases e1
      exact ⟨_, u', rfl, e2, e3 ▸ hcl⟩
  have lim : (∃ r x y, v = .ref r ∧ h[r]? = some ⟨.array, [x, y]⟩) → ∃ r x y, v' = .ref r ∧ h'[r]? = some ⟨.array, [x, y]⟩ := by
    rintro ⟨r, x, y, rfl, hr⟩
    cases hm with
    | ref hB =>
      obtain ⟨u, ⟨c', fs⟩, e1, e2, e3, e4⟩ := hc.obj _ _ hB
      rw [hr] at e1
      cases e1
      simp only at e3 e4
      subst e3
      obtain ⟨x', l, _, h2, rfl⟩ := List.forall₂_cons_left_iff.1 e4
      obtain ⟨y', l', _, h3, rfl⟩ := List.forall₂_cons_left_iff.1 h2
      cases h3
      exact ⟨_, x', y', rfl, e2⟩
  rcases ha with rfl | ha
  · left
    cases hm
    rfl
  · right
    cases a <;> simp only at ha ⊢
    · exact lim ha
    · exact lim ha
    · exact lim ha
    · exact lim ha
    · exact cl _ ha
    · exact cl _ ha
    · exact dist _ ha
    · exact dist _ ha
    · exact dist _ ha

theorem load_run {w : SimWorld} {i k r : ℕ} {fs : List OVal} {v : OVal} (hi : w.vars[i]? = some (.ref r))
    (hr : w.heap[r]? = some ⟨.metadata, fs⟩) (hk : fs[k]? = some v) :
    ((SStmt.prim (.load i k)).run w).2 = ⟨w.heap, w.vars ++ [v], w.sims, w.log⟩ := by
  simp [SStmt.run, Prim.step, Frame.obj, hi, hr, hk]

/-- The names after loading the entries of the metadata. -/
theorem rebuild_loads {w : SimWorld} {m k r : ℕ} {fs gs : List OVal} (hi : w.vars[m]? = some (.ref r))
    (hr : w.heap[r]? = some ⟨.metadata, fs⟩) {l : List ℕ} (hk : List.Forall₂ (fun j v => fs[k + j]? = some v) l gs) :
    w.exec (l.map fun j => .prim (.load m (k + j))) = ⟨w.heap, w.vars ++ gs, w.sims, w.log⟩ := by
  induction hk generalizing w with
  | nil => simp [SimWorld.exec]
  | cons h _ ih =>
    rw [List.map_cons, exec_cons, load_run hi hr h, ih]
    · simp
    · show (w.vars ++ _)[m]? = _
      rw [List.getElem?_append_left (List.getElem?_eq_some_iff.1 hi).1]; exact hi
    · exact hr

theorem accepted_kept {h h' : OHeap} (hk : ∀ (r : ℕ) (x : OObj), h[r]? = some x → x.cls ≠ .generator → h'[r]? = some x) {a : SimAttr}
    {v : OVal} (ha : Spec.Accepted h a v) : Spec.Accepted h' a v := by
  have dist : ∀ c, c ≠ .generator → Spec.IsDistortions h c v → Spec.IsDistortions h' c v := by
    rintro c hcg ⟨r, o, rfl, hr, hc, hx⟩
    refine ⟨r, o, rfl, hk r o hr (by rcases hc with hc | hc <;> rw [hc] <;> simp), hc, fun x hxm => ?_⟩
    obtain ⟨q, d, rfl, hq, hd⟩ := hx x hxm
    exact ⟨q, d, rfl, hk q d hq (hd ▸ hcg), hd⟩
  have cl : ∀ cs, .generator ∉ cs → Spec.HasClass h cs v → Spec.HasClass h' cs v := by
    rintro cs hcs ⟨r, o, rfl, hr, hc⟩
    exact ⟨r, o, rfl, hk r o hr (fun h => hcs (h ▸ hc)), hc⟩
  have lim : (∃ r x y, v = .ref r ∧ h[r]? = some ⟨.array, [x, y]⟩) → ∃ r x y, v = .ref r ∧ h'[r]? = some ⟨.array, [x, y]⟩ := by
    rintro ⟨r, x, y, rfl, hr⟩
    exact ⟨r, x, y, rfl, hk r _ hr (by simp)⟩
  rcases ha with rfl | ha
  · exact Or.inl rfl
  · right
    cases a <;> simp only at ha ⊢
    · exact lim ha
    · exact lim ha
    · exact lim ha
    · exact lim ha
    · exact cl _ (by simp) ha
    · exact cl _ (by simp) ha
    · exact dist _ (by simp) ha
    · exact dist _ (by simp) ha
    · exact dist _ (by simp) ha

/-- The generator of the first distortion in a copy of a list of distortions. -/
theorem same_chain {h h' : OHeap} {v : OVal} {x y z : ℕ} {seed k : ℝ} (hs : Spec.Same h (.ref x) h' v)
    (h1 : h[x]? = some ⟨.list, [.ref y]⟩) (h2 : h[y]? = some ⟨.occDist, [.ref z]⟩)
    (h3 : h[z]? = some ⟨.generator, [.num seed, .num k]⟩) :
    ∃ x' y' z', v = .ref x' ∧ h'[x']? = some ⟨.list, [.ref y']⟩ ∧ h'[y']? = some ⟨.occDist, [.ref z']⟩ ∧
      h'[z']? = some ⟨.generator, [.num seed, .num k]⟩ := by
  obtain ⟨B, hc, hm⟩ := hs
  have one : ∀ (r r' q : ℕ) (c : OCls), B r r' → h[r]? = some ⟨c, [.ref q]⟩ → ∃ q', B q q' ∧ h'[r']? = some ⟨c, [.ref q']⟩ := by
    intro r r' q c hB hr
    obtain ⟨u, ⟨c', fs⟩, e1, e2, e3, e4⟩ := hc.obj _ _ hB
    rw [hr] at e1
    cases e1
    simp only at e3 e4
    subst e3
    obtain ⟨w, l, f1, f2, rfl⟩ := List.forall₂_cons_left_iff.1 e4
    cases f2
    cases f1 with
    | ref hB' => exact ⟨_, hB', e2⟩
  cases hm with
  | ref hB =>
    obtain ⟨y', hy, e1⟩ := one _ _ _ _ hB h1
    obtain ⟨z', hz, e2⟩ := one _ _ _ _ hy h2
    obtain ⟨u, u', g1, g2, g3, g4⟩ := hc.obj _ _ hz
    rw [h3] at g1
    cases g1
    exact ⟨_, y', z', rfl, e1, e2, by rw [g2, (match_gen g3 g4 seed k).1 rfl]⟩

theorem same_isNone {h h' : OHeap} {v v' : OVal} (hs : Spec.Same h v h' v') : v.isNone = v'.isNone := by
  obtain ⟨B, _, hm⟩ := hs
  cases hm <;> rfl

theorem Prim.step_pure {f : Frame} {p : Prim} (h1 : ∀ i k e, p ≠ .store i k e) (h2 : ∀ i, p ≠ .draw i) :
    f.heap <+: (p.step f).1.heap := by
  cases p with
  | new c es =>
    simp only [Prim.step]
    cases OExpr.evals f.vars es with
    | none => exact List.prefix_refl _
    | some vs =>
      by_cases hc : c = .generator
      · simp only [if_pos hc]; exact List.prefix_refl _
      · simp only [if_neg hc]; exact List.prefix_append _ _
  | newGen s => exact List.prefix_append _ _
  | load i k =>
    simp only [Prim.step]
    cases f.obj i with
    | none => exact List.prefix_refl _
    | some x =>
      dsimp only
      by_cases hg : x.2.cls = .generator
      · rw [if_pos hg]; exact List.prefix_refl _
      · rw [if_neg hg]
        cases x.2.fields[k]? <;> exact List.prefix_refl _
  | store i k e => exact absurd rfl (h1 i k e)
  | draw i => exact absurd rfl (h2 i)
  | same i j =>
    simp only [Prim.step]
    cases f.obj i with
    | none => exact List.prefix_refl _
    | some x => cases f.obj j <;> exact List.prefix_refl _

theorem Code.run_pure {c : Code} (hc : Spec.Pure c) (n : ℕ) (seen : List Obs) (f : Frame) : f.heap <+: (c.run n seen f).heap := by
  induction n generalizing seen f with
  | zero => exact List.prefix_refl _
  | succ n ih =>
    simp only [Code.run]
    cases hs : c seen with
    | none => exact List.prefix_refl _
    | some p =>
      obtain ⟨h1, h2⟩ := hc seen p hs
      exact (Prim.step_pure h1 h2).trans (ih _ _)

/-! ### A simulation with one generator -/

/-- What can be reached from a copied value are the copies of what can be reached from the value. -/
theorem LeadsTo.unshift {h0 h : OHeap} {k : ℕ} (hk : ∀ (r : ℕ) (x : OObj), h0[r]? = some x → h[r + k]? = some (x.shift k))
    {G : ℕ → Prop} (hG : ∀ r, G r → ∃ x : OObj, h0[r]? = some x ∧ ∀ q, OVal.ref q ∈ x.fields → G q) {v : OVal}
    (hv : ∀ r, v = .ref r → G r) {u : OVal} (hu : u = v.shift k) {r : ℕ} (hl : Spec.LeadsTo h u r) : ∃ r0, G r0 ∧ r = r0 + k := by
  induction hl with
  | here r =>
    cases v with
    | ref r0 => cases hu; exact ⟨r0, hv r0 rfl, rfl⟩
    | _ => cases hu
  | step _ ho hq ih =>
    obtain ⟨r0, g0, rfl⟩ := ih hu
    obtain ⟨x, hx, hxq⟩ := hG r0 g0
    rw [hk r0 x hx] at ho
    cases ho
    obtain ⟨y, hy, hyq⟩ := List.mem_map.1 hq
    cases y with
    | ref q0 => cases hyq; exact ⟨q0, hxq q0 hy, rfl⟩
    | _ => cases hyq

/-- Arguments for a simulation with occupation distortions only. -/
def quietArgs (a : SimAttr) : Option OExpr := if a = .respD then none else demoArgs a

def quietVals (a : SimAttr) : OVal := if a = .respD then .none else demoVals a

/-- A simulation in which a single generator can be reached. -/
theorem quiet_made : ∃ h o n ni ns, SimWorld.init.exec (demoSetup ++ [.newSim quietArgs]) = ⟨h, demoVars, [o], []⟩ ∧
    o .ideal = (OVal.ref 3).shift ni ∧ o .sensor = (OVal.ref 2).shift ns ∧ o .occD = (OVal.ref 6).shift n ∧ o .potD = .none ∧
    o .respD = .none ∧ ∀ k, k = n ∨ k = ni ∨ k = ns → ∀ (r : ℕ) (x : OObj), demoHeap[r]? = some x → h[r + k]? = some (x.shift k) := by
  have g := guarded_reachable demoSetup
  have hv : ∀ a, (SimWorld.init.exec demoSetup).ctorVals quietArgs a = some (quietVals a) := by
    rw [demo_setup]
    intro a
    cases a <;> simp [SimWorld.ctorVals, quietArgs, quietVals, demoArgs, demoVals, OExpr.eval, SimAttr.default, demoVars]
  have hac := (newSim_accepts g hv).2 (by
    rw [demo_setup]
    intro a
    have := demo_accepted a
    cases a <;> first | exact this | exact Or.inl rfl)
  have hex : SimWorld.init.exec (demoSetup ++ [.newSim quietArgs]) = ((SStmt.newSim quietArgs).run (SimWorld.init.exec demoSetup)).2 := by
    rw [exec_append]; rfl
  rw [newSim_run g hv] at hac hex
  cases hc : construct (SimWorld.init.exec demoSetup).heap quietVals SimAttr.all with
  | error e => rw [hc] at hac; exact nomatch hac
  | ok x =>
    obtain ⟨h, o⟩ := x
    rw [hc] at hex
    rw [demo_setup] at hc hex
    obtain ⟨n, k1, _⟩ := construct_at (h0 := demoHeap) (by simp [SimAttr.all]) (List.prefix_refl _) hc
    obtain ⟨a1, _, a3⟩ := k1 .occD (mem_all _) (by simp)
    obtain ⟨c1, _, c3⟩ := k1 .ideal (mem_all _) (by simp)
    obtain ⟨d1, _, d3⟩ := k1 .sensor (mem_all _) (by simp [quietVals, demoVals])
    obtain ⟨e1, _, _⟩ := k1 .potD (mem_all _) (by simp)
    obtain ⟨f1, _, _⟩ := k1 .respD (mem_all _) (by simp)
    refine ⟨h, o, n .occD, n .ideal, n .sensor, hex, c1, d1, a1, e1, f1, ?_⟩
    rintro k (rfl | rfl | rfl)
    exacts [a3, c3, d3]

theorem quiet_seeds : Spec.DistinctSeeds (SimWorld.init.exec (demoSetup ++ [.newSim quietArgs])).heap
      (Spec.Components (SimWorld.init.exec (demoSetup ++ [.newSim quietArgs])) (· = 0)) ∧
    ∀ s o, s = 0 → (SimWorld.init.exec (demoSetup ++ [.newSim quietArgs])).sims[s]? = some o →
      Spec.NoGenerator (SimWorld.init.exec (demoSetup ++ [.newSim quietArgs])).heap (o .ideal) := by
  obtain ⟨h, o, n, ni, ns, e, i1, i2, i3, i4, i5, hk⟩ := quiet_made
  rw [e]
  have reach : ∀ v (r : ℕ) sd k, Spec.Components ⟨h, demoVars, [o], []⟩ (· = 0) v → Spec.LeadsTo h v r →
      h[r]? = some ⟨.generator, [.num sd, k]⟩ → r = 4 + n := by
    rintro v r sd k ⟨s, o', rfl, ho, hv⟩ hl hr
    have : o' = o := by simpa using ho.symm
    subst this
    rcases hv with rfl | rfl | rfl | rfl
    · obtain ⟨r0, g0, rfl⟩ := LeadsTo.unshift (hk ns (Or.inr (Or.inr rfl))) (G := fun r => r = 0 ∨ r = 1 ∨ r = 2) (v := .ref 2)
        (by
          rintro r (rfl | rfl | rfl)
          · exact ⟨_, rfl, by simp⟩
          · exact ⟨_, rfl, by simp⟩
          · exact ⟨_, rfl, by simp⟩)
        (by rintro r h; cases h; simp) i2 hl
      exfalso
      rcases g0 with rfl | rfl | rfl
      · have := hk ns (Or.inr (Or.inr rfl)) 0 _ rfl
        rw [hr] at this
        cases this
      · have := hk ns (Or.inr (Or.inr rfl)) 1 _ rfl
        rw [hr] at this
        cases this
      · have := hk ns (Or.inr (Or.inr rfl)) 2 _ rfl
        rw [hr] at this
        cases this
    · obtain ⟨r0, g0, rfl⟩ := LeadsTo.unshift (hk n (Or.inl rfl)) (G := fun r => r = 4 ∨ r = 5 ∨ r = 6) (v := .ref 6)
        (by
          rintro r (rfl | rfl | rfl)
          · exact ⟨_, rfl, by simp⟩
          · exact ⟨_, rfl, by simp⟩
          · exact ⟨_, rfl, by simp⟩)
        (by rintro r h; cases h; simp) i3 hl
      rcases g0 with rfl | rfl | rfl
      · rfl
      · exfalso
        have := hk n (Or.inl rfl) 5 _ rfl
        rw [hr] at this
        cases this
      · exfalso
        have := hk n (Or.inl rfl) 6 _ rfl
        rw [hr] at this
        cases this
    · obtain ⟨r0, g0, _⟩ := LeadsTo.unshift (hk n (Or.inl rfl)) (G := fun _ => False) (v := .none)
        (fun r hr => hr.elim) (by rintro r h; cases h) i4 hl
      exact g0.elim
    · obtain ⟨r0, g0, _⟩ := LeadsTo.unshift (hk n (Or.inl rfl)) (G := fun _ => False) (v := .none)
        (fun r hr => hr.elim) (by rintro r h; cases h) i5 hl
      exact g0.elim
  refine ⟨fun v v' hv hv' r r' sd k k' h1 h2 h3 h4 => ?_, ?_⟩
  · rw [reach v r sd k hv h1 h3, reach v' r' sd k' hv' h2 h4]
  · rintro s o' rfl ho r x hl hr
    have : o' = o := by simpa using ho.symm
    subst this
    obtain ⟨r0, rfl, rfl⟩ := LeadsTo.unshift (hk ni (Or.inr (Or.inl rfl))) (G := fun r => r = 3) (v := .ref 3)
      (by rintro r rfl; exact ⟨_, rfl, by simp⟩) (by rintro r h; cases h; rfl) i1 hl
    have := hk ni (Or.inr (Or.inl rfl)) 3 _ rfl
    rw [show h[3 + ni]? = some x from hr] at this
    cases this
    simp [OObj.shift]

end SimCATS
