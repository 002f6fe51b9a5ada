import Verif.Lemmas.Keeps
import Verif.Props.Simulation
import Verif.Props.ScanSignal
import Verif.Lemmas.ExtendedConfig
import Verif.Props.Labels

/-!
What the distortion objects report after a whole measurement.
-/

namespace SimCATS

open Spec

variable {τ O α : Type}

theorem Spec.Steps.congr {step step' : O → α → τ → α → τ → Prop} : ∀ {os : List O} {x y : α} {g g' : τ},
    (∀ o ∈ os, ∀ x g y g', step o x g y g' → step' o x g y g') → Steps step os x g y g' → Steps step' os x g y g'
  | _, _, _, _, _, _, .nil x g => .nil x g
  | _, _, _, _, _, h, .cons first rest => .cons (h _ List.mem_cons_self _ _ _ _ first) (rest.congr fun o ho => h o (List.mem_cons_of_mem _ ho))

theorem occName_eq (o : OccObject τ) : Distinct.occName o = o.key := by cases o <;> rfl

theorem sigName_eq (o : SigObject τ) : Distinct.sigName o = o.key := by cases o <;> rfl

theorem occReport_report (s : SimState τ) (o : OccObject τ) : occReport s o = report o.key s.2 := by cases o <;> rfl

theorem sigReport_report (s : SimState τ) (o : SigObject τ) : sigReport s o = report o.key s.2 := by cases o <;> rfl

/-- The keys of the three lists are different. -/
theorem distinct_keys {sim : AnySim τ} (h : Distinct sim) : ((sim.occ.getD []).map OccObject.key).Nodup ∧
    ((sim.pot.getD []).map SigObject.key).Nodup ∧ ((sim.resp.getD []).map SigObject.key).Nodup ∧
    (∀ o ∈ sim.occ.getD [], o.key ∉ (sim.pot.getD []).map SigObject.key ∧ o.key ∉ (sim.resp.getD []).map SigObject.key) ∧
    ∀ o ∈ sim.pot.getD [], o.key ∉ (sim.resp.getD []).map SigObject.key := by
  unfold Distinct at h
  rw [List.map_congr_left (g := OccObject.key) fun o _ => occName_eq o, List.map_congr_left (g := SigObject.key) fun o _ => sigName_eq o,
    List.map_congr_left (g := SigObject.key) fun o _ => sigName_eq o, List.nodup_append, List.nodup_append] at h
  obtain ⟨⟨h1, h2, h12⟩, h3, h123⟩ := h
  refine ⟨h1, h2, h3, fun o ho => ⟨fun hk => ?_, fun hk => ?_⟩, fun o ho hk => ?_⟩
  · exact h12 _ (List.mem_map_of_mem ho) _ hk rfl
  · exact h123 _ (List.mem_append_left _ (List.mem_map_of_mem ho)) _ hk rfl
  · exact h123 _ (List.mem_append_right _ (List.mem_map_of_mem ho)) _ hk rfl

theorem getD_map {β : Type} (l : Option (List O)) (f : O → β) : (l.map fun ds => ds.map f).getD [] = (l.getD []).map f := by
  cases l <;> rfl

theorem generic_rank {d : SensorGeneric} {occ : Scan (ℝ × ℝ)} {g1 g2 : ℝ × ℝ} {p : Scan ℝ} (h : d.potential occ g1 g2 = .ok p) :
    sameRank occ p = true := by
  unfold SensorGeneric.potential at h
  cases occ with
  | d0 v => exact nomatch h
  | d1 n f =>
    dsimp only at h
    split at h
    · exact nomatch h
    · cases h
      rfl
  | d2 r c f =>
    dsimp only at h
    split at h
    · exact nomatch h
    · cases h
      rfl

theorem scan_ranks {d : ScanSensor} {occ : Scan (ℝ × ℝ)} {g1 g2 s1 s2 : VoltArg} {st st' : Option ScanState} {mu : Scan (Fin 3 → ℝ)}
    (h : d.potential occ g1 g2 s1 s2 st = (.ok mu, st')) : (potRows mu).all (fun p => sameRank occ p) = true := by
  unfold ScanSensor.potential at h
  cases occ with
  | d0 v => exact nomatch (Prod.mk.inj h).1
  | d1 n f =>
    dsimp only at h
    split at h
    · exact nomatch (Prod.mk.inj h).1
    · have h := (Prod.mk.inj h).1
      unfold ScanSensor.potentialArray at h
      dsimp only at h
      split at h
      · exact nomatch h
      · cases h
        rfl
  | d2 r c f =>
    dsimp only at h
    split at h
    · exact nomatch (Prod.mk.inj h).1
    · have h := (Prod.mk.inj h).1
      unfold ScanSensor.potentialArray at h
      dsimp only at h
      split at h
      · exact nomatch h
      · cases h
        rfl

theorem ideal_keeps {σ : Type} {rep : Fin 3 × ℕ → σ → Option ℝ × Option Bool} (cfg : IdealCfg) (lab : Labelling) :
    GenKeeps rep (idealGen cfg lab) := by
  intro k v g1 g2 res s hs
  unfold idealGen
  cases idealCsd cfg lab [g1.1, g1.2] [g2.1, g2.2] res <;> exact hs

theorem ideal_still {σ : Type} {gens : σ → τ} (cfg : IdealCfg) (lab : Labelling) : GenStill gens (idealGen cfg lab) := by
  intro v g1 g2 res s hs
  unfold idealGen
  cases idealCsd cfg lab [g1.1, g1.2] [g2.1, g2.2] res <;> exact hs

theorem ideal_ok {σ : Type} {cfg : IdealCfg} {lab : Labelling} {g1 g2 : ℝ × ℝ} {res : Resolution} {x : CsdData} {s s' : σ}
    (h : idealGen cfg lab g1 g2 res s = (.ok x, s')) : (∃ out, idealCsd cfg lab [g1.1, g1.2] [g2.1, g2.2] res = .ok out ∧ x = out.data) ∧ s' = s := by
  unfold idealGen at h
  cases e : idealCsd cfg lab [g1.1, g1.2] [g2.1, g2.2] res with
  | error e' => rw [e] at h; exact nomatch (Prod.mk.inj h).1
  | ok out =>
    rw [e] at h
    cases h
    exact ⟨⟨out, rfl, rfl⟩, rfl⟩

theorem check_ranges {lim : Limits} {b : Bool} {rq : Request} {g1 g2 : ℝ × ℝ} (h : measureCheck lim b rq = .ok (g1, g2)) :
    rq.g1 = [g1.1, g1.2] ∧ rq.g2 = [g2.1, g2.2] := C02_ranges _ _ _ _ _ h

/-- The part of a measurement after the sensor has been asked, for the response distortions. -/
theorem resp_told {σ : Type} {rep : Fin 3 × ℕ → σ → Option ℝ × Option Bool} {gens : σ → τ} {dist : SigObject τ → SigDist σ}
    (hd : ∀ o, SigTells rep gens o.key o (dist o)) {resp : Option (List (SigObject τ))} (hn : ((resp.getD []).map SigObject.key).Nodup)
    {g1 g2 : ℝ × ℝ} {x y : Scan ℝ} {s s' : σ} (h : distortResponse g1 g2 (resp.map fun l => l.map dist) x s = (.ok y, s')) :
    Steps (fun o => SigDid (rep o.key s') o) (resp.getD []) x (gens s) y (gens s') ∧
      ∀ k ∉ (resp.getD []).map SigObject.key, rep k s' = rep k s := by
  cases resp with
  | none =>
    cases h
    exact ⟨.nil _ _, fun _ _ => rfl⟩
  | some l =>
    exact ⟨applySig_told hd g1 g2 l hn x y s s' h, fun k hk => (applySig_keepsAt hd g1 g2 k _ l hk x).ok h rfl⟩

theorem generic_told {sim : AnySim τ} {lab : Labelling} {d : SensorGeneric} (hd : Distinct sim) {rq : Request} {s s' : ObjState τ}
    {csd : Scan ℝ} {occ : Scan (ℝ × ℝ)} {lead : Scan ℕ} (h : measure (sim.generic lab d) rq s = (.ok (csd, occ, lead), s')) :
    ∃ cfg ideal g1 g2 pot pot' a b, sim.ideal = some cfg ∧ rq.g1 = [g1.1, g1.2] ∧ rq.g2 = [g2.1, g2.2] ∧
      idealCsd cfg lab rq.g1 rq.g2 rq.res = .ok ideal ∧
      Steps (fun o => OccDid g1 g2 (report o.key s') o) (sim.occ.getD []) ideal.data s.gens (occ, lead) a ∧
      d.potential occ g1 g2 = .ok pot ∧ Steps (fun o => SigDid (report o.key s') o) (sim.pot.getD []) pot a pot' b ∧
      Steps (fun o => SigDid (report o.key s') o) (sim.resp.getD []) (d.response pot') b csd s'.gens := by
  obtain ⟨n1, n2, n3, d12, d23⟩ := distinct_keys hd
  obtain ⟨g1, g2, gen, hck, hg, hr⟩ := measure_ok h
  obtain ⟨cfg, hcfg, rfl⟩ := Option.map_eq_some_iff.1 hg
  obtain ⟨r1, r2⟩ := check_ranges hck
  unfold measureRun at hr
  obtain ⟨x, t1, h1, hr⟩ := M.bind_ok.1 hr
  obtain ⟨⟨⟨occ', lead'⟩, gen'⟩, t2, h2, hr⟩ := M.bind_ok.1 hr
  obtain ⟨pot, t3, h3, hr⟩ := M.bind_ok.1 hr
  obtain ⟨pot', t4, h4, hr⟩ := M.bind_ok.1 hr
  obtain ⟨resp, t5, h5, hr⟩ := M.bind_ok.1 hr
  obtain ⟨csd', t6, h6, hr⟩ := M.bind_ok.1 hr
  cases hr
  obtain ⟨⟨out, hi, rfl⟩, rfl⟩ := ideal_ok h1
  have k2 : applyOcc g1 g2 ((sim.occ.getD []).map OccObject.dist) (idealGen cfg lab) out.data t1 = (.ok ((occ', lead'), gen'), t2) := by
    rw [← getD_map]
    exact h2
  have k2 := applyOcc_told occObject_tells g1 g2 _ n1 _ (ideal_keeps cfg lab) (ideal_still cfg lab) _ _ _ _ _ k2
  have k3 : ∃ p, d.potential occ' g1 g2 = .ok p ∧ pot = .single p ∧ t3 = t2 := by
    change (match d.potential occ' g1 g2 with | .ok p => pure (Pot.single p) | .error e => M.raise e : M (ObjState τ) Pot) t2 = _ at h3
    cases e : d.potential occ' g1 g2 with
    | error e' => rw [e] at h3; exact nomatch (Prod.mk.inj h3).1
    | ok p =>
      rw [e] at h3
      cases h3
      exact ⟨p, rfl, rfl, rfl⟩
  obtain ⟨p, k3, rfl, rfl⟩ := k3
  have k4 : ∃ q, pot' = .single q ∧ applySig g1 g2 ((sim.pot.getD []).map SigObject.dist) p t3 = (.ok q, t4) := by
    change distortPotential g1 g2 occ' (sim.pot.map fun l => l.map SigObject.dist) (.single p) t3 = _ at h4
    cases hp : sim.pot with
    | none =>
      rw [hp] at h4
      cases h4
      exact ⟨p, rfl, rfl⟩
    | some l =>
      rw [hp] at h4
      unfold distortPotential at h4
      dsimp only [Option.map_some] at h4
      rw [if_pos (generic_rank k3)] at h4
      obtain ⟨q, t, h4, h4'⟩ := M.bind_ok.1 h4
      cases h4'
      exact ⟨q, rfl, h4⟩
  obtain ⟨q, rfl, k4⟩ := k4
  have e4 := applySig_told sigObject_tells g1 g2 _ n2 _ _ _ _ k4
  cases h5
  obtain ⟨k6, e6⟩ := resp_told sigObject_tells n3 h6
  refine ⟨cfg, out, g1, g2, p, q, t3.gens, t4.gens, hcfg, r1, r2, by rw [r1, r2]; exact hi, ?_, k3, ?_, k6⟩
  · refine k2.congr fun o ho x g y g' h => ?_
    rw [e6 _ (d12 o ho).2, (applySig_keepsAt sigObject_tells g1 g2 _ (report o.key t3) _ (d12 o ho).1 p).ok k4 rfl]
    exact h
  · refine e4.congr fun o ho x g y g' h => ?_
    rw [e6 _ (d23 o ho)]
    exact h

/-- The state beside that of the sensor. -/
abbrev sideReport (k : Fin 3 × ℕ) (p : SimState τ) : Option ℝ × Option Bool := report k p.2

theorem occ_side (o : OccObject τ) : OccTells sideReport (fun p : SimState τ => p.2.gens) o.key o o.dist.beside :=
  occ_tells_beside (occObject_tells o)

theorem sig_side (o : SigObject τ) : SigTells sideReport (fun p : SimState τ => p.2.gens) o.key o o.dist.beside :=
  sig_tells_beside (sigObject_tells o)

theorem map_beside {β γ : Type} (l : Option (List O)) (f : O → β) (g : β → γ) : (l.map fun ds => (ds.map f).map g) = l.map fun ds => ds.map fun o => g (f o) := by
  cases l with
  | none => rfl
  | some l => simp

theorem applyOcc_first {g1 g2 : ℝ × ℝ} : ∀ (os : List (OccObject τ)) (gen gen' : Gen (SimState τ)) (x y : CsdData) (s s' : SimState τ),
    applyOcc g1 g2 (os.map fun o => o.dist.beside) gen x s = (.ok (y, gen'), s') → s'.1 = s.1
  | [], _, _, _, _, _, _, h => by
    cases h
    rfl
  | o :: os, gen, gen', x, y, s, s', h => by
    obtain ⟨z, t, h1, h2⟩ := M.bind_ok.1 h
    exact (applyOcc_first os _ _ _ _ _ _ h2).trans (congrArg (fun p => p.2.1) h1).symm

theorem applySig_first {g1 g2 : ℝ × ℝ} : ∀ (os : List (SigObject τ)) (x y : Scan ℝ) (s s' : SimState τ),
    applySig g1 g2 (os.map fun o => o.dist.beside) x s = (.ok y, s') → s'.1 = s.1
  | [], _, _, _, _, h => by
    cases h
    rfl
  | o :: os, x, y, s, s', h => by
    obtain ⟨z, t, h1, h2⟩ := M.bind_ok.1 h
    exact (applySig_first os _ _ _ _ h2).trans (congrArg (fun p => p.2.1) h1).symm

theorem distortRows_first {g1 g2 : ℝ × ℝ} (o : SigObject τ) : ∀ (xs ys : List (Scan ℝ)) (s s' : SimState τ),
    distortRows g1 g2 o.dist.beside xs s = (.ok ys, s') → s'.1 = s.1
  | [], _, _, _, h => by
    cases h
    rfl
  | x :: xs, ys, s, s', h => by
    obtain ⟨z, t, h1, h2⟩ := M.bind_ok.1 h
    obtain ⟨zs, t', h2, h3⟩ := M.bind_ok.1 h2
    cases h3
    exact (distortRows_first o _ _ _ _ h2).trans (congrArg (fun p => p.2.1) h1).symm

theorem applyRows_first {g1 g2 : ℝ × ℝ} : ∀ (os : List (SigObject τ)) (xs ys : List (Scan ℝ)) (s s' : SimState τ),
    applyRows g1 g2 (os.map fun o => o.dist.beside) xs s = (.ok ys, s') → s'.1 = s.1
  | [], _, _, _, _, h => by
    cases h
    rfl
  | o :: os, x, y, s, s', h => by
    obtain ⟨z, t, h1, h2⟩ := M.bind_ok.1 h
    exact (applyRows_first os _ _ _ _ h2).trans (distortRows_first o _ _ _ _ h1)

theorem potRows_nonempty (mu : Scan (Fin 3 → ℝ)) : potRows mu ≠ [] := List.cons_ne_nil _ _

theorem resp_first {resp : Option (List (SigObject τ))} {g1 g2 : ℝ × ℝ} {x y : Scan ℝ} {s s' : SimState τ}
    (h : distortResponse g1 g2 (resp.map fun l => l.map fun o => o.dist.beside) x s = (.ok y, s')) : s'.1 = s.1 := by
  cases resp with
  | none =>
    cases h
    rfl
  | some l => exact applySig_first l _ _ _ _ h

theorem scan_told {sim : AnySim τ} {lab : Labelling} {d : ScanSensor} (hd : Distinct sim) {rq : Request} {s s' : SimState τ}
    {csd : Scan ℝ} {occ : Scan (ℝ × ℝ)} {lead : Scan ℕ} (h : measure (sim.scan lab d).csd rq s = (.ok (csd, occ, lead), s')) :
    ∃ cfg ideal g1 g2 mu mu' rows resp st a b, sim.ideal = some cfg ∧ rq.g1 = [g1.1, g1.2] ∧ rq.g2 = [g2.1, g2.2] ∧
      idealCsd cfg lab rq.g1 rq.g2 rq.res = .ok ideal ∧
      Steps (fun o => OccDid g1 g2 (report o.key s'.2) o) (sim.occ.getD []) ideal.data s.2.gens (occ, lead) a ∧
      d.potential occ (.arr g1) (.arr g2) (voltOfOption rq.s1) (voltOfOption rq.s2) s.1 = (.ok mu, st) ∧
      Steps (fun o => LastTold (report o.key s'.2) o) (sim.pot.getD []) (potRows mu) a rows b ∧ fromRows rows = .ok mu' ∧
      d.response mu' st = (.ok resp, s'.1) ∧ Steps (fun o => SigDid (report o.key s'.2) o) (sim.resp.getD []) resp b csd s'.2.gens := by
  obtain ⟨n1, n2, n3, d12, d23⟩ := distinct_keys hd
  obtain ⟨g1, g2, gen, hck, hg, hr⟩ := measure_ok h
  obtain ⟨cfg, hcfg, rfl⟩ := Option.map_eq_some_iff.1 hg
  obtain ⟨r1, r2⟩ := check_ranges hck
  unfold measureRun at hr
  obtain ⟨x, t1, h1, hr⟩ := M.bind_ok.1 hr
  obtain ⟨⟨⟨occ', lead'⟩, gen'⟩, t2, h2, hr⟩ := M.bind_ok.1 hr
  obtain ⟨pot, t3, h3, hr⟩ := M.bind_ok.1 hr
  obtain ⟨pot', t4, h4, hr⟩ := M.bind_ok.1 hr
  obtain ⟨resp, t5, h5, hr⟩ := M.bind_ok.1 hr
  obtain ⟨csd', t6, h6, hr⟩ := M.bind_ok.1 hr
  cases hr
  obtain ⟨⟨out, hi, rfl⟩, rfl⟩ := ideal_ok h1
  have k2 : applyOcc g1 g2 ((sim.occ.getD []).map fun o => o.dist.beside) (idealGen cfg lab) out.data t1 = (.ok ((occ', lead'), gen'), t2) := by
    rw [← getD_map, ← map_beside]
    exact h2
  have f2 := applyOcc_told occ_side g1 g2 _ n1 _ (ideal_keeps cfg lab) (ideal_still cfg lab) _ _ _ _ _ k2
  have m2 : t2.1 = t1.1 := applyOcc_first _ _ _ _ _ _ _ k2
  obtain ⟨mu, t, k3, h3⟩ := M.bind_ok.1 h3
  cases h3
  obtain ⟨k3, m3⟩ := onSensor_iff.1 k3
  rw [m2] at k3
  have k4 : ∃ rows, pot' = .multi rows ∧ applyRows g1 g2 ((sim.pot.getD []).map fun o => o.dist.beside) (potRows mu) t3 = (.ok rows, t4) := by
    change distortPotential g1 g2 occ' (sim.pot.map fun l => (l.map SigObject.dist).map SigDist.beside) (.multi (potRows mu)) t3 = _ at h4
    rw [map_beside] at h4
    cases hp : sim.pot with
    | none =>
      rw [hp] at h4
      cases h4
      exact ⟨_, rfl, rfl⟩
    | some l =>
      rw [hp] at h4
      unfold distortPotential at h4
      dsimp only [Option.map_some] at h4
      rw [if_pos (scan_ranks k3)] at h4
      obtain ⟨q, t, h4, h4'⟩ := M.bind_ok.1 h4
      cases h4'
      exact ⟨q, rfl, h4⟩
  obtain ⟨rows, rfl, k4⟩ := k4
  have f4 := applyRows_told sig_side g1 g2 _ n2 _ (potRows_nonempty mu) _ _ _ k4
  have m4 := applyRows_first _ _ _ _ _ k4
  obtain ⟨mu', t, k5, h5⟩ := M.bind_ok.1 h5
  rw [ofPy_run] at k5
  obtain ⟨k5', rfl⟩ := Prod.mk.inj k5
  obtain ⟨h5, m5⟩ := onSensor_iff.1 h5
  change distortResponse g1 g2 (sim.resp.map fun l => (l.map SigObject.dist).map SigDist.beside) resp t5 = _ at h6
  rw [map_beside] at h6
  obtain ⟨f6, e6⟩ := resp_told sig_side n3 h6
  have m6 := resp_first h6
  rw [m4] at h5
  refine ⟨cfg, out, g1, g2, mu, mu', rows, resp, t3.1, t2.2.gens, t4.2.gens, hcfg, r1, r2, by rw [r1, r2]; exact hi, ?_, k3, ?_, k5', ?_, ?_⟩
  · refine f2.congr fun o ho x g y g' h => ?_
    have := (applyRows_keeps sig_side g1 g2 _ (sideReport o.key t3) _ (d12 o ho).1 (potRows mu)).ok k4 rfl
    have e := e6 _ (d12 o ho).2
    dsimp only [sideReport] at this e
    rw [e, m5, this, m3]
    exact h
  · rw [← m3]
    refine f4.congr fun o ho x g y g' h => ?_
    have e := e6 _ (d23 o ho)
    dsimp only [sideReport] at e
    rw [e, m5]
    exact h
  · rw [m6]
    exact h5
  · rw [← m5]
    exact f6

theorem scanOcc_gens {sim : AnySim τ} {lab : Labelling} {rq : ScanRequest} {s s' : SimState τ} {occ : Scan (ℝ × ℝ)}
    (h : scanOcc (sim.ideal.map fun cfg => idealGen cfg lab) rq s = (.ok occ, s')) : s' = s := by
  have hp : ∀ {α : Type} {x : Py α} {a : α} {s s' : SimState τ}, ofPy x s = (.ok a, s') → s' = s := fun h => by
    rw [ofPy_run] at h
    exact (Prod.mk.inj h).2.symm
  unfold scanOcc at h
  generalize sim.ideal = i at h
  cases i with
  | none => exact hp h
  | some cfg =>
    cases e1 : rq.g1 with
    | none => rw [e1] at h; exact hp h
    | arr g => rw [e1] at h; exact hp h
    | num b v =>
      cases e2 : rq.g2 with
      | none => rw [e1, e2] at h; exact hp h
      | arr g => rw [e1, e2] at h; exact hp h
      | num b' w =>
        rw [e1, e2] at h
        obtain ⟨x, t1, h1, h⟩ := M.bind_ok.1 h
        obtain ⟨y, t2, h2, h⟩ := M.bind_ok.1 h
        obtain ⟨z, t3, h3, h⟩ := M.bind_ok.1 h
        rw [hp h, hp h3, hp h2, (ideal_ok h1).2]

theorem sensor_scan_told {sim : AnySim τ} {lab : Labelling} {d : ScanSensor} (hd : Distinct sim) {rq : ScanRequest} {s s' : SimState τ}
    {scan : Scan ℝ} {cond peaks : Scan ℕ} (h : measureSensorScan (sim.scan lab d) rq s = (.ok (scan, cond, peaks), s')) :
    ∃ s1 s2 : ℝ × ℝ, rq.s1 = [s1.1, s1.2] ∧ rq.s2 = [s2.1, s2.2] ∧ ∃ occ mu mu' rows resp st st' st'' b,
      scanOcc (sim.ideal.map fun cfg => idealGen cfg lab) rq s = (.ok occ, s) ∧
      d.potential occ rq.g1 rq.g2 (.arr s1) (.arr s2) s.1 = (.ok mu, st) ∧
      Steps (fun o => LastTold (report o.key s'.2) o) (sim.pot.getD []) (potRows mu) s.2.gens rows b ∧ fromRows rows = .ok mu' ∧
      d.response mu' st' = (.ok resp, st'') ∧ Steps (fun o => SigDid (report o.key s'.2) o) (sim.resp.getD []) resp b scan s'.2.gens ∧
      ∀ o ∈ sim.occ.getD [], report o.key s'.2 = report o.key s.2 := by
  obtain ⟨n1, n2, n3, d12, d23⟩ := distinct_keys hd
  unfold measureSensorScan at h
  cases hc : scanCheck (sim.scan lab d).lim true rq with
  | error e => rw [hc] at h; exact nomatch (Prod.mk.inj h).1
  | ok g =>
    obtain ⟨s1, s2⟩ := g
    rw [hc] at h
    dsimp only at h
    obtain ⟨r1, r2⟩ : rq.s1 = [s1.1, s1.2] ∧ rq.s2 = [s2.1, s2.2] := scanCheck_ranges _ _ _ _ _ hc
    unfold scanRun at h
    obtain ⟨occ, t1, h1, h⟩ := M.bind_ok.1 h
    obtain ⟨mu, t2, h2, h⟩ := M.bind_ok.1 h
    obtain ⟨mu0, t3, h3, h⟩ := M.bind_ok.1 h
    obtain ⟨masks, t4, h4, h⟩ := M.bind_ok.1 h
    obtain ⟨mu', t5, h5, h⟩ := M.bind_ok.1 h
    obtain ⟨resp, t6, h6, h⟩ := M.bind_ok.1 h
    obtain ⟨scan', t7, h7, h⟩ := M.bind_ok.1 h
    cases h
    have e1 := scanOcc_gens h1
    subst e1
    obtain ⟨k2, m2⟩ := onSensor_iff.1 h2
    obtain ⟨-, m3⟩ := onSensor_iff.1 h3
    obtain ⟨-, m4⟩ := onSensor_iff.1 h4
    obtain ⟨k6, m6⟩ := onSensor_iff.1 h6
    have k5 : ∃ rows, applyRows s1 s2 ((sim.pot.getD []).map fun o => o.dist.beside) (potRows mu) t4 = (.ok rows, t5) ∧ fromRows rows = .ok mu' := by
      change distortScanPot s1 s2 (sim.pot.map fun l => (l.map SigObject.dist).map SigDist.beside) mu t4 = _ at h5
      rw [map_beside] at h5
      cases hp : sim.pot with
      | none =>
        rw [hp] at h5
        cases h5
        exact ⟨_, rfl, fromRows_potRows _⟩
      | some l =>
        rw [hp] at h5
        obtain ⟨rows, t, h8, h9⟩ := M.bind_ok.1 h5
        rw [ofPy_run] at h9
        obtain ⟨h10, rfl⟩ := Prod.mk.inj h9
        exact ⟨rows, h8, h10⟩
    obtain ⟨rows, k5, k5'⟩ := k5
    have f5 := applyRows_told sig_side s1 s2 _ n2 _ (potRows_nonempty mu) _ _ _ k5
    change distortResponse s1 s1 (sim.resp.map fun l => (l.map SigObject.dist).map SigDist.beside) resp t6 = _ at h7
    rw [map_beside] at h7
    obtain ⟨f7, e7⟩ := resp_told sig_side n3 h7
    have m : t4.2 = t1.2 := by rw [m4, m3, m2]
    refine ⟨s1, s2, r1, r2, occ, mu, mu', rows, resp, t2.1, t5.1, t6.1, t5.2.gens, h1, k2, ?_, k5', k6, ?_, fun o ho => ?_⟩
    · rw [← m]
      refine f5.congr fun o ho x g y g' h => ?_
      have e := e7 _ (d23 o ho)
      dsimp only [sideReport] at e
      rw [e, m6]
      exact h
    · rw [← m6]
      exact f7
    · have e := e7 _ (d12 o ho).2
      have k := (applyRows_keeps sig_side s1 s2 _ (sideReport o.key t4) _ (d12 o ho).1 (potRows mu)).ok k5 rfl
      dsimp only [sideReport] at e k
      rw [e, m6, k, m]

/-- Noise of a fixed strength reports it for every signal. -/
theorem lastTold_constant {rep : Option ℝ × Option Bool} {i : ℕ} {v : ℝ} {noise : ℝ → ℕ → M τ (List ℝ)} {xs ys : List (Scan ℝ)} {g g' : τ}
    (h : LastTold rep (.additive i (pure v) noise) xs g ys g') : rep = (some v, none) ∧ EachTold rep (.additive i (pure v) noise) xs g ys g' := by
  have hr : ∀ {r : Option ℝ × Option Bool} {x y : Scan ℝ} {g g' : τ}, SigDid r (.additive i (pure v) noise) x g y g' → r = (some v, none) := by
    rintro r x y g g' ⟨σ, h, l, h1, -, h2, -⟩
    cases h1
    exact h2
  induction h with
  | last only => exact ⟨hr only, .cons only (.nil _)⟩
  | cons first rest ih =>
    refine ⟨ih.1, .cons ?_ ih.2⟩
    rw [ih.1, ← hr first]
    exact first

/-! ### A sensor scan with noise whose strength is drawn -/

/-- Noise whose strength is given by a sampler; the noise itself is 0. -/
noncomputable def silentNoise (sigma : M ℕ ℝ) : SigObject ℕ := .additive 0 sigma fun _ n t => (.ok (List.replicate n 0), t)

/-- A sensor scan sensor with this noise on the potentials. -/
noncomputable def silentSim (sigma : M ℕ ℝ) : AnySim ℕ where
  lim := ⟨none, none, none, none⟩
  ideal := none
  sensor := .scan (twoPeaks [])
  occ := some []
  pot := some [silentNoise sigma]
  resp := some []

theorem silent_total {sigma : M ℕ ℝ} (hs : ∀ n, ∃ v m, sigma n = (.ok v, m)) (x : Scan ℝ) (g1 g2 : ℝ × ℝ) (s : ObjState ℕ) :
    ∃ y s', (silentNoise sigma).dist x g1 g2 s = (.ok y, s') ∧ addNoise x (List.replicate x.size 0) = .ok y := by
  obtain ⟨v, m, hv⟩ := hs s.gens
  obtain ⟨y, hy⟩ : ∃ y, addNoise x (List.replicate x.size 0) = .ok y := by
    unfold addNoise
    rw [if_neg (by simp)]
    cases x <;> exact ⟨_, rfl⟩
  refine ⟨y, { s with sigma := Function.update s.sigma 0 (some v), gens := m }, ?_, hy⟩
  have h1 : drawing sigma s = (.ok v, { s with gens := m }) := by
    unfold drawing
    rw [hv]
  show (sigmaSlot ℕ 0).run (WhiteNoise.noiseFunction ⟨drawing sigma, fun v n => drawing fun t => (.ok (List.replicate n 0), t)⟩ x g1 g2) s = _
  refine run_of (sigmaSlot ℕ 0) (p := (some v, { s with gens := m })) ?_ rfl
  unfold WhiteNoise.noiseFunction
  have h2 : onRest (drawing sigma) ((sigmaSlot ℕ 0).get s, s) = (.ok v, ((sigmaSlot ℕ 0).get s, { s with gens := m })) :=
    onRest_eq (D := Option ℝ) h1 ((sigmaSlot ℕ 0).get s)
  rw [M.step h2, M.step (setOwn_run _ _ _)]
  have h3 : onRest (drawing (fun t : ℕ => ((.ok (List.replicate x.size 0) : Py (List ℝ)), t))) ((some v : Option ℝ), ({ s with gens := m } : ObjState ℕ)) =
      (.ok (List.replicate x.size 0), ((some v : Option ℝ), ({ s with gens := m } : ObjState ℕ))) := rfl
  rw [M.step h3, ofPy_run, hy]

theorem silent_scan (lab : Labelling) {sigma : M ℕ ℝ} (hs : ∀ n, ∃ v m, sigma n = (.ok v, m)) (s : SimState ℕ) :
    ∃ scan cond peaks s', (silentSim sigma).measureScan lab ⟨[-1 / 2, 1], [0, 2], .none, .none, .int 2⟩ s = (.ok (scan, cond, peaks), s') := by
  obtain ⟨f, hf⟩ := potential_d1 (twoPeaks []) (n := 2) (by norm_num) (fun _ => (0, 0)) .none .none (.arr (-1 / 2, 1)) (.arr (0, 2)) (Or.inl ⟨rfl, rfl⟩)
  obtain ⟨scan, cond, peaks, s', h, -⟩ := beside_scan (sim := (silentSim sigma).scan lab (twoPeaks [])) (occD := []) (pot := [(silentNoise sigma).dist])
    (resp := []) ⟨rfl, rfl, rfl, rfl⟩ (ps := [⟨.gaussian, 1, 1, 1, 0⟩, ⟨.gaussian, 0, 1, 1, 0⟩]) rfl
    (rq := ⟨[-1 / 2, 1], [0, 2], .none, .none, .int 2⟩) rfl rfl (s1 := (-1 / 2, 1)) (s2 := (0, 2)) (p := s.1) (st := s.2)
    (occ := .d1 2 fun _ => (0, 0)) rfl (mu := .d1 2 f) (o := (0, 0)) hf rfl (.d1 _ _ _) (by
      intro d hd y t hy
      rw [List.mem_singleton] at hd
      subst hd
      obtain ⟨z, t', h1, h2⟩ := silent_total hs y (-1 / 2, 1) (0, 2) t
      refine ⟨z, t', h1, ?_⟩
      cases hy with
      | d1 _ _ g =>
        have := addNoise_shape h2 (by intro v; exact nofun)
        cases this
        exact .d1 _ _ _) (by
      intro d hd
      exact absurd hd List.not_mem_nil)
  refine ⟨scan, cond, peaks, s', ?_⟩
  show measureSensorScan ((silentSim sigma).scan lab (twoPeaks [])) _ _ = _
  unfold measureSensorScan
  rw [show scanCheck ((silentSim sigma).scan lab (twoPeaks [])).lim true ⟨[-1 / 2, 1], [0, 2], .none, .none, .int 2⟩ = .ok ((-1 / 2, 1), (0, 2)) by
    simp [scanCheck, silentSim, AnySim.scan, rangeOutside, fixedIn2d, fixedOutside, scanResCheck, VoltArg.isNone]]
  exact h

end SimCATS
