import Verif.Lemmas.Relate
import Verif.Model.AnySim

/-! Measurements from states that agree on the generators. -/

namespace SimCATS

variable {σ ι : Type} {m : Memory σ ι}

/-- The objects of a list. -/
def keySet (ks : List ι) : Set ι := {k | k ∈ ks}

theorem insert_keys (k : ι) (ks : List ι) (K : Set ι) : insert k K ∪ keySet ks = K ∪ keySet (k :: ks) := by
  ext j
  simp only [keySet, Set.mem_union, Set.mem_insert_iff, Set.mem_setOf_eq, List.mem_cons]
  tauto

theorem keys_nil (K : Set ι) : K ∪ keySet [] = K := by
  ext j
  simp [keySet]

/-! ### The loops over the distortions -/

theorem withNoise_same {k : ι} {d : OccDist σ} (hd : OccFresh m k d) {K : Set ι} (hk : k ∈ K) {gen : Gen σ}
    (hg : GenSame (m.rel K) m.same gen gen) : GenSame (m.rel K) m.same (withNoise gen d) (withNoise gen d) :=
  fun v1 v2 res => (hg v1 v2 res).bind fun data => hd.frozen K hk data v1 v2 gen gen hg

theorem applyOcc_same (g1 g2 : ℝ × ℝ) {ks : List ι} {ds : List (OccDist σ)} (hd : List.Forall₂ (OccFresh m) ks ds) :
    ∀ (K : Set ι) (gen : Gen σ) (data : CsdData), (∀ K', K ⊆ K' → GenSame (m.rel K') m.same gen gen) →
    Same (m.rel K) (m.rel (K ∪ keySet ks)) m.same (applyOcc g1 g2 ds gen data) (applyOcc g1 g2 ds gen data) := by
  induction hd with
  | nil =>
    intro K gen data _
    rw [keys_nil]
    exact .pure _ fun _ _ h => h
  | @cons k d ks ds hkd _ ih =>
    intro K gen data hg
    unfold applyOcc
    refine (hkd.fresh K data g1 g2 gen gen (hg _ (Set.subset_insert k K))).bind fun data' => ?_
    rw [← insert_keys]
    refine ih (insert k K) _ data' fun K' hK' => ?_
    exact withNoise_same hkd (hK' (Set.mem_insert k K)) (hg K' fun j hj => hK' (Set.mem_insert_of_mem k hj))

theorem applySig_same (g1 g2 : ℝ × ℝ) {ks : List ι} {ds : List (SigDist σ)} (hd : List.Forall₂ (SigFresh m) ks ds) :
    ∀ (K : Set ι) (x : Scan ℝ), Same (m.rel K) (m.rel (K ∪ keySet ks)) m.same (applySig g1 g2 ds x) (applySig g1 g2 ds x) := by
  induction hd with
  | nil =>
    intro K x
    rw [keys_nil]
    exact .pure _ fun _ _ h => h
  | @cons k d ks ds hkd _ ih =>
    intro K x
    unfold applySig
    refine (hkd K x g1 g2).bind fun y => ?_
    rw [← insert_keys]
    exact ih (insert k K) y

theorem distortRows_same (g1 g2 : ℝ × ℝ) {k : ι} {d : SigDist σ} (hd : SigFresh m k d) : ∀ (K : Set ι) (ps : List (Scan ℝ)),
    Same (m.rel K) (m.rel K) m.same (distortRows g1 g2 d ps) (distortRows g1 g2 d ps)
  | K, [] => .pure _ fun _ _ h => h
  | K, p :: ps => by
    unfold distortRows
    exact ((hd K p g1 g2).mono (fun _ _ h => h) (Memory.rel_anti (Set.subset_insert k K)) fun _ _ h => h).bind fun q =>
      (distortRows_same g1 g2 hd K ps).bind fun qs => .pure _ fun _ _ h => h

theorem distortRows_cons (g1 g2 : ℝ × ℝ) {k : ι} {d : SigDist σ} (hd : SigFresh m k d) (K : Set ι) (p : Scan ℝ) (ps : List (Scan ℝ)) :
    Same (m.rel K) (m.rel (insert k K)) m.same (distortRows g1 g2 d (p :: ps)) (distortRows g1 g2 d (p :: ps)) := by
  unfold distortRows
  exact (hd K p g1 g2).bind fun q => (distortRows_same g1 g2 hd _ ps).bind fun qs => .pure _ fun _ _ h => h

theorem distortRows_length (g1 g2 : ℝ × ℝ) (d : SigDist σ) : ∀ (ps qs : List (Scan ℝ)) (s s' : σ),
    distortRows g1 g2 d ps s = (.ok qs, s') → qs.length = ps.length
  | [], qs, s, s', h => by
    cases h
    rfl
  | p :: ps, qs, s, s', h => by
    unfold distortRows at h
    obtain ⟨q, t, -, h⟩ := M.bind_ok.1 h
    obtain ⟨rs, t', hr, h⟩ := M.bind_ok.1 h
    cases h
    rw [List.length_cons, List.length_cons, distortRows_length g1 g2 d ps rs t _ hr]

theorem applyRows_same (g1 g2 : ℝ × ℝ) {ks : List ι} {ds : List (SigDist σ)} (hd : List.Forall₂ (SigFresh m) ks ds) :
    ∀ (K : Set ι) (ps : List (Scan ℝ)), ps ≠ [] →
      Same (m.rel K) (m.rel (K ∪ keySet ks)) m.same (applyRows g1 g2 ds ps) (applyRows g1 g2 ds ps) := by
  induction hd with
  | nil =>
    intro K ps _
    rw [keys_nil]
    exact .pure _ fun _ _ h => h
  | @cons k d ks ds hkd _ ih =>
    intro K ps hps
    unfold applyRows
    obtain ⟨p, ps, rfl⟩ := List.exists_cons_of_ne_nil hps
    refine (distortRows_cons g1 g2 hkd K p ps).bind_of fun qs hq => ?_
    obtain ⟨s, s', hq⟩ := hq
    have hl := distortRows_length g1 g2 d _ _ _ _ hq
    rw [← insert_keys]
    exact ih (insert k K) qs fun h => by simp [h] at hl

/-- The distortions of an optional list, with their keys. -/
def AllFresh (m : Memory σ ι) (ks : List ι) (ds : Option (List (SigDist σ))) : Prop := List.Forall₂ (SigFresh m) ks (ds.getD [])

/-- A potential of the shape of the occupations. -/
def FitsPot (occ : Scan (ℝ × ℝ)) : Pot → Prop
  | .single p => sameRank occ p = true
  | .multi ps => ps ≠ [] ∧ ps.all (fun p => sameRank occ p) = true

theorem distortPotential_same (g1 g2 : ℝ × ℝ) (occ : Scan (ℝ × ℝ)) {ks : List ι} {ds : Option (List (SigDist σ))} (hd : AllFresh m ks ds)
    (pot : Pot) (hp : FitsPot occ pot) (K : Set ι) :
    Same (m.rel K) (m.rel (K ∪ keySet ks)) m.same (distortPotential g1 g2 occ ds pot) (distortPotential g1 g2 occ ds pot) := by
  unfold distortPotential
  cases ds with
  | none =>
    cases hd
    rw [keys_nil]
    exact .pure _ fun _ _ h => h
  | some l =>
    cases pot with
    | single p =>
      dsimp only
      rw [if_pos (show sameRank occ p = true from hp)]
      exact (applySig_same g1 g2 hd K p).bind fun q => .pure _ fun _ _ h => h
    | multi ps =>
      dsimp only
      rw [if_pos hp.2]
      exact (applyRows_same g1 g2 hd K ps hp.1).bind fun q => .pure _ fun _ _ h => h

theorem distortResponse_same (g1 g2 : ℝ × ℝ) {ks : List ι} {ds : Option (List (SigDist σ))} (hd : AllFresh m ks ds) (x : Scan ℝ) (K : Set ι) :
    Same (m.rel K) (m.rel (K ∪ keySet ks)) m.same (distortResponse g1 g2 ds x) (distortResponse g1 g2 ds x) := by
  unfold distortResponse
  cases ds with
  | none =>
    cases hd
    rw [keys_nil]
    exact .pure _ fun _ _ h => h
  | some l => exact applySig_same g1 g2 hd K x

theorem idealGen_same (cfg : IdealCfg) (lab : Labelling) (K : Set ι) : GenSame (m.rel K) m.same (idealGen cfg lab) (idealGen cfg lab) := by
  intro v1 v2 res
  unfold idealGen
  split
  · exact .pure _ fun _ _ h => h
  · exact .raise _ Memory.rel_same

/-! ### `measure` -/

/-- A sensor whose outcome does not depend on its earlier state; `ks` are the keys of its own state. -/
structure SensorFresh (m : Memory σ ι) (ks : Set ι) (d : SensorI σ) : Prop where
  potential : ∀ K occ g1 g2 sv, Same (m.rel K) (m.rel (K ∪ ks)) m.same (d.potential occ g1 g2 sv) (d.potential occ g1 g2 sv)
  response : ∀ K pot, ks ⊆ K → Same (m.rel K) (m.rel K) m.same (d.response pot) (d.response pot)
  fits : ∀ occ g1 g2 sv s pot s', d.potential occ g1 g2 sv s = (.ok pot, s') → FitsPot occ pot

/-- All components of a simulation, with the keys of the distortions. -/
structure SimFresh (m : Memory σ ι) (ko kp kr : List ι) (sim : Simulation σ) : Prop where
  gen : ∀ gen, sim.gen = some gen → ∀ K, GenSame (m.rel K) m.same gen gen
  sensor : ∃ ks, SensorFresh m ks sim.sensor
  occ : List.Forall₂ (OccFresh m) ko (sim.occD.getD [])
  pot : AllFresh m kp sim.potD
  resp : AllFresh m kr sim.respD

theorem measure_same {ko kp kr : List ι} {sim : Simulation σ} (h : SimFresh m ko kp kr sim) (rq : Request) :
    Same m.same (m.rel (keySet ko ∪ keySet kp ∪ keySet kr)) m.same (measure sim rq) (measure sim rq) := by
  obtain ⟨ks, hks⟩ := h.sensor
  unfold measure
  cases hc : measureCheck sim.lim sim.gen.isSome rq with
  | error e => exact .raise _ fun _ _ h => h
  | ok g =>
    obtain ⟨g1, g2⟩ := g
    cases hgen : sim.gen with
    | none => exact .raise _ fun _ _ h => h
    | some gen =>
      dsimp only
      have hg := h.gen gen hgen
      have hrel : ∀ s t, m.same s t → m.rel ∅ s t := fun s t h => ⟨h, fun _ hk => absurd hk (Set.notMem_empty _)⟩
      unfold measureRun
      refine Same.mono (R := m.rel ∅) (R' := m.rel (∅ ∪ keySet ko ∪ ks ∪ keySet kp ∪ keySet kr)) ?_ hrel (Memory.rel_anti ?_) fun _ _ h => h
      · refine (hg ∅ g1 g2 rq.res).bind fun data => (applyOcc_same g1 g2 h.occ ∅ gen data fun K' _ => hg K').bind fun out => ?_
        refine (hks.potential _ _ g1 g2 _).bind_of fun pot hpot => ?_
        obtain ⟨s, s', hpot⟩ := hpot
        refine (distortPotential_same g1 g2 _ h.pot pot (hks.fits _ _ _ _ _ _ _ hpot) _).bind fun pot' => ?_
        refine (hks.response _ pot' ?_).bind fun csd => (distortResponse_same g1 g2 h.resp csd _).bind fun c => .pure _ fun _ _ h => h
        exact Set.subset_union_right.trans Set.subset_union_left
      · intro k hk
        simp only [Set.mem_union] at hk ⊢
        tauto

theorem generic_fresh (d : SensorGeneric) : SensorFresh m ∅ (genericSensor d) where
  potential := by
    intro K occ g1 g2 sv
    rw [Set.union_empty]
    unfold genericSensor
    dsimp only
    split
    · exact .pure _ fun _ _ h => h
    · exact .raise _ Memory.rel_same
  response := by
    intro K pot _
    unfold genericSensor
    cases pot with
    | single p => exact .pure _ fun _ _ h => h
    | multi ps => exact .raise _ Memory.rel_same
  fits := by
    intro occ g1 g2 sv s pot s' h
    have h : (match d.potential occ g1 g2 with | .ok p => (pure (Pot.single p) : M σ Pot) | .error e => M.raise e) s = (.ok pot, s') := h
    cases hp : d.potential occ g1 g2 with
    | error e =>
      rw [hp] at h
      exact nomatch h
    | ok p =>
      rw [hp] at h
      cases h
      cases occ with
      | d0 v => exact nomatch hp
      | d1 n f =>
        unfold SensorGeneric.potential at hp
        dsimp only at hp
        split at hp
        · exact nomatch hp
        · cases hp
          rfl
      | d2 r c f =>
        unfold SensorGeneric.potential at hp
        dsimp only at hp
        split at hp
        · exact nomatch hp
        · cases hp
          rfl

/-! ### Simulations with a sensor scan sensor -/

/-- The comparison of a state with the stored scan state beside it: key `none` for the scan state. -/
def Memory.beside (m : Memory σ ι) : Memory (Option ScanState × σ) (Option ι) where
  same p q := m.same p.2 q.2
  own k p q := match k with
    | none => p.1 = q.1
    | some j => m.own j p.2 q.2

theorem beside_rel {K : Set (Option ι)} {p q : Option ScanState × σ} :
    m.beside.rel K p q ↔ m.rel (some ⁻¹' K) p.2 q.2 ∧ (none ∈ K → p.1 = q.1) := by
  constructor
  · exact fun h => ⟨⟨h.1, fun k hk => h.2 (some k) hk⟩, fun hn => h.2 none hn⟩
  · rintro ⟨h, hn⟩
    refine ⟨h.1, fun k hk => ?_⟩
    cases k with
    | none => exact hn hk
    | some k => exact h.2 k hk

theorem preimage_insert (k : ι) (K : Set (Option ι)) : some ⁻¹' insert (some k) K = insert k (some ⁻¹' K) := by
  ext j
  simp [Set.mem_insert_iff]

theorem out_beside {α : Type} {R E : σ → σ → Prop} {R' E' : Option ScanState × σ → Option ScanState × σ → Prop} {a b : Py α × σ}
    (h : Out R E a b) (x y : Option ScanState) (hR : ∀ s t, R s t → R' (x, s) (y, t)) (hE : ∀ s t, E s t → E' (x, s) (y, t)) :
    Out R' E' (a.1, (x, a.2)) (b.1, (y, b.2)) := by
  cases h with
  | ok a s t h => exact .ok a _ _ (hR s t h)
  | err e s t h => exact .err e _ _ (hE s t h)

theorem occ_fresh_beside {k : ι} {d : OccDist σ} (hd : OccFresh m k d) : OccFresh m.beside (some k) (d.beside (X := Option ScanState)) where
  fresh := by
    intro K data g1 g2 gen gen' hg p q hp
    obtain ⟨hp1, hp2⟩ := beside_rel.1 hp
    have h := hd.fresh (some ⁻¹' K) data g1 g2 (fun v1 v2 res s => match gen v1 v2 res (p.1, s) with | (r, q) => (r, q.2))
      (fun v1 v2 res s => match gen' v1 v2 res (q.1, s) with | (r, q) => (r, q.2)) ?_ p.2 q.2 hp1
    · exact out_beside h p.1 q.1 (fun s t h => beside_rel.2 ⟨by rw [preimage_insert]; exact h, fun hn => hp2 (hn.resolve_left nofun)⟩) fun s t h => h
    · intro v1 v2 res s t hs
      have h := hg v1 v2 res (p.1, s) (q.1, t) (beside_rel.2 ⟨by rw [preimage_insert]; exact hs, fun hn => hp2 (hn.resolve_left nofun)⟩)
      dsimp only
      generalize gen v1 v2 res (p.1, s) = a at h ⊢
      generalize gen' v1 v2 res (q.1, t) = b at h ⊢
      cases h with
      | ok a s t h => exact .ok a _ _ (by rw [← preimage_insert]; exact (beside_rel.1 h).1)
      | err e s t h => exact .err e _ _ h
  frozen := by
    intro K hk data g1 g2 gen gen' hg p q hp
    obtain ⟨hp1, hp2⟩ := beside_rel.1 hp
    have h := hd.frozen (some ⁻¹' K) hk data g1 g2 (fun v1 v2 res s => match gen v1 v2 res (p.1, s) with | (r, q) => (r, q.2))
      (fun v1 v2 res s => match gen' v1 v2 res (q.1, s) with | (r, q) => (r, q.2)) ?_ p.2 q.2 hp1
    · exact out_beside h p.1 q.1 (fun s t h => beside_rel.2 ⟨h, hp2⟩) fun s t h => h
    · intro v1 v2 res s t hs
      have h := hg v1 v2 res (p.1, s) (q.1, t) (beside_rel.2 ⟨hs, hp2⟩)
      dsimp only
      generalize gen v1 v2 res (p.1, s) = a at h ⊢
      generalize gen' v1 v2 res (q.1, t) = b at h ⊢
      cases h with
      | ok a s t h => exact .ok a _ _ (beside_rel.1 h).1
      | err e s t h => exact .err e _ _ h

theorem sig_fresh_beside {k : ι} {d : SigDist σ} (hd : SigFresh m k d) : SigFresh m.beside (some k) (d.beside (X := Option ScanState)) := by
  intro K x g1 g2 p q hp
  obtain ⟨hp1, hp2⟩ := beside_rel.1 hp
  have h := hd (some ⁻¹' K) x g1 g2 p.2 q.2 hp1
  unfold SigDist.beside onRest
  revert h
  generalize d x g1 g2 p.2 = a
  generalize d x g1 g2 q.2 = b
  intro h
  cases h with
  | ok a s t h => exact .ok a _ _ (beside_rel.2 ⟨by rw [preimage_insert]; exact h, fun hn => hp2 (hn.resolve_left nofun)⟩)
  | err e s t h => exact .err e _ _ h

theorem potential_same (d : ScanSensor) (occ : Scan (ℝ × ℝ)) (g1 g2 s1 s2 : VoltArg) (K : Set (Option ι)) :
    Same (m.beside.rel K) (m.beside.rel (insert none K)) m.beside.same (onSensor (d.potential occ g1 g2 s1 s2))
      (onSensor (d.potential occ g1 g2 s1 s2)) := by
  intro p q hp
  have hset : ∀ x : ScanState, m.beside.rel (insert none K) (some x, p.2) (some x, q.2) := fun x =>
    ⟨hp.1, fun k hk => by
      cases k with
      | none => rfl
      | some k => exact hp.2 (some k) (hk.resolve_left nofun)⟩
  have herr : ∀ a b, m.beside.same (a, p.2) (b, q.2) := fun _ _ => hp.1
  unfold onSensor ScanSensor.potential
  cases occ with
  | d0 v => exact .err _ _ _ (herr _ _)
  | d1 n f =>
    dsimp only
    split
    · exact .err _ _ _ (herr _ _)
    · cases d.potentialArray g1.lims g2.lims s1.lims s2.lims (.d1 n f) with
      | ok a => exact .ok _ _ _ (hset _)
      | error e => exact .err _ _ _ (herr _ _)
  | d2 r c f =>
    dsimp only
    split
    · exact .err _ _ _ (herr _ _)
    · cases d.potentialArray g1.lims g2.lims s1.lims s2.lims (.d2 r c f) with
      | ok a => exact .ok _ _ _ (hset _)
      | error e => exact .err _ _ _ (herr _ _)

theorem onSensor_same {α : Type} (x : SM α) {K : Set (Option ι)} (hK : none ∈ K) :
    Same (m.beside.rel K) (m.beside.rel K) m.beside.same (onSensor x) (onSensor x) := by
  intro p q hp
  have h1 : p.1 = q.1 := hp.2 none hK
  unfold onSensor
  rw [← h1]
  rcases x p.1 with ⟨r, st⟩
  cases r with
  | ok a =>
    refine .ok _ _ _ ⟨hp.1, fun k hk => ?_⟩
    cases k with
    | none => rfl
    | some k => exact hp.2 (some k) hk
  | error e => exact .err _ _ _ hp.1

theorem scan_rank {d : ScanSensor} {occ : Scan (ℝ × ℝ)} {g1 g2 s1 s2 : VoltArg} {s s' : Option ScanState × σ} {mu : Scan (Fin 3 → ℝ)}
    (h : onSensor (d.potential occ g1 g2 s1 s2) s = (.ok mu, s')) (i : Fin 3) : sameRank occ (mu.map fun v => v i) = true := by
  unfold onSensor ScanSensor.potential at h
  cases occ with
  | d0 v => exact nomatch h
  | d1 n f =>
    dsimp only at h
    split at h
    · exact nomatch h
    · unfold ScanSensor.potentialArray at h
      dsimp only at h
      split at h
      · exact nomatch h
      · cases h
        rfl
  | d2 r c f =>
    dsimp only at h
    split at h
    · exact nomatch h
    · unfold ScanSensor.potentialArray at h
      dsimp only at h
      split at h
      · exact nomatch h
      · cases h
        rfl

theorem scan_fresh (d : ScanSensor) : SensorFresh m.beside {none} (d.toSensor (τ := σ)) where
  potential := by
    intro K occ g1 g2 sv
    rw [Set.union_singleton]
    exact (potential_same d occ _ _ _ _ K).bind fun mu => .pure _ fun _ _ h => h
  response := by
    intro K pot hK
    unfold ScanSensor.toSensor
    cases pot with
    | single p => exact .raise _ Memory.rel_same
    | multi ps => exact (Same.ofPy _ (fun _ _ h => h) Memory.rel_same).bind fun mu => onSensor_same _ (hK rfl)
  fits := by
    intro occ g1 g2 sv s pot s' h
    obtain ⟨mu, t, hmu, h⟩ := M.bind_ok.1 (show (onSensor _ >>= _) s = _ from h)
    cases h
    have hr := scan_rank hmu
    refine ⟨List.cons_ne_nil _ _, ?_⟩
    simp only [potRows, List.all_cons, List.all_nil, hr, Bool.and_self]

/-- All components of a simulation with a sensor scan sensor, with the keys of the distortions. -/
structure ScanSimFresh (m : Memory σ ι) (ko kp kr : List ι) (sim : ScanSim σ) : Prop where
  gen : ∀ gen, sim.gen = some gen → ∀ K, GenSame (m.beside.rel K) m.beside.same gen gen
  occ : List.Forall₂ (OccFresh m.beside) (ko.map some) (sim.occD.getD [])
  pot : AllFresh m.beside (kp.map some) sim.potD
  resp : AllFresh m.beside (kr.map some) sim.respD

theorem ScanSimFresh.csd {ko kp kr : List ι} {sim : ScanSim σ} (h : ScanSimFresh m ko kp kr sim) :
    SimFresh m.beside (ko.map some) (kp.map some) (kr.map some) sim.csd := ⟨h.gen, ⟨_, scan_fresh sim.sensor⟩, h.occ, h.pot, h.resp⟩

theorem scanOcc_same {gen : Option (Gen (Option ScanState × σ))} (hg : ∀ g, gen = some g → ∀ K, GenSame (m.beside.rel K) m.beside.same g g)
    (rq : ScanRequest) (K : Set (Option ι)) : Same (m.beside.rel K) (m.beside.rel K) m.beside.same (scanOcc gen rq) (scanOcc gen rq) := by
  have hp : ∀ {α : Type} (x : Py α), Same (m.beside.rel K) (m.beside.rel K) m.beside.same (ofPy x) (ofPy x) := fun x =>
    Same.ofPy x (fun _ _ h => h) Memory.rel_same
  unfold scanOcc
  cases gen with
  | none => exact hp _
  | some gen =>
    cases rq.g1 with
    | none => exact hp _
    | arr g => exact hp _
    | num b v =>
      cases rq.g2 with
      | none => exact hp _
      | arr g => exact hp _
      | num b' w => exact (hg gen rfl K _ _ _).bind fun data => (hp _).bind fun res => (hp _).bind fun o => hp _

theorem distortScanPot_same (g1 g2 : ℝ × ℝ) {ks : List (Option ι)} {ds : Option (List (SigDist (Option ScanState × σ)))}
    (hd : AllFresh m.beside ks ds) (mu : Scan (Fin 3 → ℝ)) (K : Set (Option ι)) :
    Same (m.beside.rel K) (m.beside.rel (K ∪ keySet ks)) m.beside.same (distortScanPot g1 g2 ds mu) (distortScanPot g1 g2 ds mu) := by
  unfold distortScanPot
  cases ds with
  | none =>
    cases hd
    rw [keys_nil]
    exact .pure _ fun _ _ h => h
  | some l => exact (applyRows_same g1 g2 hd K _ (List.cons_ne_nil _ _)).bind fun rows => .ofPy _ (fun _ _ h => h) Memory.rel_same

theorem measureScan_same {ko kp kr : List ι} {sim : ScanSim σ} (h : ScanSimFresh m ko kp kr sim) (rq : ScanRequest) :
    Same m.beside.same (m.beside.rel (keySet (kp.map some) ∪ keySet (kr.map some))) m.beside.same (measureSensorScan sim rq)
      (measureSensorScan sim rq) := by
  unfold measureSensorScan
  cases hc : scanCheck sim.lim true rq with
  | error e => exact .raise _ fun _ _ h => h
  | ok g =>
    obtain ⟨s1, s2⟩ := g
    dsimp only
    have hrel : ∀ s t, m.beside.same s t → m.beside.rel ∅ s t := fun s t h => ⟨h, fun _ hk => absurd hk (Set.notMem_empty _)⟩
    have hin : (none : Option ι) ∈ (insert none (insert none ∅) : Set (Option ι)) := Set.mem_insert _ _
    unfold scanRun
    refine Same.mono (R := m.beside.rel ∅) (R' := m.beside.rel (insert none (insert none ∅) ∪ keySet (kp.map some) ∪ keySet (kr.map some))) ?_ hrel
      (Memory.rel_anti ?_) fun _ _ h => h
    · exact (scanOcc_same h.gen rq ∅).bind fun occ => (potential_same _ _ _ _ _ _ _).bind fun mu => (potential_same _ _ _ _ _ _ _).bind fun mu0 =>
        (onSensor_same _ hin).bind fun masks => (distortScanPot_same s1 s2 h.pot mu _).bind fun mu' =>
        (onSensor_same _ (Set.mem_union_left _ hin)).bind fun sc => (distortResponse_same s1 s1 h.resp sc _).bind fun sc' => .pure _ fun _ _ h => h
    · intro k hk
      simp only [Set.mem_union] at hk ⊢
      tauto

/-! ### The shipped objects -/

variable {τ : Type}

/-- The comparison of two states of distortion objects; a key is the kind of the own state and the number of the object. -/
def objMemory (τ : Type) : Memory (ObjState τ) (Fin 3 × ℕ) where
  same s t := s.gens = t.gens
  own k s t := if k.1 = 0 then s.sigma k.2 = t.sigma k.2 else if k.1 = 1 then DotAgree (s.jumps k.2) (t.jumps k.2) else s.active k.2 = t.active k.2

theorem sigma_placed (i : ℕ) : Placed (objMemory τ) (sigmaSlot τ i) (0, i) (· = ·) where
  same _ _ _ _ h := h
  other := by
    rintro ⟨a, j⟩ hj d d' s t h
    simp only [objMemory, sigmaSlot] at h ⊢
    by_cases ha : a = 0
    · have hne : j ≠ i := fun e => hj (by rw [ha, e])
      rw [if_pos ha] at h ⊢
      rw [Function.update_of_ne hne, Function.update_of_ne hne]
      exact h
    · rw [if_neg ha] at h ⊢
      exact h
  own _ _ := by simp [objMemory, sigmaSlot]

theorem jumps_placed (i : ℕ) : Placed (objMemory τ) (jumpsSlot τ i) (1, i) DotAgree where
  same _ _ _ _ h := h
  other := by
    rintro ⟨a, j⟩ hj d d' s t h
    simp only [objMemory, jumpsSlot] at h ⊢
    by_cases ha : a = 1
    · have hne : j ≠ i := fun e => hj (by rw [ha, e])
      subst ha
      rw [if_neg (by decide), if_pos rfl] at h ⊢
      rw [Function.update_of_ne hne, Function.update_of_ne hne]
      exact h
    · rw [if_neg ha] at h ⊢
      exact h
  own _ _ := by simp [objMemory, jumpsSlot]

theorem active_placed (i : ℕ) : Placed (objMemory τ) (activeSlot τ i) (2, i) (· = ·) where
  same _ _ _ _ h := h
  other := by
    rintro ⟨a, j⟩ hj d d' s t h
    simp only [objMemory, activeSlot] at h ⊢
    by_cases ha : a = 0
    · rw [if_pos ha] at h ⊢
      exact h
    · by_cases hb : a = 1
      · rw [if_neg ha, if_pos hb] at h ⊢
        exact h
      · have hne : j ≠ i := fun e => hj (by rw [e, show a = 2 by omega])
        rw [if_neg ha, if_neg hb] at h ⊢
        rw [Function.update_of_ne hne, Function.update_of_ne hne]
        exact h
  own _ _ := by simp [objMemory, activeSlot]

theorem drawing_same {α : Type} (x : M τ α) (K : Set (Fin 3 × ℕ)) :
    Same ((objMemory τ).rel K) ((objMemory τ).rel K) (objMemory τ).same (drawing x) (drawing x) := by
  intro s t h
  have hg : s.gens = t.gens := h.1
  unfold drawing
  rw [hg]
  rcases x t.gens with ⟨r, g⟩
  cases r with
  | ok a => exact .ok _ _ _ ⟨rfl, fun k hk => h.2 k hk⟩
  | error e => exact .err _ _ _ rfl

theorem sigma_draw {α : Type} (i : ℕ) (x : M τ α) : IsDraw (objMemory τ) (sigmaSlot τ i) (drawing x) := ⟨fun _ _ => rfl, drawing_same x⟩

theorem jumps_draw {α : Type} (i : ℕ) (x : M τ α) : IsDraw (objMemory τ) (jumpsSlot τ i) (drawing x) := ⟨fun _ _ => rfl, drawing_same x⟩

theorem active_draw {α : Type} (i : ℕ) (x : M τ α) : IsDraw (objMemory τ) (activeSlot τ i) (drawing x) := ⟨fun _ _ => rfl, drawing_same x⟩

/-- The key of an object. -/
def OccObject.key : OccObject τ → Fin 3 × ℕ
  | .fermi i _ => (0, i)
  | .gauss i _ => (0, i)
  | .jumps i .. => (1, i)

/-- The key of an object. -/
def SigObject.key : SigObject τ → Fin 3 × ℕ
  | .additive i _ _ => (0, i)
  | .rtn i .. => (2, i)

theorem occObject_fresh (d : OccObject τ) : OccFresh (objMemory τ) d.key d.dist := by
  cases d with
  | fermi i sigma => exact blur_fresh' (sigma_placed i) (sigma_draw i _)
  | gauss i sigma => exact blur_fresh' (sigma_placed i) (sigma_draw i _)
  | jumps i scale lam axis ratio rng np2 nan =>
    exact dotJumps_fresh (jumps_placed i) ⟨fun _ => jumps_draw i _, fun _ _ => jumps_draw i _, fun _ => jumps_draw i _, fun _ _ => jumps_draw i _⟩
      (jumps_draw i _) (jumps_draw i _)

theorem sigObject_fresh (d : SigObject τ) : SigFresh (objMemory τ) d.key d.dist := by
  cases d with
  | additive i sigma noise => exact white_fresh (sigma_placed i) (sigma_draw i _) fun _ _ => sigma_draw i _
  | rtn i scale std height ratio rng =>
    exact rtn_fresh (active_placed i) ⟨fun _ => active_draw i _, fun _ _ => active_draw i _, fun _ => active_draw i _, fun _ _ => active_draw i _⟩
      (active_draw i _) (active_draw i _) (active_draw i _)

theorem forall2_map {α κ β : Type} {P : κ → β → Prop} (key : α → κ) (f : α → β) (h : ∀ a, P (key a) (f a)) :
    ∀ l : List α, List.Forall₂ P (l.map key) (l.map f)
  | [] => .nil
  | a :: l => .cons (h a) (forall2_map key f h l)

/-- The keys of an optional list of objects. -/
def keysOf {α : Type} (key : α → ι) (ds : Option (List α)) : List ι := (ds.getD []).map key

theorem allFresh_map {α : Type} {f : α → SigDist σ} (key : α → ι) (h : ∀ a, SigFresh m (key a) (f a)) (ds : Option (List α)) :
    AllFresh m (keysOf key ds) (ds.map fun l => l.map f) := by
  cases ds with
  | none => exact .nil
  | some l => exact forall2_map key f h l

theorem occs_map {α : Type} {f : α → OccDist σ} (key : α → ι) (h : ∀ a, OccFresh m (key a) (f a)) (ds : Option (List α)) :
    List.Forall₂ (OccFresh m) (keysOf key ds) ((ds.map fun l => l.map f).getD []) := by
  cases ds with
  | none => exact .nil
  | some l => exact forall2_map key f h l

theorem keysOf_some {α : Type} (key : α → ι) (ds : Option (List α)) : (keysOf key ds).map some = keysOf (fun a => some (key a)) ds := by
  unfold keysOf
  rw [List.map_map]
  rfl

theorem ideal_same (o : Option IdealCfg) (lab : Labelling) (gen : Gen σ) (h : (o.map fun cfg => idealGen cfg lab) = some gen) (K : Set ι) :
    GenSame (m.rel K) m.same gen gen := by
  obtain ⟨cfg, -, rfl⟩ := Option.map_eq_some_iff.1 h
  exact idealGen_same cfg lab K

theorem anySim_generic (sim : AnySim τ) (lab : Labelling) (d : SensorGeneric) : SimFresh (objMemory τ) (keysOf OccObject.key sim.occ)
    (keysOf SigObject.key sim.pot) (keysOf SigObject.key sim.resp) (sim.generic lab d) :=
  ⟨ideal_same sim.ideal lab, ⟨_, generic_fresh d⟩, occs_map OccObject.key occObject_fresh sim.occ,
    allFresh_map SigObject.key sigObject_fresh sim.pot, allFresh_map SigObject.key sigObject_fresh sim.resp⟩

theorem anySim_scan (sim : AnySim τ) (lab : Labelling) (d : ScanSensor) : ScanSimFresh (objMemory τ) (keysOf OccObject.key sim.occ)
    (keysOf SigObject.key sim.pot) (keysOf SigObject.key sim.resp) (sim.scan lab d) := by
  refine ⟨ideal_same sim.ideal lab, ?_, ?_, ?_⟩
  · simp only [AnySim.scan, List.map_map, keysOf_some]
    exact occs_map (fun d => some (OccObject.key d)) (fun d => occ_fresh_beside (occObject_fresh d)) sim.occ
  · simp only [AnySim.scan, List.map_map, keysOf_some]
    exact allFresh_map (fun d => some (SigObject.key d)) (fun d => sig_fresh_beside (sigObject_fresh d)) sim.pot
  · simp only [AnySim.scan, List.map_map, keysOf_some]
    exact allFresh_map (fun d => some (SigObject.key d)) (fun d => sig_fresh_beside (sigObject_fresh d)) sim.resp

theorem onRest_same {X α : Type} {R R' E : σ → σ → Prop} {x : M σ α} (h : Same R R' E x x) :
    Same (fun p q : X × σ => R p.2 q.2) (fun p q => R' p.2 q.2) (fun p q => E p.2 q.2) (onRest x) (onRest x) := by
  intro p q hp
  have h := h _ _ hp
  unfold onRest
  generalize x p.2 = a at h ⊢
  generalize x q.2 = b at h ⊢
  cases h with
  | ok a s t h => exact .ok a _ _ h
  | err e s t h => exact .err e _ _ h

/-- The generators of two simulations are in the same state. -/
def SameGens (s t : SimState τ) : Prop := s.2.gens = t.2.gens

/-- The generators agree, and the objects of a list. -/
def SameObjects (K : Set (Fin 3 × ℕ)) (s t : SimState τ) : Prop := (objMemory τ).rel K s.2 t.2

theorem sameObjects_gens {K : Set (Fin 3 × ℕ)} (s t : SimState τ) (h : SameObjects K s t) : SameGens s t := h.1

theorem keySet_some (ks : List ι) : some ⁻¹' keySet (ks.map some) = keySet ks := by
  ext k
  simp [keySet]

/-- The keys of all distortions of a simulation. -/
def AnySim.keys (sim : AnySim τ) : Set (Fin 3 × ℕ) :=
  keySet (keysOf OccObject.key sim.occ) ∪ keySet (keysOf SigObject.key sim.pot) ∪ keySet (keysOf SigObject.key sim.resp)

/-- The keys of the distortions of the potential and of the response. -/
def AnySim.signalKeys (sim : AnySim τ) : Set (Fin 3 × ℕ) := keySet (keysOf SigObject.key sim.pot) ∪ keySet (keysOf SigObject.key sim.resp)

theorem anySim_measure (sim : AnySim τ) (lab : Labelling) (rq : Request) :
    Same SameGens (SameObjects sim.keys) SameGens (sim.measure lab rq) (sim.measure lab rq) := by
  unfold AnySim.measure
  cases sim.sensor with
  | generic d => exact onRest_same (measure_same (anySim_generic sim lab d) rq)
  | scan d =>
    refine (measure_same (anySim_scan sim lab d).csd rq).mono (fun _ _ h => h) (fun s t h => ?_) fun _ _ h => h
    have h := (beside_rel.1 h).1
    rw [Set.preimage_union, Set.preimage_union, keySet_some, keySet_some, keySet_some] at h
    exact h

theorem anySim_measureScan (sim : AnySim τ) (lab : Labelling) (rq : ScanRequest) :
    Same SameGens (SameObjects sim.signalKeys) SameGens (sim.measureScan lab rq) (sim.measureScan lab rq) := by
  unfold AnySim.measureScan
  cases sim.sensor with
  | generic d => exact .raise _ fun _ _ h => h
  | scan d =>
    refine (measureScan_same (anySim_scan sim lab d) rq).mono (fun _ _ h => h) (fun s t h => ?_) fun _ _ h => h
    have h := (beside_rel.1 h).1
    rw [Set.preimage_union, keySet_some, keySet_some] at h
    exact h

theorem anySim_call (sim : AnySim τ) (lab : Labelling) (c : MeasureCall) : Same SameGens SameGens SameGens (sim.call lab c) (sim.call lab c) := by
  cases c with
  | csd rq => exact (anySim_measure sim lab rq).bind fun _ => .pure _ sameObjects_gens
  | scan rq => exact (anySim_measureScan sim lab rq).bind fun _ => .pure _ sameObjects_gens

end SimCATS
