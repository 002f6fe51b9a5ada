import Verif.Model.ExtendedConfig
import Verif.Spec.ExtendedConfig
import Verif.Lemmas.DefaultNoise
import Verif.Lemmas.RiseSignal
import Verif.Lemmas.Labels

/-! Measurements with the extended default configuration. -/

namespace SimCATS

open Spec

variable {X σ τ : Type}

/-! ### Distortions beside the state of the sensor -/

/-- A generator in a simulation with a further state. -/
def genBeside (gen : Gen σ) : Gen (X × σ) := fun v1 v2 res => onRest (gen v1 v2 res)

theorem genBeside_ideal (cfg : IdealCfg) (lab : Labelling) : (idealGen cfg lab : Gen (X × σ)) = genBeside (idealGen cfg lab) := by
  funext v1 v2 res p
  unfold genBeside onRest idealGen
  cases idealCsd cfg lab [v1.1, v1.2] [v2.1, v2.2] res <;> rfl

theorem occ_beside (d : OccDist σ) (data : CsdData) (g1 g2 : ℝ × ℝ) (gen : Gen σ) (freeze : Bool) (p : X × σ) :
    OccDist.beside d data g1 g2 (genBeside gen) freeze p = onRest (d data g1 g2 gen freeze) p := rfl

theorem noise_beside (gen : Gen σ) (d : OccDist σ) : withNoise (genBeside gen : Gen (X × σ)) (OccDist.beside d) = genBeside (withNoise gen d) := by
  funext v1 v2 res p
  unfold withNoise
  rw [M.bind_run]
  unfold genBeside onRest
  dsimp only
  rw [M.bind_run]
  cases h : gen v1 v2 res p.2 with
  | mk r s =>
    cases r with
    | error e => rfl
    | ok data => rfl

/-- The loop over the distortions does not depend on the further state and keeps it. -/
theorem applyOcc_beside {g1 g2 : ℝ × ℝ} {ds : List (OccDist σ)} : ∀ {gen gen' : Gen σ} {data data' : CsdData} {s s' : σ},
    applyOcc g1 g2 ds gen data s = (.ok (data', gen'), s') → ∀ x : X, ∃ gen'',
      applyOcc g1 g2 (ds.map OccDist.beside) (genBeside gen) data (x, s) = (.ok (data', gen''), (x, s')) := by
  induction ds with
  | nil =>
    intro gen gen' data data' s s' h x
    cases h
    exact ⟨_, rfl⟩
  | cons d ds ih =>
    intro gen gen' data data' s s' h x
    unfold applyOcc at h
    obtain ⟨data1, s1, h1, h⟩ := M.bind_ok.mp h
    obtain ⟨gen'', e⟩ := ih h x
    refine ⟨gen'', ?_⟩
    rw [List.map_cons]
    unfold applyOcc
    rw [M.bind_eq ((occ_beside d data g1 g2 gen false (x, s)).trans (onRest_eq h1 x)), noise_beside]
    exact e

theorem applyOcc_beside_error {g1 g2 : ℝ × ℝ} {ds : List (OccDist σ)} : ∀ {gen : Gen σ} {data : CsdData} {s : σ} {e : PyErr},
    (applyOcc g1 g2 ds gen data s).1 = .error e → ∀ x : X,
      (applyOcc g1 g2 (ds.map OccDist.beside) (genBeside gen) data (x, s)).1 = .error e := by
  induction ds with
  | nil =>
    intro gen data s e h x
    exact nomatch h
  | cons d ds ih =>
    intro gen data s e h x
    rw [List.map_cons]
    unfold applyOcc at h ⊢
    cases h1 : d data g1 g2 gen false s with
    | mk r s1 =>
      have e1 := (occ_beside d data g1 g2 gen false (x, s)).trans (onRest_eq h1 x)
      cases r with
      | error e' =>
        refine M.bind_error ?_
        rw [e1]
        rw [M.bind_run, h1] at h
        cases h
        rfl
      | ok data1 =>
        rw [M.bind_eq h1] at h
        rw [M.bind_eq e1, noise_beside]
        exact ih h x

/-! ### The rows of the potential -/

/-- A distortion that keeps the shape is applied to every row. -/
theorem rows_beside {α : Type} {ref : Scan α} {d : SigDist σ} {g1 g2 : ℝ × ℝ}
    (h : ∀ y s, SameShape ref y → ∃ z s', d y g1 g2 s = (.ok z, s') ∧ SameShape ref z) : ∀ (ps : List (Scan ℝ)),
    (∀ p ∈ ps, SameShape ref p) → ∀ (x : X) (s : σ), ∃ qs s', distortRows g1 g2 (SigDist.beside d) ps (x, s) = (.ok qs, (x, s')) ∧
      qs.length = ps.length ∧ ∀ q ∈ qs, SameShape ref q := by
  intro ps
  induction ps with
  | nil =>
    intro _ x s
    exact ⟨[], s, rfl, rfl, by simp⟩
  | cons p ps ih =>
    intro hp x s
    obtain ⟨z, s1, e1, hz⟩ := h p s (hp p (List.mem_cons_self ..))
    obtain ⟨qs, s2, e2, hl, hq⟩ := ih (fun q hq => hp q (List.mem_cons_of_mem _ hq)) x s1
    refine ⟨z :: qs, s2, ?_, by simp [hl], ?_⟩
    · unfold distortRows
      rw [M.bind_eq (show SigDist.beside d p g1 g2 (x, s) = _ from onRest_eq e1 x), M.bind_eq e2]
      rfl
    · intro q hq'
      rcases List.mem_cons.mp hq' with rfl | hq'
      · exact hz
      · exact hq q hq'

theorem applyRows_beside {α : Type} {ref : Scan α} {g1 g2 : ℝ × ℝ} : ∀ (ds : List (SigDist σ)),
    (∀ d ∈ ds, ∀ y s, SameShape ref y → ∃ z s', d y g1 g2 s = (.ok z, s') ∧ SameShape ref z) → ∀ (ps : List (Scan ℝ)),
    (∀ p ∈ ps, SameShape ref p) → ∀ (x : X) (s : σ), ∃ qs s', applyRows g1 g2 (ds.map SigDist.beside) ps (x, s) = (.ok qs, (x, s')) ∧
      qs.length = ps.length ∧ ∀ q ∈ qs, SameShape ref q := by
  intro ds
  induction ds with
  | nil =>
    intro _ ps hp x s
    exact ⟨ps, s, rfl, rfl, hp⟩
  | cons d ds ih =>
    intro hd ps hp x s
    obtain ⟨qs, s1, e1, hl, hq⟩ := rows_beside (hd d (List.mem_cons_self ..)) ps hp x s
    obtain ⟨qs', s2, e2, hl', hq'⟩ := ih (fun d' h' => hd d' (List.mem_cons_of_mem _ h')) qs hq x s1
    refine ⟨qs', s2, ?_, hl'.trans hl, hq'⟩
    rw [List.map_cons]
    unfold applyRows
    rw [M.bind_eq e1]
    exact e2

theorem zip_same {α β γ : Type} {ref : Scan α} {a : Scan β} {b : Scan γ} (ha : SameShape ref a) (hb : SameShape ref b) :
    ∃ z, a.zip b = .ok z ∧ SameShape ref z := by
  cases ha <;> cases hb
  · exact ⟨_, dif_pos rfl, .d1 _ _ _⟩
  · exact ⟨_, dif_pos ⟨rfl, rfl⟩, .d2 _ _ _ _⟩

theorem SameShape.map {α β γ : Type} {ref : Scan α} {a : Scan β} (h : SameShape ref a) (f : β → γ) : SameShape ref (a.map f) := by
  cases h
  · exact .d1 _ _ _
  · exact .d2 _ _ _ _

theorem fromRows_same {α : Type} {ref : Scan α} {qs : List (Scan ℝ)} (hl : qs.length = 3) (hq : ∀ q ∈ qs, SameShape ref q) :
    ∃ mu, fromRows qs = .ok mu ∧ SameShape ref mu := by
  match qs, hl with
  | [a, b, c], _ =>
    obtain ⟨ab, e1, h1⟩ := zip_same (hq a (by simp)) (hq b (by simp))
    obtain ⟨abc, e2, h2⟩ := zip_same h1 (hq c (by simp))
    refine ⟨abc.map fun x => ![x.1.1, x.1.2, x.2], ?_, h2.map _⟩
    unfold fromRows
    simp only [e1, e2]

theorem potRows_same {α : Type} {ref : Scan α} {mu : Scan (Fin 3 → ℝ)} (h : SameShape ref mu) : ∀ p ∈ potRows mu, SameShape ref p := by
  intro p hp
  unfold potRows at hp
  simp only [List.mem_cons, List.not_mem_nil, or_false] at hp
  rcases hp with rfl | rfl | rfl <;> exact h.map _

theorem SameShape.notD0 {α β : Type} {ref : Scan α} {a : Scan β} (h : SameShape ref a) : ∀ v, a ≠ .d0 v := by
  intro v e
  cases h <;> cases e

theorem SameShape.trans {α β γ : Type} {a : Scan α} {b : Scan β} {c : Scan γ} (h1 : SameShape a b) (h2 : SameShape b c) : SameShape a c := by
  cases h1 <;> cases h2
  · exact .d1 _ _ _
  · exact .d2 _ _ _ _

theorem SameShape.self {α β : Type} {a : Scan α} {b : Scan β} (h : SameShape a b) : SameShape a a := by
  cases h
  · exact .d1 _ _ _
  · exact .d2 _ _ _ _

theorem SameShape.rank {α β : Type} {a : Scan α} {b : Scan β} (h : SameShape a b) : sameRank a b = true := by
  cases h <;> rfl

/-! ### The distortions of the configuration -/

theorem ext_pot {α : Type} {ref : Scan α} {env : NoiseEnv τ} (henv : EnvTotal env) {g1 g2 : ℝ × ℝ} {k : ℝ}
    (hk : ∀ y : Scan ℝ, SameShape ref y → rtnFactor g1 g2 y = some k) (hpx : 1 ≤ 0.0223701 * k) : ∀ d ∈ extendedPot env, ∀ y s,
    SameShape ref y → ∃ z s', d y g1 g2 s = (.ok z, s') ∧ SameShape ref z := by
  intro d hd y s hy
  unfold extendedPot at hd
  simp only [List.mem_cons, List.not_mem_nil, or_false] at hd
  rcases hd with rfl | rfl
  · obtain ⟨z, s', e, h⟩ := white_call (pinkSlot τ) henv.pinkSigma henv.pinkNoise hy.notD0 g1 g2 s
    exact ⟨z, s', e, hy.trans h⟩
  · obtain ⟨z, s', e, h⟩ := rtn_call (potRtnSlot τ) henv.pot (sc := 74.56704 * 0.03 / 100) (sd := 3.491734e-05) (he := 2.53855325e-05)
      (ratio := 1 / 6) (by norm_num) (by norm_num) (by norm_num) hy.notD0 (hk y hy) (by norm_num at hpx ⊢; linarith) s
    exact ⟨z, s', e, hy.trans h⟩

theorem ext_check (env : NoiseEnv τ) (lab : Labelling) {a1 b1 a2 b2 : ℝ} (w1 : Within (-0.2) (-0.087) a1 b1)
    (w2 : Within (-0.2) (-0.047) a2 b2) {s1 s2 : ℝ} (hs1 : -1 ≤ s1 ∧ s1 ≤ 0.4) (hs2 : -1 ≤ s2 ∧ s2 ≤ 0.4) {res : Resolution}
    (hres : resCheck (a1, b1) (a2, b2) res = .ok ()) (st : Option ScanState × NoiseState τ) :
    measure (extendedSim env lab).csd ⟨[a1, b1], [a2, b2], some s1, some s2, res⟩ st =
      measureRun (extendedSim env lab).csd (genBeside (idealGen defaultIdeal lab)) ⟨[a1, b1], [a2, b2], some s1, some s2, res⟩ (a1, b1) (a2, b2) st := by
  unfold measure
  rw [show (extendedSim env lab).csd.gen = some (idealGen defaultIdeal lab) from rfl]
  simp only [Option.isSome_some]
  rw [show measureCheck (extendedSim env lab).csd.lim true ⟨[a1, b1], [a2, b2], some s1, some s2, res⟩ = .ok ((a1, b1), (a2, b2)) from ?_]
  · rw [genBeside_ideal]
  · unfold measureCheck ScanSim.csd extendedSim
    simp only [Bool.true_eq_false, if_false]
    rw [w1.not_outside, w2.not_outside]
    have e1 : ¬ (s1 < -1 ∨ s1 > 0.4) := by
      rw [not_or, not_lt, gt_iff_lt, not_lt]
      exact hs1
    have e2 : ¬ (s2 < -1 ∨ s2 > 0.4) := by
      rw [not_or, not_lt, gt_iff_lt, not_lt]
      exact hs2
    simp only [Bool.false_eq_true, or_self, if_false, sensorOutside, valueOutside, decide_eq_false e1, decide_eq_false e2, Option.isNone_some,
      ne_eq, not_true_eq_false, hres]

/-- A list of distortions that keep the shape. -/
theorem applySig_keeps {α : Type} {ref : Scan α} {g1 g2 : ℝ × ℝ} : ∀ (ds : List (SigDist σ)),
    (∀ d ∈ ds, ∀ y s, SameShape ref y → ∃ z s', d y g1 g2 s = (.ok z, s') ∧ SameShape ref z) → ∀ (y : Scan ℝ), SameShape ref y → ∀ s : σ,
    ∃ z s', applySig g1 g2 ds y s = (.ok z, s') ∧ SameShape ref z := by
  intro ds
  induction ds with
  | nil =>
    intro _ y hy s
    exact ⟨y, s, rfl, hy⟩
  | cons d ds ih =>
    intro hd y hy s
    obtain ⟨z, s1, e1, hz⟩ := hd d (List.mem_cons_self ..) y s hy
    obtain ⟨w, s2, e2, hw⟩ := ih (fun d' h' => hd d' (List.mem_cons_of_mem _ h')) z hz s1
    refine ⟨w, s2, ?_, hw⟩
    unfold applySig
    rw [M.bind_eq e1]
    exact e2

theorem applySig_beside {g1 g2 : ℝ × ℝ} : ∀ (ds : List (SigDist σ)) (y z : Scan ℝ) (s s' : σ) (x : X),
    applySig g1 g2 ds y s = (.ok z, s') → applySig g1 g2 (ds.map SigDist.beside) y (x, s) = (.ok z, (x, s')) := by
  intro ds
  induction ds with
  | nil =>
    intro y z s s' x h
    cases h
    rfl
  | cons d ds ih =>
    intro y z s s' x h
    unfold applySig at h
    obtain ⟨w, s1, e1, h⟩ := M.bind_ok.mp h
    rw [List.map_cons]
    unfold applySig
    rw [M.bind_eq (show SigDist.beside d y g1 g2 (x, s) = _ from onRest_eq e1 x)]
    exact ih w z s1 s' x h

/-- A simulation whose distortions work beside the state of the sensor. -/
structure BesideSim (sim : ScanSim σ) (occ : List (OccDist σ)) (pot resp : List (SigDist σ)) : Prop where
  occD : sim.occD = some (occ.map OccDist.beside)
  potD : sim.potD = some (pot.map SigDist.beside)
  respD : sim.respD = some (resp.map SigDist.beside)
  defs : sim.sensor.defs = []

/-- The part of a measurement after the occupation distortions. -/
theorem beside_run {sim : ScanSim σ} {occ : List (OccDist σ)} {pot resp : List (SigDist σ)} (hsim : BesideSim sim occ pot resp)
    {rq : Request} {w1 w2 : ℝ} (hw1 : rq.s1 = some w1) (hw2 : rq.s2 = some w2) {g1 g2 : ℝ × ℝ} {p : Option ScanState} {st s1 s2 : σ}
    {data data' : CsdData} {gen gen' : Gen σ} (hgen : gen g1 g2 rq.res st = (.ok data, s1))
    (hocc : applyOcc g1 g2 occ gen data s1 = (.ok (data', gen'), s2)) {mu : Scan (Fin 3 → ℝ)} {x : ScanState} {o : ℝ × ℝ}
    (hpot : ∀ q, sim.sensor.potential data'.1 (.arr g1) (.arr g2) (.num true w1) (.num true w2) q = (.ok mu, some x))
    (ho : firstOcc x.occ = .ok o) (hrank : SameShape data'.1 mu)
    (hP : ∀ d ∈ pot, ∀ y s, SameShape data'.1 y → ∃ z s', d y g1 g2 s = (.ok z, s') ∧ SameShape data'.1 z)
    (hR : ∀ d ∈ resp, ∀ y s, SameShape data'.1 y → ∃ z s', d y g1 g2 s = (.ok z, s') ∧ SameShape data'.1 z) :
    ∃ csd st', measureRun sim.csd (genBeside gen) rq g1 g2 (p, st) = (.ok (csd, data'.1, data'.2), st') ∧ SameShape data'.1 csd := by
  obtain ⟨gen'', e2⟩ := applyOcc_beside hocc p
  obtain ⟨qs, s3, e3, hl, hq⟩ := applyRows_beside pot hP (potRows mu) (potRows_same hrank) (some x) s2
  obtain ⟨mu', e4, hmu⟩ := fromRows_same hl hq
  obtain ⟨t, e5⟩ := response_run sim.sensor mu' x o ho (Or.inl hsim.defs)
  obtain ⟨csd, s4, e6, hcsd⟩ := applySig_keeps resp hR _ (hmu.map fun m => dotSeries sim.sensor (riseOff sim.sensor x o) m) s3
  refine ⟨csd, (t, s4), ?_, hcsd⟩
  unfold measureRun
  rw [M.bind_eq (show genBeside gen g1 g2 rq.res (p, st) = _ from onRest_eq hgen p),
    show sim.csd.occD.getD [] = occ.map OccDist.beside by
      rw [show sim.csd.occD = sim.occD from rfl, hsim.occD]
      rfl, M.bind_eq e2]
  have q1 : sim.csd.sensor.potential data'.1 g1 g2
      (if sim.csd.sensor.scan = true then some (rq.s1, rq.s2) else none) (p, s2) = (.ok (.multi (potRows mu)), (some x, s2)) := by
    rw [hw1, hw2]
    change (onSensor (sim.sensor.potential data'.1 (.arr g1) (.arr g2) (.num true w1) (.num true w2)) >>= fun mu => pure (.multi (potRows mu)) :
      M (Option ScanState × σ) Pot) (p, s2) = _
    rw [M.bind_eq (onSensor_ok (hpot p))]
    rfl
  have q2 : distortPotential g1 g2 data'.1 sim.csd.potD (.multi (potRows mu)) (some x, s2) = (.ok (.multi qs), (some x, s3)) := by
    unfold distortPotential
    rw [show sim.csd.potD = sim.potD from rfl, hsim.potD]
    simp only
    rw [if_pos (by
      rw [List.all_eq_true]
      intro q hq
      exact (potRows_same hrank q hq).rank), M.bind_eq e3]
    rfl
  have q3 : sim.csd.sensor.response (.multi qs) (some x, s3) =
      (.ok (mu'.map fun m => dotSeries sim.sensor (riseOff sim.sensor x o) m), (t, s3)) := by
    change (ofPy (fromRows qs) >>= fun mu => onSensor (sim.sensor.response mu) : M (Option ScanState × σ) (Scan ℝ)) (some x, s3) = _
    rw [M.bind_eq ((ofPy_run _ _).trans (by rw [e4]))]
    exact onSensor_ok e5
  have q4 : distortResponse g1 g2 sim.csd.respD (mu'.map fun m => dotSeries sim.sensor (riseOff sim.sensor x o) m) (t, s3) =
      (.ok csd, (t, s4)) := by
    rw [show sim.csd.respD = sim.respD from rfl, hsim.respD]
    exact applySig_beside resp _ _ _ _ t e6
  rw [M.bind_eq q1, M.bind_eq q2, M.bind_eq q3, M.bind_eq q4]
  rfl

theorem ext_keeps {α : Type} {ref : Scan α} {env : NoiseEnv τ} (henv : EnvTotal env) {g1 g2 : ℝ × ℝ} : ∀ d ∈ extendedResp env, ∀ y s,
    SameShape ref y → ∃ z s', d y g1 g2 s = (.ok z, s') ∧ SameShape ref z := by
  intro d hd y s hy
  unfold extendedResp at hd
  rw [List.mem_singleton] at hd
  subst hd
  obtain ⟨z, s', e, h⟩ := white_call (whiteSlot τ) henv.whiteSigma henv.whiteNoise hy.notD0 g1 g2 s
  exact ⟨z, s', e, hy.trans h⟩

theorem ext_sim (env : NoiseEnv τ) (lab : Labelling) : BesideSim (extendedSim env lab) (extendedOcc env) (extendedPot env) (extendedResp env) :=
  ⟨rfl, rfl, rfl, rfl⟩

/-- The part of a measurement with the extended configuration after the occupation distortions. -/
theorem ext_run {env : NoiseEnv τ} (henv : EnvTotal env) (lab : Labelling) {rq : Request} {w1 w2 : ℝ} (hw1 : rq.s1 = some w1) (hw2 : rq.s2 = some w2)
    {g1 g2 : ℝ × ℝ} {p : Option ScanState} {st s1 s2 : NoiseState τ} {data data' : CsdData} {gen' : Gen (NoiseState τ)}
    (hgen : idealGen defaultIdeal lab g1 g2 rq.res st = (.ok data, s1))
    (hocc : applyOcc g1 g2 (extendedOcc env) (idealGen defaultIdeal lab) data s1 = (.ok (data', gen'), s2))
    {mu : Scan (Fin 3 → ℝ)} {x : ScanState} {o : ℝ × ℝ}
    (hpot : ∀ q, extendedSensor.potential data'.1 (.arr g1) (.arr g2) (.num true w1) (.num true w2) q = (.ok mu, some x))
    (ho : firstOcc x.occ = .ok o) (hrank : SameShape data'.1 mu) {k : ℝ}
    (hk : ∀ y : Scan ℝ, SameShape data'.1 y → rtnFactor g1 g2 y = some k) (hpx : 1 ≤ 0.0223701 * k) :
    ∃ csd st', measureRun (extendedSim env lab).csd (genBeside (idealGen defaultIdeal lab)) rq g1 g2 (p, st) = (.ok (csd, data'.1, data'.2), st') ∧
      SameShape data'.1 csd :=
  beside_run (ext_sim env lab) hw1 hw2 hgen hocc hpot ho hrank (ext_pot henv hk hpx) (ext_keeps henv)

theorem ext_run_error {env : NoiseEnv τ} {lab : Labelling} {rq : Request} {g1 g2 : ℝ × ℝ} {p : Option ScanState} {st s1 : NoiseState τ}
    {data : CsdData} {e : PyErr} (hgen : idealGen defaultIdeal lab g1 g2 rq.res st = (.ok data, s1))
    (hocc : (applyOcc g1 g2 (extendedOcc env) (idealGen defaultIdeal lab) data s1).1 = .error e) :
    (measureRun (extendedSim env lab).csd (genBeside (idealGen defaultIdeal lab)) rq g1 g2 (p, st)).1 = .error e := by
  unfold measureRun
  rw [M.bind_eq (show genBeside (idealGen defaultIdeal lab) g1 g2 rq.res (p, st) = _ from onRest_eq hgen p)]
  exact M.bind_error (applyOcc_beside_error hocc p)

/-! ### Sensor scans -/

theorem labels_total (s : ScanSensor) (hd : s.defs = []) {ps : List Peak} (hps : s.peaks = some ps) {g1 g2 : VoltArg}
    (h1 : g1.noneOrFloat = true) (h2 : g2.noneOrFloat = true) (s1 s2 : ℝ × ℝ) {mu : Scan (Fin 3 → ℝ)} (hmu : SameShape mu mu) {x : ScanState}
    {o : ℝ × ℝ} (ho : firstOcc x.occ = .ok o) :
    ∃ cond peaks y, s.labels g1 g2 s1 s2 mu (some x) = (.ok (cond, peaks), some y) ∧ firstOcc y.occ = .ok o ∧ SameShape mu cond ∧ SameShape mu peaks := by
  obtain ⟨q, hq⟩ : ∃ q, s.calcPoint x s.barrier1.fullyConductive s.barrier2.fullyConductive true = .ok q := by
    unfold ScanSensor.calcPoint
    rw [ho]
    exact ⟨_, rfl⟩
  have hm : s.labelMiddle ⟨g1.lims, g1.lims, (q.1, q.1), (q.2, q.2), .d1 1 fun _ => o⟩ = .ok (0, 0) := by
    unfold ScanSensor.labelMiddle
    rw [hd]
    rfl
  cases mu with
  | d0 v => exact absurd rfl (hmu.notD0 v)
  | d1 n f => exact ⟨_, _, _, labels_run_1d s g1 g2 s1 s2 n f x o q (0, 0) ps ho hq hm hps h1 h2, rfl, .d1 _ _ _, .d1 _ _ _⟩
  | d2 r c f =>
    obtain ⟨cond, peaks, h⟩ := labels_run_2d s g1 g2 s1 s2 r c f x o q (0, 0) ps ho hq hm hps h1 h2
    exact ⟨_, _, _, h, rfl, .d2 _ _ _ _, .d2 _ _ _ _⟩

/-- A sensor scan from its occupations on. -/
theorem beside_scan {sim : ScanSim σ} {occD : List (OccDist σ)} {pot resp : List (SigDist σ)} (hsim : BesideSim sim occD pot resp)
    {ps : List Peak} (hps : sim.sensor.peaks = some ps) {rq : ScanRequest} (h1 : rq.g1.noneOrFloat = true) (h2 : rq.g2.noneOrFloat = true)
    {s1 s2 : ℝ × ℝ} {p : Option ScanState} {st : σ} {occ : Scan (ℝ × ℝ)} (hocc : scanOcc sim.gen rq (p, st) = (.ok occ, (p, st)))
    {mu : Scan (Fin 3 → ℝ)} {x : ScanState} {o : ℝ × ℝ}
    (hpot : ∀ q, sim.sensor.potential occ rq.g1 rq.g2 (.arr s1) (.arr s2) q = (.ok mu, some x)) (ho : firstOcc x.occ = .ok o)
    (hmu : SameShape mu mu) (hP : ∀ d ∈ pot, ∀ y s, SameShape mu y → ∃ z s', d y s1 s2 s = (.ok z, s') ∧ SameShape mu z)
    (hR : ∀ d ∈ resp, ∀ y s, SameShape mu y → ∃ z s', d y s1 s1 s = (.ok z, s') ∧ SameShape mu z) :
    ∃ scan cond peaks st', scanRun sim rq s1 s2 (p, st) = (.ok (scan, cond, peaks), st') ∧
      SameShape mu scan ∧ SameShape mu cond ∧ SameShape mu peaks := by
  obtain ⟨cond, peaks, y, e1, hy, hc, hp⟩ := labels_total sim.sensor hsim.defs hps h1 h2 s1 s2 hmu ho
  obtain ⟨qs, st1, e3, hl, hq⟩ := applyRows_beside pot hP (potRows mu) (potRows_same hmu) (some y) st
  obtain ⟨mu', e4, hmu'⟩ := fromRows_same hl hq
  have e2 : distortScanPot s1 s2 sim.potD mu (some y, st) = (.ok mu', (some y, st1)) := by
    rw [hsim.potD]
    unfold distortScanPot
    simp only
    rw [M.bind_eq e3, ofPy_run, e4]
  obtain ⟨t, e5⟩ := response_run sim.sensor mu' y o hy (Or.inl hsim.defs)
  obtain ⟨scan, st2, e6, hscan⟩ := applySig_keeps resp hR _ (hmu'.map fun m => dotSeries sim.sensor (riseOff sim.sensor y o) m) st1
  have e7 : distortResponse s1 s1 sim.respD (mu'.map fun m => dotSeries sim.sensor (riseOff sim.sensor y o) m) (t, st1) = (.ok scan, (t, st2)) := by
    rw [hsim.respD]
    exact applySig_beside resp _ _ _ _ t e6
  refine ⟨scan, cond, peaks, (t, st2), ?_, hscan, hc, hp⟩
  unfold scanRun
  rw [M.bind_eq hocc, M.bind_eq (onSensor_ok (hpot p)), M.bind_eq (onSensor_ok (hpot _)), M.bind_eq (onSensor_ok e1), M.bind_eq e2,
    M.bind_eq (onSensor_ok e5), M.bind_eq e7]
  rfl

/-- A sensor scan with the extended configuration from its occupations on. -/
theorem ext_scan {env : NoiseEnv τ} (henv : EnvTotal env) (lab : Labelling) {rq : ScanRequest} (h1 : rq.g1.noneOrFloat = true)
    (h2 : rq.g2.noneOrFloat = true) {s1 s2 : ℝ × ℝ} {p : Option ScanState} {st : NoiseState τ} {occ : Scan (ℝ × ℝ)}
    (hocc : scanOcc (extendedSim env lab).gen rq (p, st) = (.ok occ, (p, st))) {mu : Scan (Fin 3 → ℝ)} {x : ScanState} {o : ℝ × ℝ}
    (hpot : ∀ q, extendedSensor.potential occ rq.g1 rq.g2 (.arr s1) (.arr s2) q = (.ok mu, some x)) (ho : firstOcc x.occ = .ok o)
    (hmu : SameShape mu mu) {k : ℝ} (hk : ∀ y : Scan ℝ, SameShape mu y → rtnFactor s1 s2 y = some k) (hpx : 1 ≤ 0.0223701 * k) :
    ∃ scan cond peaks st', scanRun (extendedSim env lab) rq s1 s2 (p, st) = (.ok (scan, cond, peaks), st') ∧
      SameShape mu scan ∧ SameShape mu cond ∧ SameShape mu peaks :=
  beside_scan (ext_sim env lab) rfl h1 h2 hocc hpot ho hmu (ext_pot henv hk hpx) (ext_keeps henv)

/-- Errors of the potential distortions in a sensor scan. -/
theorem ext_scan_error {env : NoiseEnv τ} (lab : Labelling) {rq : ScanRequest} (h1 : rq.g1.noneOrFloat = true)
    (h2 : rq.g2.noneOrFloat = true) {s1 s2 : ℝ × ℝ} {p : Option ScanState} {st : NoiseState τ} {occ : Scan (ℝ × ℝ)}
    (hocc : scanOcc (extendedSim env lab).gen rq (p, st) = (.ok occ, (p, st))) {mu : Scan (Fin 3 → ℝ)} {x : ScanState} {o : ℝ × ℝ}
    (hpot : ∀ q, extendedSensor.potential occ rq.g1 rq.g2 (.arr s1) (.arr s2) q = (.ok mu, some x)) (ho : firstOcc x.occ = .ok o)
    (hmu : SameShape mu mu) {e : PyErr} (he : ∀ q, (distortScanPot s1 s2 (some ((extendedPot env).map SigDist.beside)) mu (q, st)).1 = .error e) :
    (scanRun (extendedSim env lab) rq s1 s2 (p, st)).1 = .error e := by
  obtain ⟨cond, peaks, y, e1, hy, hc, hp⟩ := labels_total extendedSensor rfl rfl h1 h2 s1 s2 hmu ho
  unfold scanRun
  rw [M.bind_eq hocc, show (extendedSim env lab).sensor = extendedSensor from rfl, M.bind_eq (onSensor_ok (hpot p)),
    M.bind_eq (onSensor_ok (hpot _)), M.bind_eq (onSensor_ok e1)]
  exact M.bind_error (he _)

/-- The ideal data of one point. -/
theorem ideal_point (lab : Labelling) {v1 v2 : ℝ} (h1 : v1 ≤ -0.087) (h2 : v2 ≤ -0.047) (s : σ) :
    ∃ o l, idealGen defaultIdeal lab (v1, v1) (v2, v2) (.int 1) s = (.ok (.d1 1 o, .d1 1 l), s) := by
  obtain ⟨o, ho⟩ := default_line (l1 := v1) (l2 := v2) (a1 := v1) (b1 := v1) (a2 := v2) (b2 := v2) ⟨⟨le_rfl, h1⟩, le_rfl, h1⟩
    ⟨⟨le_rfl, h2⟩, le_rfl, h2⟩ 1
  have hi : idealCsd defaultIdeal lab [v1, v1] [v2, v2] (.int 1) = .ok (.d1 1 o.1 o.2) := by
    unfold idealCsd
    simp only [Resolution.entries, idealCheck_1d]
    rw [if_neg (by norm_num)]
    simp only [Int.toNat_one] at ho ⊢
    rw [ho]
  refine ⟨o.1, o.2, ?_⟩
  unfold idealGen
  rw [hi]
  rfl

theorem Spec.ExtFixed.flat {g1 g2 : VoltArg} (h : ExtFixed g1 g2) : g1.noneOrFloat = true ∧ g2.noneOrFloat = true ∧ g1.isArr = false ∧
    g2.isArr = false ∧ g1.isNone = g2.isNone := by
  rcases h with ⟨rfl, rfl⟩ | ⟨v1, v2, rfl, rfl, -⟩ <;> exact ⟨rfl, rfl, rfl, rfl, rfl⟩

theorem ext_occ2d (env : NoiseEnv τ) (lab : Labelling) {g1 g2 : VoltArg} (h : ExtFixed g1 g2) (s1 s2 : List ℝ) (r c : ℕ)
    (p : Option ScanState × NoiseState τ) :
    ∃ o, scanOcc (extendedSim env lab).gen ⟨s1, s2, g1, g2, .arr [c, r]⟩ p = (.ok (.d2 r c fun _ _ => o), p) := by
  rcases h with ⟨rfl, rfl⟩ | ⟨v1, v2, rfl, rfl, h1, h2⟩
  · refine ⟨(0, 0), ?_⟩
    change ofPy (fillOcc (0, 0) (.arr [c, r])) p = _
    rw [ofPy_run]
    unfold fillOcc
    dsimp only
    rw [if_neg (by omega)]
    rfl
  · obtain ⟨o, l, e⟩ := ideal_point lab h1.2 h2.2 p
    refine ⟨o 0, ?_⟩
    exact (C27_image ⟨s1, s2, .num true v1, .num true v2, .arr [(c : ℤ), (r : ℤ)]⟩ r c rfl p).1 _ true v1 true v2 0 o _ p (o 0) rfl rfl e rfl

theorem ext_scanCheck (env : NoiseEnv τ) (lab : Labelling) {g1 g2 : VoltArg} (h : ExtFixed g1 g2) {a1 b1 a2 b2 : ℝ} (w1 : Within (-1) 0.4 a1 b1)
    (w2 : Within (-1) 0.4 a2 b2) {res : Resolution} (hf : ¬ fixedIn2d (a1, b1) (a2, b2) res) (hr : scanResCheck res = .ok ())
    (p : Option ScanState × NoiseState τ) :
    measureSensorScan (extendedSim env lab) ⟨[a1, b1], [a2, b2], g1, g2, res⟩ p =
      scanRun (extendedSim env lab) ⟨[a1, b1], [a2, b2], g1, g2, res⟩ (a1, b1) (a2, b2) p := by
  have hout : fixedOutside (some (-0.2, -0.087)) g1 = false ∧ fixedOutside (some (-0.2, -0.047)) g2 = false := by
    rcases h with ⟨rfl, rfl⟩ | ⟨v1, v2, rfl, rfl, h1, h2⟩
    · exact ⟨rfl, rfl⟩
    · unfold fixedOutside
      simp only [decide_eq_false_iff_not, not_or, not_lt, gt_iff_lt]
      exact ⟨h1, h2⟩
  unfold measureSensorScan
  rw [show scanCheck (extendedSim env lab).lim true ⟨[a1, b1], [a2, b2], g1, g2, res⟩ = .ok ((a1, b1), (a2, b2)) from ?_]
  unfold scanCheck extendedSim
  simp only [Bool.true_eq_false, if_false]
  rw [w1.not_outside, w2.not_outside, hout.1, hout.2, h.flat.2.2.2.2]
  simp only [Bool.false_eq_true, or_self, if_false, hf, ne_eq, not_true_eq_false, hr]

theorem potential_d2 (s : ScanSensor) {r c : ℕ} (hr : r ≠ 0) (hc : c ≠ 0) (occ : Fin r → Fin c → ℝ × ℝ) (g1 g2 s1 s2 : VoltArg)
    (hsw : (g1.isArr = false ∧ g2.isArr = false) ∨ (s1.isArr = false ∧ s2.isArr = false)) :
    ∃ f, ∀ st, s.potential (.d2 r c occ) g1 g2 s1 s2 st = (.ok (.d2 r c f), some ⟨g1.lims, g2.lims, s1.lims, s2.lims, .d2 r c occ⟩) := by
  refine ⟨_, fun st => Prod.ext (C71_potential_2d s r c hr hc occ g1 g2 s1 s2 hsw st) ?_⟩
  have hb : ((g1.isArr || g2.isArr) && (s1.isArr || s2.isArr)) = false := by
    rcases hsw with ⟨h1, h2⟩ | ⟨h1, h2⟩ <;> rw [h1, h2] <;> simp
  simp only [ScanSensor.potential, hb, Bool.false_eq_true, if_false]

theorem potential_d1 (s : ScanSensor) {n : ℕ} (hn : n ≠ 0) (occ : Fin n → ℝ × ℝ) (g1 g2 s1 s2 : VoltArg)
    (hsw : (g1.isArr = false ∧ g2.isArr = false) ∨ (s1.isArr = false ∧ s2.isArr = false)) :
    ∃ f, ∀ st, s.potential (.d1 n occ) g1 g2 s1 s2 st = (.ok (.d1 n f), some ⟨g1.lims, g2.lims, s1.lims, s2.lims, .d1 n occ⟩) := by
  refine ⟨_, fun st => Prod.ext (C71_potential_1d s n hn occ g1 g2 s1 s2 hsw st) ?_⟩
  have hb : ((g1.isArr || g2.isArr) && (s1.isArr || s2.isArr)) = false := by
    rcases hsw with ⟨h1, h2⟩ | ⟨h1, h2⟩ <;> rw [h1, h2] <;> simp
  simp only [ScanSensor.potential, hb, Bool.false_eq_true, if_false]

theorem rtn_d2 {s1 s2 : ℝ × ℝ} (n1 : s1.1 ≠ s1.2) (n2 : s2.1 ≠ s2.2) (r c : ℕ) (f : Fin r → Fin c → ℝ) :
    rtnFactor s1 s2 (.d2 r c f) = some (max (r / |s1.2 - s1.1|) (c / |s2.2 - s2.1|)) := by
  unfold rtnFactor
  dsimp only
  rw [if_neg n1, if_neg n2, pxPerVolt_ne n1, pxPerVolt_ne n2]
  rfl

theorem rtn_d1 {s1 s2 : ℝ × ℝ} (h : s1.1 ≠ s1.2 ∨ s2.1 ≠ s2.2) (n : ℕ) (f : Fin n → ℝ) :
    0 < max |s1.2 - s1.1| |s2.2 - s2.1| ∧ rtnFactor s1 s2 (.d1 n f) = some (n / max |s1.2 - s1.1| |s2.2 - s2.1|) := by
  have hm : 0 < max |s1.2 - s1.1| |s2.2 - s2.1| := by
    rcases h with h | h
    · exact lt_of_lt_of_le (abs_pos.mpr (sub_ne_zero.mpr h.symm)) (le_max_left _ _)
    · exact lt_of_lt_of_le (abs_pos.mpr (sub_ne_zero.mpr h.symm)) (le_max_right _ _)
  refine ⟨hm, ?_⟩
  unfold rtnFactor
  dsimp only
  rw [max_sub_min_eq_abs, max_sub_min_eq_abs, if_neg hm.ne']

end SimCATS
