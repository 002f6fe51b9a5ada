import Verif.Spec.Pipeline
import Verif.Props.Simulation
import Verif.Props.DefaultConfigs

/-! Properties C69 and C70: the signal path of a measurement. -/

namespace SimCATS

open Spec

/-! ### Distortions of the potential and the response -/

section chains

variable {σ : Type} {g1 g2 : ℝ × ℝ}

theorem applySig_append (ds es : List (SigDist σ)) (x : Scan ℝ) :
    applySig g1 g2 (ds ++ es) x = applySig g1 g2 ds x >>= applySig g1 g2 es := by
  induction ds generalizing x with
  | nil => rfl
  | cons d ds ih => simp only [List.cons_append, applySig, bind_assoc, ih]

theorem distortRows_append (d : SigDist σ) (ps qs : List (Scan ℝ)) :
    distortRows g1 g2 d (ps ++ qs) =
      distortRows g1 g2 d ps >>= fun a => distortRows g1 g2 d qs >>= fun b => pure (a ++ b) := by
  induction ps with
  | nil => simp [distortRows]
  | cons p ps ih => simp [distortRows, ih]

theorem applyRows_append (ds es : List (SigDist σ)) (ps : List (Scan ℝ)) :
    applyRows g1 g2 (ds ++ es) ps = applyRows g1 g2 ds ps >>= applyRows g1 g2 es := by
  induction ds generalizing ps with
  | nil => rfl
  | cons d ds ih => simp only [List.cons_append, applyRows, bind_assoc, ih]

theorem applySig_iff {ds : List (SigDist σ)} {x y : Scan ℝ} {s t : σ} :
    applySig g1 g2 ds x s = (.ok y, t) ↔ Applied g1 g2 ds x s y t := by
  constructor
  · induction ds using List.reverseRecOn generalizing y t with
    | nil => intro h; cases h; exact .none _ _
    | append_singleton ds d ih =>
      intro h
      rw [applySig_append, M.bind_ok] at h
      obtain ⟨a, u, h1, h2⟩ := h
      refine .last (ih h1) ?_
      simp only [applySig] at h2
      rw [M.bind_ok] at h2
      obtain ⟨b, w, h3, h4⟩ := h2
      cases h4
      exact h3
  · intro h
    induction h with
    | none x s => rfl
    | last _ hc ih =>
      rw [applySig_append, M.bind_ok]
      refine ⟨_, _, ih, ?_⟩
      simp only [applySig]
      rw [M.bind_ok]
      exact ⟨_, _, hc, rfl⟩

theorem distortRows_iff {d : SigDist σ} {ps qs : List (Scan ℝ)} {s t : σ} :
    distortRows g1 g2 d ps s = (.ok qs, t) ↔ EachSignal g1 g2 d ps s qs t := by
  constructor
  · induction ps using List.reverseRecOn generalizing qs t with
    | nil => intro h; cases h; exact .none _
    | append_singleton ps p ih =>
      intro h
      rw [distortRows_append, M.bind_ok] at h
      obtain ⟨a, u, h1, h2⟩ := h
      rw [M.bind_ok] at h2
      obtain ⟨b, w, h3, h4⟩ := h2
      cases h4
      simp only [distortRows] at h3
      rw [M.bind_ok] at h3
      obtain ⟨q, w, h3, h4⟩ := h3
      cases h4
      exact .last (ih h1) h3
  · intro h
    induction h with
    | none s => rfl
    | last _ hc ih =>
      rw [distortRows_append, M.bind_ok]
      refine ⟨_, _, ih, ?_⟩
      rw [M.bind_ok]
      refine ⟨[_], _, ?_, rfl⟩
      simp only [distortRows]
      rw [M.bind_ok]
      exact ⟨_, _, hc, rfl⟩

theorem applyRows_iff {ds : List (SigDist σ)} {ps qs : List (Scan ℝ)} {s t : σ} :
    applyRows g1 g2 ds ps s = (.ok qs, t) ↔ AppliedEach g1 g2 ds ps s qs t := by
  constructor
  · induction ds using List.reverseRecOn generalizing qs t with
    | nil => intro h; cases h; exact .none _ _
    | append_singleton ds d ih =>
      intro h
      rw [applyRows_append, M.bind_ok] at h
      obtain ⟨a, u, h1, h2⟩ := h
      refine .last (ih h1) ?_
      simp only [applyRows] at h2
      rw [M.bind_ok] at h2
      obtain ⟨b, w, h3, h4⟩ := h2
      cases h4
      exact distortRows_iff.1 h3
  · intro h
    induction h with
    | none x s => rfl
    | last _ hc ih =>
      rw [applyRows_append, M.bind_ok]
      refine ⟨_, _, ih, ?_⟩
      simp only [applyRows]
      rw [M.bind_ok]
      exact ⟨_, _, distortRows_iff.2 hc, rfl⟩

theorem distortPotential_iff {occ : Scan (ℝ × ℝ)} {ds : Option (List (SigDist σ))} {pot pot' : Pot} {s t : σ} :
    distortPotential g1 g2 occ ds pot s = (.ok pot', t) ↔ PotentialDistorted g1 g2 occ (ds.getD []) pot s pot' t := by
  have nil1 : ∀ {p q : Scan ℝ} {s t : σ}, Applied g1 g2 [] p s q t ↔ q = p ∧ t = s := by
    intro p q s t
    rw [← applySig_iff]
    simp only [applySig, M.pure_run, Prod.mk.injEq, Except.ok.injEq]
    exact and_congr eq_comm eq_comm
  have nil2 : ∀ {p q : List (Scan ℝ)} {s t : σ}, AppliedEach g1 g2 [] p s q t ↔ q = p ∧ t = s := by
    intro p q s t
    rw [← applyRows_iff]
    simp only [applyRows, M.pure_run, Prod.mk.injEq, Except.ok.injEq]
    exact and_congr eq_comm eq_comm
  cases ds with
  | none =>
    cases pot with
    | single p =>
      cases pot' with
      | single q =>
        simp only [distortPotential, M.pure_run, Prod.mk.injEq, Except.ok.injEq, Pot.single.injEq, PotentialDistorted, Option.getD_none, nil1]
        by_cases hr : p.shape.length = occ.shape.length <;> simp [hr, eq_comm]
      | multi qs => simp [distortPotential, PotentialDistorted]
    | multi ps =>
      cases pot' with
      | single q => simp [distortPotential, PotentialDistorted]
      | multi qs =>
        simp only [distortPotential, M.pure_run, Prod.mk.injEq, Except.ok.injEq, Pot.multi.injEq, PotentialDistorted, Option.getD_none, nil2]
        by_cases hr : ∀ p ∈ ps, p.shape.length = occ.shape.length
        · rw [and_iff_right hr, or_iff_left (by rintro ⟨⟨p, hp, hn⟩, -⟩; exact hn (hr p hp))]
          exact and_congr eq_comm eq_comm
        · have hr' : ∃ p ∈ ps, p.shape.length ≠ occ.shape.length := by push Not at hr; exact hr
          rw [or_iff_right (fun h => hr h.1), and_iff_right hr']
          exact and_congr eq_comm eq_comm
  | some ds =>
    cases pot with
    | single p =>
      have hb : sameRank occ p = true ↔ p.shape.length = occ.shape.length := by
        simp only [sameRank, beq_iff_eq]
        exact eq_comm
      simp only [distortPotential]
      by_cases hr : p.shape.length = occ.shape.length
      · rw [if_pos (hb.2 hr), M.bind_ok]
        cases pot' with
        | single q =>
          simp only [PotentialDistorted, Option.getD_some, hr, true_and, ne_eq, not_true_eq_false, false_and, or_false]
          rw [← applySig_iff]
          constructor
          · rintro ⟨a, u, h1, h2⟩
            cases h2
            exact h1
          · intro h
            exact ⟨q, t, h, rfl⟩
        | multi qs =>
          simp only [PotentialDistorted, iff_false]
          rintro ⟨a, u, h1, h2⟩
          cases h2
      · rw [if_neg (fun h => hr (hb.1 h))]
        cases pot' with
        | single q =>
          simp only [M.pure_run, Prod.mk.injEq, Except.ok.injEq, Pot.single.injEq, PotentialDistorted, hr, false_and, ne_eq,
            not_false_eq_true, true_and, false_or]
          exact and_congr eq_comm eq_comm
        | multi qs => simp [PotentialDistorted]
    | multi ps =>
      have hb : (ps.all fun p => sameRank occ p) = true ↔ ∀ p ∈ ps, p.shape.length = occ.shape.length := by
        simp only [List.all_eq_true, sameRank, beq_iff_eq]
        exact forall₂_congr fun _ _ => eq_comm
      simp only [distortPotential]
      by_cases hr : ∀ p ∈ ps, p.shape.length = occ.shape.length
      · rw [if_pos (hb.2 hr), M.bind_ok]
        cases pot' with
        | single q =>
          simp only [PotentialDistorted, iff_false]
          rintro ⟨a, u, h1, h2⟩
          cases h2
        | multi qs =>
          simp only [PotentialDistorted, Option.getD_some]
          rw [and_iff_right hr, or_iff_left (by rintro ⟨⟨p, hp, hn⟩, -⟩; exact hn (hr p hp)), ← applyRows_iff]
          constructor
          · rintro ⟨a, u, h1, h2⟩
            cases h2
            exact h1
          · intro h
            exact ⟨qs, t, h, rfl⟩
      · have hr' : ∃ p ∈ ps, p.shape.length ≠ occ.shape.length := by push Not at hr; exact hr
        rw [if_neg (fun h => hr (hb.1 h))]
        cases pot' with
        | single q => simp [PotentialDistorted]
        | multi qs =>
          simp only [M.pure_run, Prod.mk.injEq, Except.ok.injEq, Pot.multi.injEq, PotentialDistorted]
          rw [or_iff_right (fun h => hr h.1), and_iff_right hr']
          exact and_congr eq_comm eq_comm

end chains

/-- C69: an accepted measurement returns a result exactly if all stages succeed one after the other: the ideal CSD of the requested scan, the
occupation distortions, the potential of the sensor for the distorted occupations, the potential distortions in list order, the response
of the sensor to the distorted potential, and the response distortions in list order.  Every stage works on the result of the stage
before it, and the returned CSD is the result of the last one. -/
theorem C69_measure {σ : Type} (sim : Simulation σ) (gen : Gen σ) (rq : Request) (g1 g2 : ℝ × ℝ) (hgen : sim.gen = some gen)
    (hck : measureCheck sim.lim true rq = .ok (g1, g2)) (s s' : σ) (csd : Scan ℝ) (occ : Scan (ℝ × ℝ)) (lead : Scan ℕ) :
    measure sim rq s = (.ok (csd, occ, lead), s') ↔
      ∃ ideal gen' pot pot' resp s1 s2 s3 s4 s5, gen g1 g2 rq.res s = (.ok ideal, s1) ∧
        applyOcc g1 g2 (sim.occD.getD []) gen ideal s1 = (.ok ((occ, lead), gen'), s2) ∧
        sim.sensor.potential occ g1 g2 (if sim.sensor.scan then some (rq.s1, rq.s2) else none) s2 = (.ok pot, s3) ∧
        PotentialDistorted g1 g2 occ (sim.potD.getD []) pot s3 pot' s4 ∧
        sim.sensor.response pot' s4 = (.ok resp, s5) ∧
        Applied g1 g2 (sim.respD.getD []) resp s5 csd s' := by
  have hresp : ∀ x : Scan ℝ, distortResponse g1 g2 sim.respD x = applySig g1 g2 (sim.respD.getD []) x := by
    intro x
    cases sim.respD <;> rfl
  have hm : measure sim rq s = measureRun sim gen rq g1 g2 s := by
    unfold measure
    rw [hgen]
    simp only [Option.isSome_some]
    rw [hck]
  rw [hm]
  unfold measureRun
  simp only [M.bind_ok, M.pure_run, Prod.mk.injEq, Except.ok.injEq, hresp, distortPotential_iff, applySig_iff]
  constructor
  · rintro ⟨data, t1, e1, out, t2, e2, pot, t3, e3, pot', t4, e4, c, t5, e5, c', t6, e6, ⟨rfl, rfl, rfl⟩, rfl⟩
    exact ⟨data, out.2, pot, pot', c, t1, t2, t3, t4, t5, e1, e2, e3, e4, e5, e6⟩
  · rintro ⟨data, gen', pot, pot', c, t1, t2, t3, t4, t5, e1, e2, e3, e4, e5, e6⟩
    exact ⟨data, t1, e1, ((occ, lead), gen'), t2, e2, pot, t3, e3, pot', t4, e4, c, t5, e5, csd, s', e6, ⟨rfl, rfl, rfl⟩, rfl⟩

/-- C69, exceptions: a list of distortions raises the exception of the first distortion that fails, in the state it leaves, after all
distortions before it have been applied; the distortions after it are not called. -/
theorem C69_exception {σ : Type} (g1 g2 : ℝ × ℝ) (ds : List (SigDist σ)) (x : Scan ℝ) (s s' : σ) (e : PyErr) :
    applySig g1 g2 ds x s = (.error e, s') ↔
      ∃ pre d post y t, ds = pre ++ d :: post ∧ Applied g1 g2 pre x s y t ∧ d y g1 g2 t = (.error e, s') := by
  constructor
  · induction ds generalizing x s with
    | nil => intro h; cases h
    | cons d ds ih =>
      intro h
      simp only [applySig] at h
      rw [M.bind_run] at h
      split at h
      · rename_i a t hd
        obtain ⟨pre, d', post, y, u, rfl, h1, h2⟩ := ih a t h
        refine ⟨d :: pre, d', post, y, u, rfl, ?_, h2⟩
        rw [← applySig_iff] at h1 ⊢
        simp only [applySig]
        rw [M.bind_ok]
        exact ⟨_, _, hd, h1⟩
      · rename_i e' t hd
        cases h
        exact ⟨[], d, ds, x, s, rfl, .none _ _, hd⟩
  · rintro ⟨pre, d, post, y, t, rfl, h1, h2⟩
    rw [applySig_append, M.bind_run, applySig_iff.2 h1]
    simp only [applySig]
    rw [M.bind_run, h2]

/-- C69, exceptions of a measurement: if all stages up to the response of the sensor succeed, the measurement raises an exception
exactly if a response distortion raises it when it is applied to the result of the ones before it. -/
theorem C69_measure_exception {σ : Type} (sim : Simulation σ) (gen : Gen σ) (rq : Request) (g1 g2 : ℝ × ℝ) (hgen : sim.gen = some gen)
    (hck : measureCheck sim.lim true rq = .ok (g1, g2)) {ideal : CsdData} {gen' : Gen σ} {occ : Scan (ℝ × ℝ)} {lead : Scan ℕ}
    {pot pot' : Pot} {resp : Scan ℝ} {s s1 s2 s3 s4 s5 : σ} (h1 : gen g1 g2 rq.res s = (.ok ideal, s1))
    (h2 : applyOcc g1 g2 (sim.occD.getD []) gen ideal s1 = (.ok ((occ, lead), gen'), s2))
    (h3 : sim.sensor.potential occ g1 g2 (if sim.sensor.scan then some (rq.s1, rq.s2) else none) s2 = (.ok pot, s3))
    (h4 : PotentialDistorted g1 g2 occ (sim.potD.getD []) pot s3 pot' s4) (h5 : sim.sensor.response pot' s4 = (.ok resp, s5))
    (e : PyErr) (s' : σ) :
    measure sim rq s = (.error e, s') ↔ ∃ pre d post y t, sim.respD.getD [] = pre ++ d :: post ∧ Applied g1 g2 pre resp s5 y t ∧
      d y g1 g2 t = (.error e, s') := by
  rw [← C69_exception]
  have hresp : distortResponse g1 g2 sim.respD resp = applySig g1 g2 (sim.respD.getD []) resp := by
    cases sim.respD <;> rfl
  have hm : measure sim rq s = measureRun sim gen rq g1 g2 s := by
    unfold measure
    rw [hgen]
    simp only [Option.isSome_some]
    rw [hck]
  rw [hm]
  unfold measureRun
  simp only [M.bind_run, h1, h2, h3, distortPotential_iff.2 h4, h5, hresp]
  cases hx : applySig g1 g2 (sim.respD.getD []) resp s5 with
  | mk v t => cases v <;> simp [M.pure_run]

/-- C69 for deterministic distortions that act pixel by pixel: the functions are composed in list order. -/
theorem C69_pointwise {σ : Type} (g1 g2 : ℝ × ℝ) (fs : List (ℝ → ℝ)) (x : Scan ℝ) (s : σ) :
    Applied g1 g2 (fs.map fun f => (fun y _ _ => pure (y.map f) : SigDist σ)) x s (x.map fun v => fs.foldl (fun v f => f v) v) s := by
  induction fs using List.reverseRecOn with
  | nil => cases x <;> exact .none _ _
  | append_singleton fs f ih =>
    rw [List.map_append, List.map_singleton]
    refine .last ih ?_
    cases x <;> simp [Scan.map]

/-- Non-vacuity: a measurement with the default configuration whose potential is doubled and then shifted and whose response is
inverted; doubling and shifting do not commute. -/
example (lab : Labelling) : ∃ csd occ lead pot resp,
    measure { defaultSim (σ := Unit) lab with
        potD := some ([fun v => 2 * v, fun v => v + 1].map fun f => (fun y _ _ => pure (y.map f) : SigDist Unit))
        respD := some ([fun v => -v].map fun f => (fun y _ _ => pure (y.map f) : SigDist Unit)) }
      ⟨[-0.2, -0.1], [-0.2, -0.1], none, none, .int (3 : ℕ)⟩ () = (.ok (csd, occ, lead), ()) ∧
    defaultSensor.potential occ (-0.2, -0.1) (-0.2, -0.1) = .ok pot ∧ defaultSensor.response (pot.map fun v => 2 * v + 1) = resp ∧
    csd = resp.map fun v => -v := by
  have w1 : Within (-0.2) (-0.087) (-0.2) (-0.1) := by unfold Within; norm_num
  have w2 : Within (-0.2) (-0.047) (-0.2) (-0.1) := by unfold Within; norm_num
  have hck := default_check (σ := Unit) lab w1 w2 (s1 := none) (s2 := none) rfl (res := .int (3 : ℕ)) rfl
  obtain ⟨csd0, occ, lead, h0⟩ := C68_line_partial (σ := Unit) lab _ _ _ _ w1 w2 3 (by norm_num) none none rfl ()
  rw [C69_measure (defaultSim lab) _ _ _ _ rfl hck] at h0
  obtain ⟨ideal, gen', pot, pot', resp, s1, s2, s3, s4, s5, h1, h2, h3, -, -, -⟩ := h0
  obtain ⟨p, hp, -⟩ := C21_potential_1d defaultSensor 3 (by norm_num) occ (-0.2, -0.1) (-0.2, -0.1)
  refine ⟨_, .d1 3 occ, .d1 3 lead, .d1 3 p, _, ?_, hp, rfl, rfl⟩
  refine (C69_measure _ (idealGen defaultIdeal lab) _ (-0.2, -0.1) (-0.2, -0.1) rfl ?_ _ _ _ _ _).2 ?_
  · exact hck
  refine ⟨ideal, gen', .single (.d1 3 p), .single ((Scan.d1 3 p).map fun v => 2 * v + 1), _, s1, s2, (), (), (), h1, h2, ?_, ?_, rfl, ?_⟩
  · simp only [defaultSim, genericSensor, hp]
    rfl
  · left
    exact ⟨rfl, C69_pointwise _ _ [fun v => 2 * v, fun v => v + 1] _ _⟩
  · exact C69_pointwise _ _ [fun v => -v] _ _

/-! ### Measurements without distortions -/

theorem peak_eval_signal (p : Peak) (mu : ℝ) : p.eval mu = peakSignal p mu := by
  unfold Peak.eval peakSignal
  cases p.kind
  · simp only [gaussResponse]
    congr 3
    rw [neg_div, div_pow]
  · rfl

/-- C21, response: a sensor with peak functions returns for every pixel the sum of its peaks at the potential of this pixel; a sensor
without peak functions returns the potential. -/
theorem C21_response (s : SensorGeneric) (hp : s.peaks ≠ some []) (n r c : ℕ) (mu1 : Fin n → ℝ) (mu2 : Fin r → Fin c → ℝ) :
    s.response (.d1 n mu1) = .d1 n (fun i => sensorSignal s.peaks (0, 0) (0, 0) (mu1 i) (0, 0) (0, 0)) ∧
    s.response (.d2 r c mu2) = .d2 r c fun i j => sensorSignal s.peaks (0, 0) (0, 0) (mu2 i j) (0, 0) (0, 0) := by
  unfold SensorGeneric.response
  cases hs : s.peaks with
  | none => simp [sensorSignal]
  | some ps =>
    cases ps with
    | nil => exact absurd hs hp
    | cons p ps =>
      simp only [Scan.map, sumPeaks, sensorSignal, peak_eval_signal]
      simp

theorem response_signal (s : SensorGeneric) (hp : s.peaks ≠ some []) {n r c : ℕ} :
    (∀ mu : Fin n → ℝ, s.response (.d1 n mu) = .d1 n fun i => match s.peaks with
      | none => mu i
      | some ps => (ps.map fun p => peakSignal p (mu i)).sum) ∧
    ∀ mu : Fin r → Fin c → ℝ, s.response (.d2 r c mu) = .d2 r c fun i j => match s.peaks with
      | none => mu i j
      | some ps => (ps.map fun p => peakSignal p (mu i j)).sum := by
  unfold SensorGeneric.response
  cases hs : s.peaks with
  | none => simp
  | some ps =>
    cases ps with
    | nil => exact absurd hs hp
    | cons p ps =>
      simp only [Scan.map, sumPeaks, peak_eval_signal]
      simp

section noiseFree

variable {σ : Type} (sim : Simulation σ) (cfg : IdealCfg) (lab : Labelling) (sens : SensorGeneric)

/-- C70 (2D): without distortions, `measure` returns the occupations and lead transitions of the ideal CSD of the requested scan, and the
signal of every pixel is that of the sensor for the occupation and the gate voltages of this pixel (gate 1 along the columns, gate 2
along the rows, from the first to the last requested voltage). -/
theorem C70_image_partial (hgen : sim.gen = some (idealGen cfg lab)) (hsens : sim.sensor = genericSensor sens) (hp : sens.peaks ≠ some [])
    (h1 : sim.occD = none) (h2 : sim.potD = none) (h3 : sim.respD = none) (a1 b1 a2 b2 : ℝ) (v1 v2 : Option ℝ) (r c : ℕ) (s s' : σ)
    (csd : Scan ℝ) (occ : Scan (ℝ × ℝ)) (lead : Scan ℕ)
    (h : measure sim ⟨[a1, b1], [a2, b2], v1, v2, .arr [c, r]⟩ s = (.ok (csd, occ, lead), s')) :
    ∃ o l, idealCsd cfg lab [a1, b1] [a2, b2] (.arr [c, r]) = .ok (.d2 r c o l) ∧ occ = .d2 r c o ∧ lead = .d2 r c l ∧
      csd = .d2 r c (fun i j => sensorSignal sens.peaks sens.alphaDot sens.alphaGate sens.offset (o i j) (pixelVoltages a1 b1 a2 b2 r c i j)) ∧
      s' = s := by
  obtain ⟨g1, g2, gen, hm, hg, -⟩ := measure_ok h
  have hck : measureCheck sim.lim true ⟨[a1, b1], [a2, b2], v1, v2, .arr [c, r]⟩ = .ok (g1, g2) := by
    rw [hg] at hm
    exact hm
  obtain ⟨e1, e2⟩ := C02_ranges _ _ _ _ _ hm
  simp only [List.cons.injEq, and_true] at e1 e2
  obtain ⟨rfl, rfl⟩ := e1
  obtain ⟨rfl, rfl⟩ := e2
  rw [C69_measure sim _ _ _ _ hgen hck] at h
  rw [h1, h2, h3, hsens] at h
  obtain ⟨ideal, gen', pot, pot', resp, s1, s2, s3, s4, s5, k1, k2, k3, k4, k5, k6⟩ := h
  simp only [Option.getD_none, applyOcc, M.pure_run, Prod.mk.injEq, Except.ok.injEq] at k2
  obtain ⟨⟨rfl, rfl⟩, rfl⟩ := k2
  rw [Option.getD_none, ← applySig_iff] at k6
  simp only [applySig, M.pure_run, Prod.mk.injEq, Except.ok.injEq] at k6
  obtain ⟨rfl, rfl⟩ := k6
  rw [← distortPotential_iff (ds := none)] at k4
  simp only [distortPotential, M.pure_run, Prod.mk.injEq, Except.ok.injEq] at k4
  obtain ⟨rfl, rfl⟩ := k4
  unfold idealGen at k1
  cases hi : idealCsd cfg lab [g1.1, g1.2] [g2.1, g2.2] (.arr [c, r]) with
  | error e => simp only [hi] at k1; exact nomatch k1
  | ok out =>
    simp only [hi, M.pure_run, Prod.mk.injEq, Except.ok.injEq] at k1
    obtain ⟨k1, rfl⟩ := k1
    have hd : ∃ o l, out = .d2 r c o l := by
      unfold idealCsd at hi
      simp only [Resolution.entries] at hi
      split at hi
      · cases hi
      · split at hi
        · cases hi
        · cases hi
          simp only [Int.toNat_natCast]
          exact ⟨_, _, rfl⟩
    obtain ⟨o, l, rfl⟩ := hd
    simp only [IdealOut.data, Prod.mk.injEq] at k1
    obtain ⟨rfl, rfl⟩ := k1
    obtain ⟨-, -, hc, hr, -⟩ := idealCsd_2d_ok hi
    obtain ⟨mu, hmu, hmu'⟩ := C21_potential_2d sens r c (by omega) (by omega) o g1 g2
    simp only [genericSensor, hmu, M.pure_run, Prod.mk.injEq, Except.ok.injEq] at k3
    obtain ⟨rfl, rfl⟩ := k3
    simp only [genericSensor, M.pure_run, Prod.mk.injEq, Except.ok.injEq] at k5
    obtain ⟨rfl, rfl⟩ := k5
    refine ⟨o, l, rfl, rfl, rfl, ?_, rfl⟩
    rw [(response_signal sens hp (n := 0)).2]
    congr 1
    funext i j
    have ev : (pixelVoltages g1.1 g1.2 g2.1 g2.2 r c i j) = (sweepVolt g1 c j, sweepVolt g2 r i) := by
      unfold pixelVoltages sweepVolt
      rw [if_neg (by omega), if_neg (by omega)]
      simp only [Prod.mk.injEq]
      constructor <;> ring
    rw [ev]
    simp only [sensorSignal, hmu']
    cases sens.peaks <;> rfl

/-- C70 (1D): the same for 1D scans, where both gates are swept together. -/
theorem C70_line_partial (hgen : sim.gen = some (idealGen cfg lab)) (hsens : sim.sensor = genericSensor sens) (hp : sens.peaks ≠ some [])
    (h1 : sim.occD = none) (h2 : sim.potD = none) (h3 : sim.respD = none) (a1 b1 a2 b2 : ℝ) (v1 v2 : Option ℝ) (n : ℕ) (s s' : σ)
    (csd : Scan ℝ) (occ : Scan (ℝ × ℝ)) (lead : Scan ℕ)
    (h : measure sim ⟨[a1, b1], [a2, b2], v1, v2, .int n⟩ s = (.ok (csd, occ, lead), s')) :
    ∃ o l, idealCsd cfg lab [a1, b1] [a2, b2] (.int n) = .ok (.d1 n o l) ∧ occ = .d1 n o ∧ lead = .d1 n l ∧ 1 ≤ n ∧
      csd = .d1 n (fun i => sensorSignal sens.peaks sens.alphaDot sens.alphaGate sens.offset (o i)
        (a1 + i * ((b1 - a1) / ((n : ℝ) - 1)), a2 + i * ((b2 - a2) / ((n : ℝ) - 1)))) ∧ s' = s := by
  obtain ⟨g1, g2, gen, hm, hg, -⟩ := measure_ok h
  have hck : measureCheck sim.lim true ⟨[a1, b1], [a2, b2], v1, v2, .int n⟩ = .ok (g1, g2) := by
    rw [hg] at hm
    exact hm
  obtain ⟨e1, e2⟩ := C02_ranges _ _ _ _ _ hm
  simp only [List.cons.injEq, and_true] at e1 e2
  obtain ⟨rfl, rfl⟩ := e1
  obtain ⟨rfl, rfl⟩ := e2
  rw [C69_measure sim _ _ _ _ hgen hck] at h
  rw [h1, h2, h3, hsens] at h
  obtain ⟨ideal, gen', pot, pot', resp, s1, s2, s3, s4, s5, k1, k2, k3, k4, k5, k6⟩ := h
  simp only [Option.getD_none, applyOcc, M.pure_run, Prod.mk.injEq, Except.ok.injEq] at k2
  obtain ⟨⟨rfl, rfl⟩, rfl⟩ := k2
  rw [Option.getD_none, ← applySig_iff] at k6
  simp only [applySig, M.pure_run, Prod.mk.injEq, Except.ok.injEq] at k6
  obtain ⟨rfl, rfl⟩ := k6
  rw [← distortPotential_iff (ds := none)] at k4
  simp only [distortPotential, M.pure_run, Prod.mk.injEq, Except.ok.injEq] at k4
  obtain ⟨rfl, rfl⟩ := k4
  unfold idealGen at k1
  cases hi : idealCsd cfg lab [g1.1, g1.2] [g2.1, g2.2] (.int n) with
  | error e => simp only [hi] at k1; exact nomatch k1
  | ok out =>
    simp only [hi, M.pure_run, Prod.mk.injEq, Except.ok.injEq] at k1
    obtain ⟨k1, rfl⟩ := k1
    have hd : ∃ o l, out = .d1 n o l := by
      unfold idealCsd at hi
      simp only [Resolution.entries, idealCheck_1d] at hi
      rw [if_neg (by omega)] at hi
      split at hi
      · cases hi
      · cases hi
        simp only [Int.toNat_natCast]
        exact ⟨_, _, rfl⟩
    obtain ⟨o, l, rfl⟩ := hd
    simp only [IdealOut.data, Prod.mk.injEq] at k1
    obtain ⟨rfl, rfl⟩ := k1
    have hn : n ≠ 0 := by
      rintro rfl
      simp only [genericSensor, C21_empty] at k3
      exact nomatch k3
    obtain ⟨mu, hmu, hmu'⟩ := C21_potential_1d sens n hn o g1 g2
    simp only [genericSensor, hmu, M.pure_run, Prod.mk.injEq, Except.ok.injEq] at k3
    obtain ⟨rfl, rfl⟩ := k3
    simp only [genericSensor, M.pure_run, Prod.mk.injEq, Except.ok.injEq] at k5
    obtain ⟨rfl, rfl⟩ := k5
    refine ⟨o, l, rfl, rfl, rfl, by omega, ?_, rfl⟩
    rw [(response_signal sens hp (r := 0) (c := 0)).1]
    congr 1
    funext i
    have ev : ∀ g : ℝ × ℝ, g.1 + i * ((g.2 - g.1) / ((n : ℝ) - 1)) = sweepVolt g n i := by
      intro g
      rw [← linspace_sweep]
      unfold linspace linAt
      ring
    rw [ev, ev]
    simp only [sensorSignal, hmu']
    cases sens.peaks <;> rfl

end noiseFree

/-- Non-vacuity: the image of 100 x 100 pixels of the default configuration. -/
example (lab : Labelling) : ∃ o l, measure (defaultSim lab) ⟨[-0.087, -0.2], [-0.2, -0.047], none, none, .arr [(100 : ℕ), (100 : ℕ)]⟩ () =
    (.ok (.d2 100 100 (fun i j => sensorSignal defaultSensor.peaks defaultSensor.alphaDot defaultSensor.alphaGate defaultSensor.offset (o i j)
      (pixelVoltages (-0.087) (-0.2) (-0.2) (-0.047) 100 100 i j)), .d2 100 100 o, .d2 100 100 l), ()) := by
  obtain ⟨csd, occ, lead, h⟩ := C68_image_partial (σ := Unit) lab (-0.087) (-0.2) (-0.2) (-0.047) (by unfold Within; norm_num)
    (by unfold Within; norm_num) (by norm_num) (by norm_num) 100 100 (by norm_num)
    (by norm_num) (by rw [abs_of_nonpos (by norm_num), abs_of_nonneg (by norm_num)]; norm_num) none none rfl ()
  obtain ⟨o, l, -, e1, e2, e3, -⟩ := C70_image_partial (defaultSim lab) defaultIdeal lab defaultSensor rfl rfl (by simp [defaultSensor]) rfl rfl rfl
    _ _ _ _ _ _ _ _ _ _ _ _ _ h
  rw [e1, e2, e3] at h
  exact ⟨o, l, h⟩

end SimCATS
