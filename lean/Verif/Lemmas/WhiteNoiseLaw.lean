import Verif.Spec.WhiteNoiseLaw
import Verif.Lemmas.ActivationLaw
import Verif.Props.Reports
import Verif.Lemmas.TelegraphLaw

/-!
White noise as last distortion of the response.
-/

namespace SimCATS

open Spec MeasureTheory ProbabilityTheory

variable {τ ω α : Type}

theorem applySig_last {σ : Type} (g1 g2 : ℝ × ℝ) (d : SigDist σ) : ∀ (ds : List (SigDist σ)) (x : Scan ℝ),
    applySig g1 g2 (ds ++ [d]) x = applySig g1 g2 ds x >>= fun y => d y g1 g2
  | [], x => by
    show d x g1 g2 >>= (fun y => pure y) = pure x >>= fun y => d y g1 g2
    rw [bind_pure, pure_bind]
  | e :: ds, x => by
    show e x g1 g2 >>= (fun y => applySig g1 g2 (ds ++ [d]) y) = (e x g1 g2 >>= fun y => applySig g1 g2 ds y) >>= _
    rw [bind_assoc]
    exact congrArg _ (funext fun y => applySig_last g1 g2 d ds y)

/-- White noise on the whole state. -/
noncomputable def whiteCall (i : ℕ) (sigma : M τ ℝ) (noise : ℝ → ℕ → M τ (List ℝ)) (y : Scan ℝ) : M (SimState τ) (Scan ℝ) :=
  onRest ((SigObject.additive i sigma noise).dist y (0, 0) (0, 0))

theorem onRest_bind {D β γ : Type} (x : M τ β) (f : β → M τ γ) : (onRest (x >>= f) : M (D × τ) γ) = onRest x >>= fun a => onRest (f a) := by
  funext s
  rw [M.bind_run]
  cases h : x s.2 with
  | mk r t =>
    have e : (onRest x : M (D × τ) β) s = (r, (s.1, t)) := onRest_eq h s.1
    rw [e]
    cases r with
    | ok a =>
      show onRest (x >>= f) (s.1, s.2) = onRest (f a) (s.1, t)
      unfold onRest
      rw [show (x >>= f) s.2 = f a t from M.step h]
    | error e =>
      refine onRest_eq (d := s.1) (t := s.2) ?_
      rw [M.bind_run, h]

theorem raise_bind {σ β γ : Type} (e : PyErr) (f : β → M σ γ) : (M.raise e >>= f) = M.raise e := rfl

/-- The last distortion of the response is a step after the measurement. -/
theorem measure_after {σ : Type} (lim : Limits) (gen : Option (Gen σ)) (sensor : SensorI σ) (occD : Option (List (OccDist σ)))
    (potD : Option (List (SigDist σ))) (ds : List (SigDist σ)) (d : SigDist σ) (w : Scan ℝ → M σ (Scan ℝ)) (rq : Request)
    (hw : ∀ g1 g2, measureCheck lim gen.isSome rq = .ok (g1, g2) → ∀ x, d x g1 g2 = w x) :
    SimCATS.measure ⟨lim, gen, sensor, occD, potD, some (ds ++ [d])⟩ rq =
      SimCATS.measure ⟨lim, gen, sensor, occD, potD, some ds⟩ rq >>= fun out => w out.1 >>= fun y => pure (y, out.2) := by
  unfold SimCATS.measure
  dsimp only
  cases hc : measureCheck lim gen.isSome rq with
  | error e => exact (raise_bind e _).symm
  | ok gs =>
    cases gen with
    | none => exact (raise_bind _ _).symm
    | some gen =>
      unfold measureRun
      simp only [distortResponse, applySig_last, hw _ _ hc, bind_assoc, pure_bind]

/-- The same for sensor scans. -/
theorem scan_after (lim : Limits) (gen : Option (Gen (Option ScanState × τ))) (sensor : ScanSensor) (occD : Option (List (OccDist (Option ScanState × τ))))
    (potD : Option (List (SigDist (Option ScanState × τ)))) (ds : List (SigDist (Option ScanState × τ))) (d : SigDist (Option ScanState × τ))
    (w : Scan ℝ → M (Option ScanState × τ) (Scan ℝ)) (rq : ScanRequest)
    (hw : ∀ s1 s2, scanCheck lim true rq = .ok (s1, s2) → ∀ x, d x s1 s1 = w x) :
    measureSensorScan ⟨lim, gen, sensor, occD, potD, some (ds ++ [d])⟩ rq =
      measureSensorScan ⟨lim, gen, sensor, occD, potD, some ds⟩ rq >>= fun out => w out.1 >>= fun y => pure (y, out.2) := by
  unfold measureSensorScan
  dsimp only
  cases hc : scanCheck lim true rq with
  | error e => exact (raise_bind e _).symm
  | ok gs =>
    unfold scanRun
    simp only [distortResponse, applySig_last, hw _ _ hc, bind_assoc, pure_bind]

variable {sim : AnySim τ} {pre : List (SigObject τ)} {i : ℕ} {sigma : M τ ℝ} {noise : ℝ → ℕ → M τ (List ℝ)}

/-- A distortion of the response in its place in a simulation. -/
noncomputable def lastCall (o : SigObject τ) (g1 g2 : ℝ × ℝ) (y : Scan ℝ) : M (SimState τ) (Scan ℝ) := onRest (o.dist y g1 g2)

/-- A measurement is the one without the last distortion of the response, followed by this distortion. -/
theorem measure_end {o : SigObject τ} (hr : sim.resp = some (pre ++ [o])) (lab : Labelling) (rq : Request) (g1 g2 : ℝ × ℝ)
    (hg : ∀ lim b v1 v2, measureCheck lim b rq = .ok (v1, v2) → ∀ x, o.dist x v1 v2 = o.dist x g1 g2) :
    sim.measure lab rq = AnySim.measure { sim with resp := some pre } lab rq >>= fun out => lastCall o g1 g2 out.1 >>= fun y => pure (y, out.2) := by
  obtain ⟨lim, ideal, sensor, occ, pot, resp⟩ := sim
  dsimp only at hr
  subst hr
  unfold AnySim.measure
  cases sensor with
  | generic d =>
    dsimp only
    unfold AnySim.generic
    simp only [Option.map_some, List.map_append, List.map_cons, List.map_nil]
    rw [measure_after _ _ _ _ _ _ o.dist (fun x => o.dist x g1 g2) rq (hg _ _), onRest_bind]
    congr 1
    funext out
    exact onRest_bind _ _
  | scan d =>
    dsimp only
    unfold AnySim.scan ScanSim.csd
    simp only [Option.map_some, List.map_append, List.map_cons, List.map_nil]
    exact measure_after _ _ _ _ _ _ _ (lastCall o g1 g2) rq fun v1 v2 h x => congrArg onRest (hg _ _ v1 v2 h x)

theorem measureScan_end {o : SigObject τ} (hr : sim.resp = some (pre ++ [o])) (lab : Labelling) (rq : ScanRequest) (g1 : ℝ × ℝ)
    (hg : ∀ lim v1 v2, scanCheck lim true rq = .ok (v1, v2) → ∀ x, o.dist x v1 v1 = o.dist x g1 g1) :
    sim.measureScan lab rq = AnySim.measureScan { sim with resp := some pre } lab rq >>= fun out => lastCall o g1 g1 out.1 >>= fun y => pure (y, out.2) := by
  obtain ⟨lim, ideal, sensor, occ, pot, resp⟩ := sim
  dsimp only at hr
  subst hr
  unfold AnySim.measureScan
  cases sensor with
  | generic d => exact (raise_bind _ _).symm
  | scan d =>
    dsimp only
    unfold AnySim.scan
    simp only [Option.map_some, List.map_append, List.map_cons, List.map_nil]
    exact scan_after _ _ _ _ _ _ _ (lastCall o g1 g1) rq fun v1 v2 h x => congrArg onRest (hg _ v1 v2 h x)

/-- A measurement with white noise is one without it, followed by the noise. -/
theorem measure_last (hr : sim.resp = some (pre ++ [.additive i sigma noise])) (lab : Labelling) (rq : Request) :
    sim.measure lab rq = AnySim.measure { sim with resp := some pre } lab rq >>= fun out => whiteCall i sigma noise out.1 >>= fun y => pure (y, out.2) :=
  measure_end hr lab rq (0, 0) (0, 0) fun _ _ _ _ _ _ => rfl

theorem measureScan_last (hr : sim.resp = some (pre ++ [.additive i sigma noise])) (lab : Labelling) (rq : ScanRequest) :
    sim.measureScan lab rq = AnySim.measureScan { sim with resp := some pre } lab rq >>= fun out => whiteCall i sigma noise out.1 >>= fun y => pure (y, out.2) :=
  measureScan_end hr lab rq (0, 0) fun _ _ _ _ _ => rfl

/-- White noise step by step. -/
theorem whiteCall_eq (y : Scan ℝ) (s : SimState τ) : whiteCall i sigma noise y s =
    match sigma s.2.gens with
    | (.error e, g) => (.error e, (s.1, { s.2 with gens := g }))
    | (.ok v, g) =>
      match noise v y.size g with
      | (.error e, h) => (.error e, (s.1, { s.2 with sigma := Function.update s.2.sigma i (some v), gens := h }))
      | (.ok l, h) => (addNoise y l, (s.1, { s.2 with sigma := Function.update s.2.sigma i (some v), gens := h })) := by
  unfold whiteCall
  unfold SigObject.dist SigDist.on Slot.run WhiteNoise.noiseFunction
  simp only [M.bind_run, onRest, drawing, setOwn, sigmaSlot]
  rcases sigma s.2.gens with ⟨e | v, g⟩
  · simp
  · rcases hn : noise v y.size g with ⟨e | l, h⟩ <;> simp [ofPy, hn]

variable {own : τ → ω} {X : ℕ → ω → ℝ}

theorem size_range (n : ℕ) (f : ℕ → ℝ) {k : ℕ} (hk : k < n) : ((List.range n).map f).getD k 0 = f k := by
  rw [List.getD_eq_getElem?_getD, List.getElem?_map, List.getElem?_range hk]
  rfl

theorem addNoise_plus (x : Scan ℝ) (v : ℝ) (z : ℕ → ℝ) : ∃ y, addNoise x ((List.range x.size).map fun k => v * z k) = .ok y ∧ PlusNoise x v z y := by
  unfold addNoise
  rw [if_neg (by simp)]
  cases x with
  | d0 a => exact ⟨_, rfl, by simp [PlusNoise, Scan.size]⟩
  | d1 n f =>
    refine ⟨_, rfl, ?_⟩
    unfold PlusNoise
    dsimp only [Scan.size]
    congr 1
    funext i
    rw [size_range n (fun k => v * z k) i.2]
  | d2 r c f =>
    refine ⟨_, rfl, ?_⟩
    unfold PlusNoise
    dsimp only [Scan.size]
    congr 1
    funext i j
    rw [size_range (r * c) (fun k => v * z k)]
    calc (i : ℕ) * c + j < i * c + c := Nat.add_lt_add_left j.2 _
      _ = (i + 1) * c := by ring
      _ ≤ r * c := Nat.mul_le_mul_right c i.2

theorem pixelAt_plus {x y : Scan ℝ} {v : ℝ} {z : ℕ → ℝ} (h : PlusNoise x v z y) {k : ℕ} (hk : k < x.size) :
    pixelAt y k = pixelAt x k + v * z k := by
  cases x with
  | d0 a =>
    obtain rfl : k = 0 := by simp only [Scan.size] at hk; omega
    rw [show y = .d0 (a + v * z 0) from h]
    rfl
  | d1 n f =>
    rw [show y = .d1 n fun i => f i + v * z i from h]
    simp only [Scan.size] at hk
    simp only [pixelAt, dif_pos hk]
  | d2 r c f =>
    rw [show y = .d2 r c fun i j => f i j + v * z (i * c + j) from h]
    simp only [Scan.size] at hk
    simp only [pixelAt, dif_pos hk]
    rw [Nat.div_add_mod']

/-- White noise with a strength that is not negative. -/
theorem white_ok (hX : ScaledDraws own noise X) (hu : Spec.Untouched own sigma) {y : Scan ℝ} {s : SimState τ} {v : ℝ} {g : τ} (hv : sigma s.2.gens = (.ok v, g))
    (h0 : 0 ≤ v) : ∃ z s', whiteCall i sigma noise y s = (.ok z, s') ∧ PlusNoise y v (fun k => X k (own s.2.gens)) z ∧
      sigReport s' (.additive i sigma noise) = (some v, none) := by
  have hg : own g = own s.2.gens := by
    have := hu s.2.gens
    rwa [hv] at this
  obtain ⟨h, hn⟩ := (hX v y.size g).1 h0
  obtain ⟨z, hz, hp⟩ := addNoise_plus y v fun k => X k (own g)
  rw [hg] at hp
  refine ⟨z, (s.1, { s.2 with sigma := Function.update s.2.sigma i (some v), gens := h }), ?_, hp, ?_⟩
  · rw [whiteCall_eq, hv]
    dsimp only
    rw [hn]
    dsimp only
    rw [hz]
  · simp [sigReport]

/-- A successful call of white noise. -/
theorem white_only (hX : ScaledDraws own noise X) (hu : Spec.Untouched own sigma) {y z : Scan ℝ} {s s' : SimState τ}
    (h : whiteCall i sigma noise y s = (.ok z, s')) : ∃ v g, sigma s.2.gens = (.ok v, g) ∧ 0 ≤ v ∧ PlusNoise y v (fun k => X k (own s.2.gens)) z ∧
      sigReport s' (.additive i sigma noise) = (some v, none) := by
  cases hs : sigma s.2.gens with
  | mk r g =>
    cases r with
    | error e =>
      rw [whiteCall_eq, hs] at h
      simp at h
    | ok v =>
      rcases le_or_gt 0 v with h0 | h0
      · obtain ⟨z', t, hz, hp, hr⟩ := white_ok (i := i) hX hu (y := y) hs h0
        rw [h] at hz
        cases hz
        exact ⟨v, g, rfl, h0, hp, hr⟩
      · obtain ⟨u, hn⟩ := (hX v y.size g).2 h0
        rw [whiteCall_eq, hs] at h
        dsimp only at h
        rw [hn] at h
        simp at h

theorem distinct_pre {o : SigObject τ} (hr : sim.resp = some (pre ++ [o])) (hd : Distinct sim) : Distinct { sim with resp := some pre } := by
  unfold Distinct at hd ⊢
  rw [hr] at hd
  refine hd.sublist ?_
  simp only [Option.getD_some, List.map_append]
  exact List.Sublist.append_left (List.sublist_append_left _ _) _

/-- The generator of the noise is not used before. -/
theorem measure_own (hd : Distinct sim) (hocc : ∀ o ∈ sim.occ.getD [], OccUntouched own o) (hpot : ∀ o ∈ sim.pot.getD [], SigUntouched own o)
    (hresp : ∀ o ∈ sim.resp.getD [], SigUntouched own o) {lab : Labelling} {rq : Request} {s s' : SimState τ} {out : Scan ℝ × Scan (ℝ × ℝ) × Scan ℕ}
    (h : sim.measure lab rq s = (.ok out, s')) : own s'.2.gens = own s.2.gens := by
  obtain ⟨csd, occ, lead⟩ := out
  cases hs : sim.sensor with
  | generic d =>
    obtain ⟨_, _, _, _, _, _, a, b, -, -, -, -, h1, -, h2, h3⟩ := C96_measure sim lab d hs hd rq _ _ csd occ lead h
    exact (steps_own h3 fun o ho x g y g' h => sigDid_own h (hresp o ho)).trans
      ((steps_own h2 fun o ho x g y g' h => sigDid_own h (hpot o ho)).trans (steps_own h1 fun o ho x g y g' h => occDid_own h (hocc o ho)))
  | scan d =>
    obtain ⟨_, _, _, _, _, _, _, _, _, a, b, -, -, -, -, h1, -, h2, -, -, h3⟩ := C96_scan_sensor_partial sim lab d hs hd rq _ _ csd occ lead h
    exact (steps_own h3 fun o ho x g y g' h => sigDid_own h (hresp o ho)).trans
      ((steps_own h2 fun o ho x g y g' h => lastTold_own h (hpot o ho)).trans (steps_own h1 fun o ho x g y g' h => occDid_own h (hocc o ho)))

theorem measureScan_own (hd : Distinct sim) (hpot : ∀ o ∈ sim.pot.getD [], SigUntouched own o)
    (hresp : ∀ o ∈ sim.resp.getD [], SigUntouched own o) {lab : Labelling} {rq : ScanRequest} {s s' : SimState τ} {out : Scan ℝ × Scan ℕ × Scan ℕ}
    (h : sim.measureScan lab rq s = (.ok out, s')) : own s'.2.gens = own s.2.gens := by
  obtain ⟨scan, cond, peaks⟩ := out
  cases hs : sim.sensor with
  | generic d =>
    unfold AnySim.measureScan at h
    rw [hs] at h
    exact nomatch h
  | scan d =>
    obtain ⟨_, _, -, -, _, _, _, _, _, _, _, _, b, -, -, h2, -, -, h3, -⟩ := C96_scan_partial sim lab d hs hd rq _ _ scan cond peaks h
    exact (steps_own h3 fun o ho x g y g' h => sigDid_own h (hresp o ho)).trans
      (steps_own h2 fun o ho x g y g' h => lastTold_own h (hpot o ho))

/-- The step after the measurement. -/
theorem after_ok {x0 : M (SimState τ) (Scan ℝ × α)} (hX : ScaledDraws own noise X) (hu : Spec.Untouched own sigma) {s s0 : SimState τ} {y0 : Scan ℝ} {a : α}
    {v : ℝ} {g : τ} (h : x0 s = (.ok (y0, a), s0)) (ho : own s0.2.gens = own s.2.gens) (hv : sigma s0.2.gens = (.ok v, g)) (h0 : 0 ≤ v) :
    ∃ y s', (x0 >>= fun out => whiteCall i sigma noise out.1 >>= fun y => pure (y, out.2)) s = (.ok (y, a), s') ∧
      PlusNoise y0 v (fun k => X k (own s.2.gens)) y ∧ sigReport s' (.additive i sigma noise) = (some v, none) := by
  obtain ⟨z, s', hz, hp, hr⟩ := white_ok (i := i) hX hu (y := y0) hv h0
  rw [ho] at hp
  exact ⟨z, s', (M.step h).trans (M.step hz), hp, hr⟩

theorem after_only {x0 : M (SimState τ) (Scan ℝ × α)} (hX : ScaledDraws own noise X) (hu : Spec.Untouched own sigma) {s s' : SimState τ} {y : Scan ℝ} {a : α}
    (ho : ∀ out s0, x0 s = (.ok out, s0) → own s0.2.gens = own s.2.gens)
    (h : (x0 >>= fun out => whiteCall i sigma noise out.1 >>= fun y => pure (y, out.2)) s = (.ok (y, a), s')) :
    ∃ y0 s0 v g, x0 s = (.ok (y0, a), s0) ∧ sigma s0.2.gens = (.ok v, g) ∧ 0 ≤ v ∧ PlusNoise y0 v (fun k => X k (own s.2.gens)) y ∧
      sigReport s' (.additive i sigma noise) = (some v, none) := by
  obtain ⟨⟨y0, a0⟩, s0, h1, h2⟩ := M.bind_ok.1 h
  obtain ⟨z, t, h3, h4⟩ := M.bind_ok.1 h2
  cases h4
  obtain ⟨v, g, hv, h0, hp, hr⟩ := white_only hX hu h3
  rw [ho _ _ h1] at hp
  exact ⟨y0, s0, v, g, h1, hv, h0, hp, hr⟩

/-- The distribution of the differences. -/
theorem differ_law [MeasurableSpace τ] {P : Measure τ} (hX : ScaledDraws own noise X) (hN : StandardNormal P own X) {v : ℝ} (h0 : 0 ≤ v)
    {x x0 : M (SimState τ) (Scan ℝ × α)} (hx : x = x0 >>= fun out => whiteCall i (pure v) noise out.1 >>= fun y => pure (y, out.2)) {s : SimState τ}
    (ho : ∀ g out s0, x0 (withGenerators s g) = (.ok out, s0) → own s0.2.gens = own g) {n : ℕ} (hn : ∀ᵐ g ∂P, g ∈ HasPixels x0 s n)
    {B : ℕ → Set ℝ} (hB : ∀ k < n, MeasurableSet (B k)) :
    P.real (Differ x x0 s n B) = ∏ k ∈ Finset.range n, (gaussianReal 0 (Real.toNNReal (v ^ 2))).real (B k) := by
  have hpure : Spec.Untouched own (pure v : M τ ℝ) := fun _ => rfl
  have e : P.real (Differ x x0 s n B) = P.real (⋂ k ∈ Finset.range n, (fun g => X k (own g)) ⁻¹' ((fun a => v * a) ⁻¹' B k)) := by
    refine measureReal_congr ?_
    filter_upwards [hn] with g hg
    obtain ⟨y0, a, s0, h1, hy⟩ := hg
    obtain ⟨y, s', h2, hp, -⟩ := after_ok (i := i) (sigma := pure v) hX hpure h1 (ho g _ _ h1) (v := v) rfl h0
    rw [← hx] at h2
    have hk : ∀ k < n, pixelAt y k - pixelAt y0 k = v * X k (own g) := by
      intro k hk
      rw [pixelAt_plus hp (hy ▸ hk)]
      show pixelAt y0 k + v * X k (own g) - pixelAt y0 k = _
      ring
    refine propext ⟨?_, fun h => ⟨y, y0, a, s', s0, h2, h1, fun k hkn => ?_⟩⟩
    · rintro ⟨y', y0', a', t', t0, h2', h1', h⟩
      rw [h2] at h2'
      rw [h1] at h1'
      cases h2'
      cases h1'
      refine Set.mem_iInter₂.2 fun k hkn => ?_
      have := h k (Finset.mem_range.1 hkn)
      rwa [hk k (Finset.mem_range.1 hkn)] at this
    · have := Set.mem_iInter₂.1 h k (Finset.mem_range.2 hkn)
      rw [hk k hkn]
      exact this
  have hm : ∀ k ∈ Finset.range n, MeasurableSet ((fun a => v * a) ⁻¹' B k) := fun k hk =>
    (measurable_const_mul v) (hB k (Finset.mem_range.1 hk))
  rw [e, measureReal_def, hN.independent.measure_inter_preimage_eq_mul (Finset.range n) hm, ENNReal.toReal_prod]
  refine Finset.prod_congr rfl fun k hk => ?_
  rw [← Measure.map_apply (hN.measurable k) (hm k hk), hN.law k, ← Measure.map_apply (measurable_const_mul v) (hB k (Finset.mem_range.1 hk)),
    gaussianReal_map_const_mul, measureReal_def]
  congr 3
  · ring
  · rw [mul_one]
    exact (Real.toNNReal_of_nonneg (sq_nonneg v)).symm

/-! ### Two streams of random numbers -/

/-- The numbers that the two generators will draw. -/
abbrev Streams := Fin 2 → ℕ → ℝ

/-- Independent standard normal numbers. -/
noncomputable def streams : Measure Streams := Measure.infinitePi fun _ => Measure.infinitePi fun _ => gaussianReal 0 1

instance : IsProbabilityMeasure streams := by unfold streams; infer_instance

open Classical in
/-- `rng.normal(0, sigma, size=n)` of generator `k`. -/
noncomputable def streamNoise (k : Fin 2) (v : ℝ) (n : ℕ) : M Streams (List ℝ) := fun g =>
  if 0 ≤ v then (.ok ((List.range n).map fun j => v * g k j), Function.update g k fun m => g k (m + n)) else (.error .valueError, g)

theorem stream_draws (k : Fin 2) : ScaledDraws (fun g : Streams => g k) (streamNoise k) fun j f => f j := by
  intro v n g
  exact ⟨fun h => ⟨_, if_pos h⟩, fun h => ⟨g, if_neg (not_le.2 h)⟩⟩

theorem stream_normal (k : Fin 2) : StandardNormal streams (fun g => g k) fun j f => f j := by
  have e1 : streams.map (fun g => g k) = Measure.infinitePi fun _ => gaussianReal 0 1 := Measure.infinitePi_map_eval _ k
  refine ⟨fun j => by fun_prop, ?_, fun j => ?_⟩
  · have hi : iIndepFun (fun (n : ℕ) (f : ℕ → ℝ) => f n) (Measure.infinitePi fun _ : ℕ => gaussianReal 0 1) :=
      iIndepFun_infinitePi (P := fun _ : ℕ => gaussianReal 0 1) (X := fun _ x => x) fun _ => by fun_prop
    rw [iIndepFun_iff_map_fun_eq_infinitePi_map fun _ => by fun_prop] at hi ⊢
    rw [← e1, Measure.map_map (by fun_prop) (by fun_prop)] at hi
    refine hi.trans ?_
    congr 1
    funext n
    rw [Measure.map_map (by fun_prop) (by fun_prop)]
    rfl
  · have e2 : (Measure.infinitePi fun _ : ℕ => gaussianReal 0 1).map (fun f => f j) = gaussianReal 0 1 := Measure.infinitePi_map_eval _ j
    rw [← e2, ← e1, Measure.map_map (by fun_prop) (by fun_prop)]
    rfl

theorem stream_untouched {k l : Fin 2} (h : k ≠ l) (v : ℝ) (n : ℕ) : Spec.Untouched (fun g : Streams => g k) (streamNoise l v n) := by
  intro g
  show (if 0 ≤ v then _ else _ : Py (List ℝ) × Streams).2 k = g k
  split_ifs
  · exact Function.update_of_ne h _ _
  · rfl

/-- White noise that uses generator `k`. -/
noncomputable def streamWhite (i : ℕ) (k : Fin 2) (v : ℝ) : SigObject Streams := .additive i (pure v) (streamNoise k)

/-- The default device with the given noise. -/
noncomputable def streamSim (resp : List (SigObject τ)) : AnySim τ where
  lim := ⟨none, none, none, none⟩
  ideal := some defaultIdeal
  sensor := .generic defaultSensor
  occ := none
  pot := none
  resp := some resp

/-- The sensor for sensor scans with the given noise. -/
noncomputable def streamScanSim (resp : List (SigObject τ)) : AnySim τ where
  lim := ⟨none, none, none, none⟩
  ideal := none
  sensor := .scan flipSensor
  occ := some []
  pot := some []
  resp := some resp

theorem stream_silent (lab : Labelling) (s : SimState τ) : ∃ q a, (streamSim []).measure lab countingRequest s = (.ok (.d1 10 q, a), s) := by
  obtain ⟨p, o⟩ := s
  have hl : Line (-0.2, -0.1) (-0.2, -0.1) 10 := ⟨by norm_num, by norm_num, by norm_num, Or.inl (by norm_num)⟩
  obtain ⟨c, l, s', hg, hs'⟩ := (ideal_serves lab o).one (-0.2, -0.1) (-0.2, -0.1) 10 o rfl hl
  subst s'
  obtain ⟨f, hf⟩ := generic_pot1d defaultSensor (g1 := (-0.2, -0.1)) (g2 := (-0.2, -0.1)) (n := 10) (by norm_num) c
  obtain ⟨q, hq⟩ : ∃ q, defaultSensor.response (.d1 10 f) = .d1 10 q := ⟨_, rfl⟩
  refine ⟨q, (.d1 10 c, .d1 10 l), ?_⟩
  have hc : measureCheck ((streamSim ([] : List (SigObject τ))).generic lab defaultSensor).lim ((streamSim ([] : List (SigObject τ))).generic lab defaultSensor).gen.isSome countingRequest =
      .ok ((-0.2, -0.1), (-0.2, -0.1)) := by
    simp [measureCheck, streamSim, AnySim.generic, countingRequest, rangeOutside, sensorOutside, valueOutside, resCheck]
  unfold AnySim.measure
  show onRest (measure ((streamSim ([] : List (SigObject τ))).generic lab defaultSensor) countingRequest) (p, o) = _
  refine onRest_eq ?_ p
  unfold measure
  rw [hc]
  show measureRun ((streamSim ([] : List (SigObject τ))).generic lab defaultSensor) (idealGen defaultIdeal lab) countingRequest (-0.2, -0.1) (-0.2, -0.1) o = _
  unfold measureRun
  rw [M.step (show idealGen defaultIdeal lab (-0.2, -0.1) (-0.2, -0.1) countingRequest.res o = _ from hg)]
  have ha : applyOcc (-0.2, -0.1) (-0.2, -0.1) (((streamSim ([] : List (SigObject τ))).generic lab defaultSensor).occD.getD []) (idealGen defaultIdeal lab)
      (.d1 10 c, .d1 10 l) o = (.ok ((.d1 10 c, .d1 10 l), idealGen defaultIdeal lab), o) := rfl
  rw [M.step ha]
  have hp : ((streamSim ([] : List (SigObject τ))).generic lab defaultSensor).sensor.potential (.d1 10 c) (-0.2, -0.1) (-0.2, -0.1)
      (if ((streamSim ([] : List (SigObject τ))).generic lab defaultSensor).sensor.scan then some (countingRequest.s1, countingRequest.s2) else none) o =
      (.ok (.single (.d1 10 f)), o) := by
    show (match defaultSensor.potential (.d1 10 c) (-0.2, -0.1) (-0.2, -0.1) with
      | .ok p => (pure (Pot.single p) : M (ObjState τ) Pot) | .error e => M.raise e) _ = _
    rw [hf]
    rfl
  rw [M.step hp]
  have hd : distortPotential (-0.2, -0.1) (-0.2, -0.1) (.d1 10 c) ((streamSim ([] : List (SigObject τ))).generic lab defaultSensor).potD (.single (.d1 10 f)) o =
      (.ok (.single (.d1 10 f)), o) := rfl
  rw [M.step hd]
  have hr : ((streamSim ([] : List (SigObject τ))).generic lab defaultSensor).sensor.response (.single (.d1 10 f)) o = (.ok (.d1 10 q), o) := by
    rw [← hq]
    rfl
  rw [M.step hr]
  rfl

theorem stream_scan_silent (lab : Labelling) (s : SimState τ) : ∃ q a s', (streamScanSim ([] : List (SigObject τ))).measureScan lab flipRequest s = (.ok (.d1 2 q, a), s') := by
  obtain ⟨scan, cond, peaks, s', h, hsh, -⟩ := beside_scan (sim := (streamScanSim ([] : List (SigObject τ))).scan lab flipSensor) (occD := []) (pot := [])
    (resp := []) ⟨rfl, rfl, rfl, rfl⟩ (ps := [⟨.gaussian, 0, 1, 1, 0⟩]) rfl
    (rq := flipRequest) rfl rfl (s1 := (-2, -1)) (s2 := (-2, -1)) (p := s.1) (st := s.2)
    (occ := .d1 2 fun _ => (0, 0)) rfl (mu := .d1 2 flipMu) (o := (0, 0)) flip_potential rfl (.d1 _ _ _) nofun nofun
  cases hsh with
  | d1 _ _ q =>
    refine ⟨q, (cond, peaks), s', ?_⟩
    show measureSensorScan ((streamScanSim ([] : List (SigObject τ))).scan lab flipSensor) _ _ = _
    unfold measureSensorScan
    rw [show scanCheck ((streamScanSim ([] : List (SigObject τ))).scan lab flipSensor).lim true flipRequest = .ok ((-2, -1), (-2, -1)) by
      simp [scanCheck, flipRequest, streamScanSim, AnySim.scan, rangeOutside, fixedIn2d, fixedOutside, scanResCheck, VoltArg.isNone]]
    exact h

theorem plus_size {x y : Scan ℝ} {v : ℝ} {z : ℕ → ℝ} (h : PlusNoise x v z y) : y.size = x.size := by
  cases x <;> (rw [show y = _ from h]; rfl)

theorem stream_pixels (lab : Labelling) (s : SimState Streams) (g : Streams) :
    g ∈ HasPixels ((streamSim [streamWhite 0 0 1]).measure lab countingRequest) s 10 := by
  obtain ⟨q, a, h⟩ := stream_silent lab (withGenerators s g)
  obtain ⟨y, s', h', hp, -⟩ := after_ok (i := 0) (sigma := pure 1) (stream_draws 0) (fun _ => rfl) h rfl (v := 1) rfl zero_le_one
  exact ⟨y, a, s', (congrFun (measure_last (sim := streamSim [streamWhite 0 0 1]) (pre := []) rfl lab countingRequest) _).trans h', plus_size hp⟩

theorem stream_scan_pixels (lab : Labelling) (s : SimState Streams) (g : Streams) :
    g ∈ HasPixels ((streamScanSim [streamWhite 0 0 1]).measureScan lab flipRequest) s 2 := by
  obtain ⟨q, a, s0, h⟩ := stream_scan_silent lab (withGenerators s g)
  obtain ⟨y, s', h', hp, -⟩ := after_ok (i := 0) (sigma := pure 1) (stream_draws 0) (fun _ => rfl) h
    (measureScan_own (own := fun g : Streams => g 0) (by simp [Distinct, streamScanSim]) (by simp [streamScanSim]) (by simp [streamScanSim]) h) (v := 1) rfl zero_le_one
  exact ⟨y, a, s', (congrFun (measureScan_last (sim := streamScanSim [streamWhite 0 0 1]) (pre := []) rfl lab flipRequest) _).trans h', plus_size hp⟩

theorem stream_before (v : ℝ) : ∀ o ∈ [streamWhite 0 0 v], SigUntouched (fun g : Streams => g 1) o := by
  intro o ho
  rw [List.mem_singleton.1 ho]
  exact ⟨fun _ => rfl, fun v n => stream_untouched (by decide) v n⟩

end SimCATS
