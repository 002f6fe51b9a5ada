import Verif.Spec.ActivationLaw
import Verif.Props.Reports
import Verif.Lemmas.HistoryNoise
import Mathlib.MeasureTheory.Measure.Real
import Mathlib.Probability.Distributions.Bernoulli
import Mathlib.Probability.Independence.InfinitePi

/-!
Which draw decides whether a distortion is active, and sensor scans with telegraph noise on the potentials.
-/

namespace SimCATS

open Spec MeasureTheory ProbabilityTheory

variable {τ ω α O : Type}

section own
variable {own : τ → ω}

theorem occDid_own {g1 g2 : ℝ × ℝ} {rep : Option ℝ × Option Bool} {o : OccObject τ} {x y : CsdData} {g g' : τ} (h : OccDid g1 g2 rep o x g y g')
    (hu : OccUntouched own o) : own g' = own g := by
  cases o with
  | fermi i sigma =>
    obtain ⟨σ, h, -⟩ := h
    have := hu g
    rwa [h] at this
  | gauss i sigma =>
    obtain ⟨σ, h, -⟩ := h
    have := hu g
    rwa [h] at this
  | jumps i scale lam axis ratio rng np2 nan =>
    obtain ⟨b, k, -, -, -, h⟩ := h
    exact h ω own hu

theorem sigDid_own {rep : Option ℝ × Option Bool} {o : SigObject τ} {x y : Scan ℝ} {g g' : τ} (h : SigDid rep o x g y g')
    (hu : SigUntouched own o) : own g' = own g := by
  cases o with
  | additive i sigma noise =>
    obtain ⟨σ, k, l, h1, h2, -⟩ := h
    have e1 := hu.1 g
    have e2 := hu.2 σ x.size k
    rw [h1] at e1
    rw [h2] at e2
    exact e2.trans e1
  | rtn i scale std height ratio rng =>
    obtain ⟨b, k, -, -, -, h⟩ := h
    exact h ω own hu

theorem lastTold_own {rep : Option ℝ × Option Bool} {o : SigObject τ} {xs ys : List (Scan ℝ)} {g g' : τ} (h : LastTold rep o xs g ys g')
    (hu : SigUntouched own o) : own g' = own g := by
  induction h with
  | last only => exact sigDid_own only hu
  | cons first rest ih => exact ih.trans (sigDid_own first hu)

theorem steps_own {step : O → α → τ → α → τ → Prop} : ∀ {os : List O} {x y : α} {g g' : τ}, Steps step os x g y g' →
    (∀ o ∈ os, ∀ x g y g', step o x g y g' → own g' = own g) → own g' = own g
  | _, _, _, _, _, .nil _ _, _ => rfl
  | _, _, _, _, _, .cons first rest, h =>
    (steps_own rest fun o ho => h o (List.mem_cons_of_mem _ ho)).trans (h _ List.mem_cons_self _ _ _ _ first)

/-- The step of one object of the list. -/
theorem steps_at {step : O → α → τ → α → τ → Prop} {o : O} {post : List O} : ∀ {pre : List O} {x y : α} {g g' : τ},
    Steps step (pre ++ o :: post) x g y g' → (∀ o' ∈ pre, ∀ x g y g', step o' x g y g' → own g' = own g) →
    ∃ x' h y' h', own h = own g ∧ step o x' h y' h'
  | [], _, _, _, _, .cons first _, _ => ⟨_, _, _, _, rfl, first⟩
  | _ :: _, _, _, _, _, .cons first rest, h => by
    obtain ⟨x', k, y', k', e, hs⟩ := steps_at rest fun o ho => h o (List.mem_cons_of_mem _ ho)
    exact ⟨x', k, y', k', e.trans (h _ List.mem_cons_self _ _ _ _ first), hs⟩

theorem jumps_decides {X : ω → Bool} {r : ℝ} {rng : Rng τ} (hX : ∀ g, ∃ h, rng.binomial r g = (.ok (X (own g)), h)) {g1 g2 : ℝ × ℝ}
    {rep : Option ℝ × Option Bool} {i : ℕ} {scale lam : M τ ℝ} {axis : Axis} {np2 : Bool} {nan : ℝ} {x y : CsdData} {g g' : τ}
    (h : OccDid g1 g2 rep (.jumps i scale lam axis r rng np2 nan) x g y g') : rep = (none, some (X (own g))) := by
  obtain ⟨b, k, h1, h2, -⟩ := h
  obtain ⟨k', h3⟩ := hX g
  rw [h3] at h1
  cases h1
  exact h2

theorem rtn_decides {X : ω → Bool} {r : ℝ} {rng : Rng τ} (hX : ∀ g, ∃ h, rng.binomial r g = (.ok (X (own g)), h))
    {rep : Option ℝ × Option Bool} {i : ℕ} {scale std height : M τ ℝ} {x y : Scan ℝ} {g g' : τ}
    (h : SigDid rep (.rtn i scale std height r rng) x g y g') : rep = (none, some (X (own g))) := by
  obtain ⟨b, k, h1, h2, -⟩ := h
  obtain ⟨k', h3⟩ := hX g
  rw [h3] at h1
  cases h1
  exact h2

/-- If the report of every successful measurement is the first coin, the distortion is active with the probability of the coin. -/
theorem active_law [MeasurableSpace τ] {P : Measure τ} {r : ℝ} {x : M (SimState τ) α} {s : SimState τ}
    {report : SimState τ → Option ℝ × Option Bool} (hok : ∀ᵐ g ∂P, g ∈ Succeeds x s) {X : ω → Bool} (hP : P.real {g | X (own g) = true} = r)
    (h : ∀ g out s', x (withGenerators s g) = (.ok out, s') → report s' = (none, some (X (own g)))) : P.real (ActiveFor x s report) = r := by
  rw [← hP]
  refine measureReal_congr ?_
  filter_upwards [hok] with g hg
  obtain ⟨out, s', hr⟩ := hg
  have e := h g out s' hr
  refine propext ⟨?_, fun hX => ⟨out, s', hr, ?_⟩⟩
  · rintro ⟨out', s'', hr', h'⟩
    rw [hr] at hr'
    cases hr'
    rw [e] at h'
    exact Option.some.inj (congrArg Prod.snd h')
  · rw [e, show X (own g) = true from hX]

end own

/-! ### Three potentials, three decisions -/

/-- Telegraph noise that is not active. -/
theorem rtn_off {i : ℕ} {scale std height : M τ ℝ} {r : ℝ} {rng : Rng τ} {s : ObjState τ} {t : τ} (h : rng.binomial r s.gens = (.ok false, t))
    (x : Scan ℝ) (g1 g2 : ℝ × ℝ) : (SigObject.rtn i scale std height r rng).dist x g1 g2 s =
      (.ok x, { s with active := Function.update s.active i (some false), gens := t }) := by
  show (activeSlot τ i).run (Rtn.noiseFunction ⟨drawing scale, drawing std, drawing height, r, rng.drawing⟩ x g1 g2) s = _
  refine run_of (activeSlot τ i) (p := (some false, { s with gens := t })) ?_ rfl
  unfold Rtn.noiseFunction
  have hb : drawing (rng.binomial r) s = (.ok false, { s with gens := t }) := by
    unfold drawing
    rw [h]
  have h1 : onRest (rng.drawing.binomial r) ((activeSlot τ i).get s, s) = (.ok false, ((activeSlot τ i).get s, { s with gens := t })) :=
    onRest_eq (D := Option Bool) hb ((activeSlot τ i).get s)
  rw [M.step h1, M.step (setOwn_run _ _ _), if_pos rfl]
  rfl

theorem beside_eq {σ X : Type} {d : SigDist σ} {x y : Scan ℝ} {g1 g2 : ℝ × ℝ} {s s' : σ} (h : d x g1 g2 s = (.ok y, s')) (p : X) :
    d.beside x g1 g2 (p, s) = (.ok y, (p, s')) := onRest_eq h p

/-- Three calls on the rows of the potentials. -/
theorem rows_three {σ : Type} {d : SigDist σ} {g1 g2 : ℝ × ℝ} {a b c a' b' c' : Scan ℝ} {s s1 s2 s3 : σ} (h1 : d a g1 g2 s = (.ok a', s1))
    (h2 : d b g1 g2 s1 = (.ok b', s2)) (h3 : d c g1 g2 s2 = (.ok c', s3)) (p : Option ScanState) :
    applyRows g1 g2 [d.beside] [a, b, c] (p, s) = (.ok [a', b', c'], (p, s3)) := by
  unfold applyRows
  have : distortRows g1 g2 (d.beside (X := Option ScanState)) [a, b, c] (p, s) = (.ok [a', b', c'], (p, s3)) := by
    unfold distortRows
    rw [M.step (beside_eq h1 p)]
    unfold distortRows
    rw [bind_assoc, M.step (beside_eq h2 p)]
    unfold distortRows
    rw [bind_assoc, bind_assoc, M.step (beside_eq h3 p)]
    rfl
  rw [M.step this]
  rfl

/-- A sensor scan with telegraph noise on the potentials whose three decisions are negative returns the undisturbed data. -/
theorem scan_inactive {sim : AnySim τ} {lab : Labelling} {d : ScanSensor} (hs : sim.sensor = .scan d) {i : ℕ} {scale std height : M τ ℝ} {r : ℝ}
    {rng : Rng τ} (hp : sim.pot = some [.rtn i scale std height r rng]) (hr : sim.resp = none) {rq : ScanRequest} {s s' : SimState τ}
    {out : Scan ℝ × Scan ℕ × Scan ℕ} (h : AnySim.measureScan { sim with pot := none } lab rq s = (.ok out, s')) {t1 t2 t3 : τ}
    (h1 : rng.binomial r s.2.gens = (.ok false, t1)) (h2 : rng.binomial r t1 = (.ok false, t2)) (h3 : rng.binomial r t2 = (.ok false, t3)) :
    ∃ s'', sim.measureScan lab rq s = (.ok out, s'') := by
  unfold AnySim.measureScan at h ⊢
  rw [hs] at h ⊢
  dsimp only at h ⊢
  unfold measureSensorScan at h ⊢
  change (match scanCheck sim.lim true rq with | .ok (s1, s2) => scanRun _ rq s1 s2 | .error e => M.raise e) s = _ at h
  rw [show (sim.scan lab d).lim = sim.lim from rfl]
  cases hc : scanCheck sim.lim true rq with
  | error e => rw [hc] at h; exact nomatch (Prod.mk.inj h).1
  | ok g =>
    obtain ⟨s1, s2⟩ := g
    rw [hc] at h
    dsimp only at h ⊢
    unfold scanRun at h ⊢
    obtain ⟨occ, t4, k1, j1⟩ := M.bind_ok.1 h
    obtain ⟨mu, t5, k2, j2⟩ := M.bind_ok.1 j1
    obtain ⟨mu0, t6, k3, j3⟩ := M.bind_ok.1 j2
    obtain ⟨masks, t7, k4, j4⟩ := M.bind_ok.1 j3
    obtain ⟨mu', t8, k5, j5⟩ := M.bind_ok.1 j4
    obtain ⟨scan, t9, k6, j6⟩ := M.bind_ok.1 j5
    obtain ⟨scan', t10, k7, j7⟩ := M.bind_ok.1 j6
    clear h j1 j2 j3 j4 j5 j6
    have k7 : ((Except.ok scan : Py (Scan ℝ)), t9) = (Except.ok scan', t10) := by
      rw [← k7]
      unfold AnySim.scan
      rw [hr]
      rfl
    have e4 : t4 = s := scanOcc_gens (sim := sim) (lab := lab) k1
    subst e4
    have m2 := (onSensor_iff.1 k2).2
    have m3 := (onSensor_iff.1 k3).2
    have m4 := (onSensor_iff.1 k4).2
    have m : t7.2 = t4.2 := by rw [m4, m3, m2]
    cases k5
    obtain ⟨k6, m6⟩ := onSensor_iff.1 k6
    cases k7
    cases j7
    obtain ⟨p7, o7⟩ := t7
    dsimp only at m
    subst m
    have hd : ∃ u, distortScanPot s1 s2 (sim.scan lab d).potD mu (p7, t4.2) = (.ok mu, (p7, u)) := by
      unfold AnySim.scan
      rw [hp]
      have o1 := rtn_off (i := i) (scale := scale) (std := std) (height := height) (s := t4.2) h1 (mu.map fun m => m 0) s1 s2
      have o2 := rtn_off (i := i) (scale := scale) (std := std) (height := height)
        (s := { t4.2 with active := Function.update t4.2.active i (some false), gens := t1 }) h2 (mu.map fun m => m 1) s1 s2
      have o3 := rtn_off (i := i) (scale := scale) (std := std) (height := height)
        (s := { t4.2 with active := Function.update (Function.update t4.2.active i (some false)) i (some false), gens := t2 }) h3
        (mu.map fun m => m 2) s1 s2
      obtain ⟨u, hu⟩ : ∃ u, applyRows s1 s2 [(SigObject.rtn i scale std height r rng).dist.beside] (potRows mu) (p7, t4.2) =
        (.ok (potRows mu), (p7, u)) := ⟨_, rows_three o1 o2 o3 p7⟩
      refine ⟨u, ?_⟩
      unfold distortScanPot
      refine (M.step hu).trans ?_
      rw [ofPy_run, fromRows_potRows]
    obtain ⟨u, hd⟩ := hd
    refine ⟨(s'.1, u), ?_⟩
    refine (M.step k1).trans ((M.step k2).trans ((M.step k3).trans ((M.step k4).trans ((M.step hd).trans ((M.step (onSensor_ok k6)).trans ?_)))))
    unfold AnySim.scan
    rw [hr]
    rfl

theorem three_false [MeasurableSpace τ] {P : Measure τ} [IsProbabilityMeasure P] {r : ℝ} {X : ℕ → τ → Bool} (hm : ∀ n, Measurable (X n))
    (hi : iIndepFun X P) (hP : ∀ n, P.real {g | X n g = true} = r) :
    P.real {g | X 0 g = false ∧ X 1 g = false ∧ X 2 g = false} = (1 - r) ^ 3 := by
  have hf : ∀ n, P.real (X n ⁻¹' {false}) = 1 - r := by
    intro n
    have e : P.real {g | X n g = true}ᶜ = 1 - P.real {g | X n g = true} :=
      probReal_compl_eq_one_sub (hm n (MeasurableSet.of_discrete (s := {true})))
    rw [← hP n, ← e]
    congr 1
    ext g
    simp
  have h := hi.measure_inter_preimage_eq_mul (Finset.range 3) (sets := fun _ => {false}) fun _ _ => MeasurableSet.of_discrete
  have e : {g | X 0 g = false ∧ X 1 g = false ∧ X 2 g = false} = ⋂ i ∈ Finset.range 3, X i ⁻¹' {false} := by
    ext g
    simp only [Set.mem_ofPred_eq, Set.mem_iInter, Finset.mem_range, Set.mem_preimage, Set.mem_singleton_iff]
    constructor
    · rintro ⟨h0, h1, h2⟩ i hi
      obtain rfl | rfl | rfl : i = 0 ∨ i = 1 ∨ i = 2 := by omega
      · exact h0
      · exact h1
      · exact h2
    · intro h
      exact ⟨h 0 (by norm_num), h 1 (by norm_num), h 2 (by norm_num)⟩
  rw [e, measureReal_def, h, ENNReal.toReal_prod]
  simp only [← measureReal_def, hf, Finset.prod_const, Finset.card_range]

theorem coin_next {rng : Rng τ} {r : ℝ} {X : ℕ → τ → Bool} (hX : ∀ n g, (rng.binomial r ((fun g => (rng.binomial r g).2)^[n] g)).1 = .ok (X n g))
    {g : τ} (h : X 0 g = false ∧ X 1 g = false ∧ X 2 g = false) : ∃ t1 t2 t3, rng.binomial r g = (.ok false, t1) ∧
      rng.binomial r t1 = (.ok false, t2) ∧ rng.binomial r t2 = (.ok false, t3) := by
  have h0 := hX 0 g
  have h1 := hX 1 g
  have h2 := hX 2 g
  rw [h.1] at h0
  rw [h.2.1] at h1
  rw [h.2.2] at h2
  exact ⟨_, _, _, Prod.ext h0 rfl, Prod.ext h1 rfl, Prod.ext h2 rfl⟩

/-! ### Generators that read coins from streams -/

open Classical in
/-- The distribution of a coin. -/
noncomputable def coinLaw (r : ℝ) : Measure Bool :=
  if h : 0 ≤ r ∧ r ≤ 1 then bernoulliMeasure true false ⟨r, h.1, h.2⟩ else Measure.dirac false

instance (r : ℝ) : IsProbabilityMeasure (coinLaw r) := by
  unfold coinLaw
  split_ifs <;> infer_instance

/-- The states of three generators: the coins that they will give. -/
abbrev Flips := Fin 3 → ℕ → ℝ → Bool

/-- Independent coins. -/
noncomputable def flips : Measure Flips := Measure.infinitePi fun _ => Measure.infinitePi fun _ => Measure.infinitePi coinLaw

instance : IsProbabilityMeasure flips := by unfold flips; infer_instance

open Classical in
/-- Generator `k`; all values but the coins are constant. -/
noncomputable def flipRng (k : Fin 3) : Rng Flips where
  binomial := fun r g => (.ok (g k 0 r), Function.update g k fun n => g k (n + 1))
  geometric := fun p _ g => if 0 < p ∧ p ≤ 1 then (.ok fun _ => 1, g) else (.error .valueError, g)
  poisson := fun _ => pure 0
  normal := fun h _ => pure h

theorem flips_coin {r : ℝ} (h0 : 0 ≤ r) (h1 : r ≤ 1) (k : Fin 3) (n : ℕ) : flips.real {g | g k n r = true} = r := by
  have e1 : flips.map (fun g => g k) = Measure.infinitePi fun _ => Measure.infinitePi coinLaw := Measure.infinitePi_map_eval _ k
  have e2 : (Measure.infinitePi fun _ : ℕ => Measure.infinitePi coinLaw).map (fun f => f n) = Measure.infinitePi coinLaw :=
    Measure.infinitePi_map_eval _ n
  have e3 : (Measure.infinitePi coinLaw).map (fun f => f r) = coinLaw r := Measure.infinitePi_map_eval _ r
  have e4 : flips.map (fun g => g k n r) = coinLaw r := by
    rw [← e3, ← e2, ← e1, Measure.map_map (by fun_prop) (by fun_prop), Measure.map_map (by fun_prop) (by fun_prop)]
    rfl
  have e5 : {g : Flips | g k n r = true} = (fun g => g k n r) ⁻¹' {true} := rfl
  rw [e5, ← map_measureReal_apply (by fun_prop) MeasurableSet.of_discrete, e4, coinLaw, dif_pos ⟨h0, h1⟩,
    bernoulliMeasure_real_apply_of_mem_of_notMem _ MeasurableSet.of_discrete (by simp) (by simp)]

theorem flips_flips {r : ℝ} (h0 : 0 ≤ r) (h1 : r ≤ 1) (k : Fin 3) : FlipsCoin flips (fun g => g k) (flipRng k) r :=
  ⟨fun f => f 0 r, fun g => ⟨_, rfl⟩, flips_coin h0 h1 k 0⟩

theorem flip_next (k : Fin 3) (r : ℝ) : ∀ (n : ℕ) (g : Flips), (fun g => ((flipRng k).binomial r g).2)^[n] g = Function.update g k fun m => g k (m + n)
  | 0, g => by simp
  | n + 1, g => by
    rw [Function.iterate_succ_apply, flip_next k r n]
    show Function.update (Function.update g k fun m => g k (m + 1)) k (fun m => Function.update g k (fun m => g k (m + 1)) k (m + n)) = _
    rw [Function.update_idem, Function.update_self]
    rfl

theorem flips_draws {r : ℝ} (h0 : 0 ≤ r) (h1 : r ≤ 1) (k : Fin 3) : CoinDraws flips (flipRng k) r := by
  refine ⟨fun n g => g k n r, fun n g => ?_, fun n => by fun_prop, ?_, fun n => flips_coin h0 h1 k n⟩
  · rw [flip_next]
    show Except.ok (Function.update g k _ k 0 r) = _
    rw [Function.update_self, zero_add]
  · have e1 : flips.map (fun g => g k) = Measure.infinitePi fun _ => Measure.infinitePi coinLaw := Measure.infinitePi_map_eval _ k
    have hi : iIndepFun (fun (n : ℕ) (f : ℕ → ℝ → Bool) => f n r) (Measure.infinitePi fun _ : ℕ => Measure.infinitePi coinLaw) :=
      iIndepFun_infinitePi (P := fun _ : ℕ => Measure.infinitePi coinLaw) (X := fun _ f => f r) fun _ => by fun_prop
    rw [iIndepFun_iff_map_fun_eq_infinitePi_map fun _ => by fun_prop] at hi ⊢
    rw [← e1, Measure.map_map (by fun_prop) (by fun_prop)] at hi
    refine hi.trans (congrArg Measure.infinitePi (funext fun n => ?_))
    rw [Measure.map_map (by fun_prop) (by fun_prop)]
    rfl

/-! ### A sensor scan -/

/-- A sensor for sensor scans with one peak and two barriers. -/
noncomputable def flipSensor : ScanSensor where
  peaks := some [⟨.gaussian, 0, 1, 1, 0⟩]
  defs := []
  rise := none
  barrier1 := (⟨1 / 10, 9 / 10, sampleGlf, 0⟩ : BarrierGlf).barrier
  barrier2 := (⟨1 / 10, 9 / 10, sampleGlf, 0⟩ : BarrierGlf).barrier
  alphaDot := ![(0, 0), (0, 0), (0, 0)]
  alphaGate := ![(0, 0), (0, 0), (0, 0)]
  alphaSensor := ![(1, 1), (1, 0), (0, 1)]
  offset := ![0, 0, 0]

/-- The sensor with telegraph noise on the potentials. -/
noncomputable def flipScanSim (r : ℝ) : AnySim Flips where
  lim := ⟨none, none, none, none⟩
  ideal := none
  sensor := .scan flipSensor
  occ := none
  pot := some [.rtn 0 (pure (1 / 2)) (pure 0) (pure (-1)) r (flipRng 0)]
  resp := none

/-- Two pixels. -/
noncomputable def flipRequest : ScanRequest := ⟨[-2, -1], [-2, -1], .none, .none, .int 2⟩

/-- The potentials of the two pixels. -/
noncomputable def flipMu (i : Fin 2) (k : Fin 3) : ℝ := potentialAt flipSensor k (0, 0) (argVoltage .none 2 i, argVoltage .none 2 i)
  (argVoltage (.arr (-2, -1)) 2 i, argVoltage (.arr (-2, -1)) 2 i)

theorem flip_potential (st : Option ScanState) : flipSensor.potential (.d1 2 fun _ => (0, 0)) .none .none (.arr (-2, -1)) (.arr (-2, -1)) st =
    (.ok (.d1 2 flipMu), some ⟨(0, 0), (0, 0), (-2, -1), (-2, -1), .d1 2 fun _ => (0, 0)⟩) := by
  refine Prod.ext (C71_potential_1d flipSensor 2 (by norm_num) (fun _ => (0, 0)) .none .none (.arr (-2, -1)) (.arr (-2, -1)) (Or.inl ⟨rfl, rfl⟩) st) ?_
  simp [ScanSensor.potential, VoltArg.isArr, VoltArg.lims]

theorem flip_last : flipMu 1 0 = -2 ∧ flipMu 1 1 = -1 ∧ flipMu 1 2 = -1 := by
  refine ⟨?_, ?_, ?_⟩ <;> simp [flipMu, potentialAt, argVoltage, flipSensor] <;> norm_num

/-- The signal for given potentials. -/
noncomputable def flipSignal (m : Fin 3 → ℝ) : ℝ := series (gaussResponse (m 0) 0 1 1 0) (glf sampleGlf 0 (m 1)) (glf sampleGlf 0 (m 2))

theorem flip_dotSeries (off : ℝ) (m : Fin 3 → ℝ) : dotSeries flipSensor off m = flipSignal m := by
  show series ([gaussResponse (m 0) 0 1 1 0].sum) _ _ = _
  rw [List.sum_singleton]
  rfl

/-- The scan for given distorted potentials. -/
theorem flip_run (lab : Labelling) : ∃ cond peaks, ∀ (sim : AnySim Flips), sim.lim = ⟨none, none, none, none⟩ → sim.ideal = none →
    sim.sensor = .scan flipSensor → sim.resp = none → ∀ (mu : Scan (Fin 3 → ℝ)) (s : SimState Flips),
    (∀ q, ∃ u, distortScanPot (-2, -1) (-2, -1) (sim.scan lab flipSensor).potD (.d1 2 flipMu) (q, s.2) = (.ok mu, (q, u))) →
    ∃ s', sim.measureScan lab flipRequest s = (.ok (mu.map flipSignal, cond, peaks), s') := by
  obtain ⟨cond, peaks, y, e1, hy, -⟩ := labels_total flipSensor rfl (ps := [⟨.gaussian, 0, 1, 1, 0⟩]) rfl (g1 := .none) (g2 := .none) rfl rfl
    (-2, -1) (-2, -1) (mu := .d1 2 flipMu) (.d1 _ _ _) (x := ⟨(0, 0), (0, 0), (-2, -1), (-2, -1), .d1 2 fun _ => (0, 0)⟩) (o := (0, 0)) rfl
  refine ⟨cond, peaks, ?_⟩
  rintro ⟨lim, ideal, sensor, occ, pot, resp⟩ hl hi hs hr mu s hd
  dsimp only at hl hi hs hr
  subst hl hi hs hr
  obtain ⟨p, st⟩ := s
  obtain ⟨u, hd⟩ := hd (some y)
  obtain ⟨t, e5⟩ := response_run flipSensor mu y (0, 0) hy (Or.inl rfl)
  refine ⟨(t, u), ?_⟩
  show measureSensorScan (AnySim.scan _ lab flipSensor) _ _ = _
  unfold measureSensorScan
  rw [show scanCheck (AnySim.scan (⟨⟨none, none, none, none⟩, none, .scan flipSensor, occ, pot, none⟩ : AnySim Flips) lab flipSensor).lim true flipRequest =
      .ok ((-2, -1), (-2, -1)) by
    simp [scanCheck, flipRequest, AnySim.scan, rangeOutside, fixedIn2d, fixedOutside, scanResCheck, VoltArg.isNone]]
  dsimp only
  unfold scanRun
  have h0 : scanOcc (AnySim.scan (⟨⟨none, none, none, none⟩, none, .scan flipSensor, occ, pot, none⟩ : AnySim Flips) lab flipSensor).gen flipRequest
      (p, st) = (.ok (.d1 2 fun _ => (0, 0)), (p, st)) := rfl
  refine (M.step h0).trans ?_
  refine (M.step (onSensor_ok (flip_potential p))).trans ?_
  refine (M.step (onSensor_ok (flip_potential _))).trans ?_
  refine (M.step (onSensor_ok e1)).trans ?_
  refine (M.step hd).trans ?_
  refine (M.step (onSensor_ok e5)).trans ?_
  rw [show (fun m => dotSeries flipSensor (riseOff flipSensor y (0, 0)) m) = flipSignal from funext (flip_dotSeries _)]
  rfl

/-- The effect of the noise on one potential. -/
noncomputable def dropped (b : Bool) (f : Fin 2 → ℝ) (i : Fin 2) : ℝ := if b = true ∧ i = 1 then f i - 1 else f i

theorem flip_dist (r : ℝ) (f : Fin 2 → ℝ) (s : ObjState Flips) : ∃ s', (SigObject.rtn 0 (pure (1 / 2)) (pure 0) (pure (-1)) r (flipRng 0)).dist (.d1 2 f)
    (-2, -1) (-2, -1) s = (.ok (.d1 2 (dropped (s.gens 0 0 r) f)), s') ∧ s'.gens = Function.update s.gens 0 fun n => s.gens 0 (n + 1) := by
  obtain ⟨t, ht⟩ : ∃ t, t = Function.update s.gens 0 fun n => s.gens 0 (n + 1) := ⟨_, rfl⟩
  cases hb : s.gens 0 0 r with
  | false =>
    refine ⟨{ s with active := Function.update s.active 0 (some false), gens := t }, (rtn_off (t := t) ?_ _ _ _).trans ?_, ht⟩
    · rw [ht, ← hb]
      rfl
    · congr 3
  | true =>
    refine ⟨{ s with active := Function.update s.active 0 (some true), gens := t }, ?_, ht⟩
    show (activeSlot Flips 0).run (Rtn.noiseFunction ⟨drawing (pure (1 / 2)), drawing (pure 0), drawing (pure (-1)), r, (flipRng 0).drawing⟩ (.d1 2 f)
      (-2, -1) (-2, -1)) s = _
    refine run_of (activeSlot Flips 0) (p := (some true, { s with gens := t })) ?_ rfl
    unfold Rtn.noiseFunction
    have hb : drawing ((flipRng 0).binomial r) s = (.ok true, { s with gens := t }) := by
      rw [ht, ← hb]
      rfl
    have h1 : onRest ((flipRng 0).drawing.binomial r) ((activeSlot Flips 0).get s, s) = (.ok true, ((activeSlot Flips 0).get s, { s with gens := t })) :=
      onRest_eq (D := Option Bool) hb ((activeSlot Flips 0).get s)
    rw [M.step h1, M.step (setOwn_run _ _ _), if_neg (by simp)]
    have h2 : ∀ (v : ℝ) (x : Option Bool × ObjState Flips), onRest (drawing (pure v : M Flips ℝ)) x = (.ok v, x) := fun _ _ => rfl
    rw [M.step (h2 _ _), M.step (h2 _ _), M.step (h2 _ _)]
    have h3 : (rtnFactor (-2, -1) (-2, -1) (.d1 2 f)).map (fun k => 1 / 2 * k) = some 1 := by
      unfold rtnFactor
      norm_num
    rw [h3]
    refine onRest_eq (D := Option Bool) ?_ (some true)
    unfold telegraphNoise
    dsimp only
    rw [if_neg one_ne_zero]
    have h4 : (flipRng 0).drawing.geometric (1 / 1) (Scan.d1 2 f).size { s with gens := t } = (.ok fun _ => 1, { s with gens := t }) := by
      show drawing ((flipRng 0).geometric (1 / 1) 2) _ = _
      unfold drawing flipRng
      norm_num
    rw [M.step h4]
    have h5 : burstLoop ((flipRng 0).drawing.normal (-1) 0) (Scan.d1 2 f).size (fun _ => 1) (Scan.d1 2 f).size 0 0 [] { s with gens := t } =
        (.ok [0, -1], { s with gens := t }) := by
      have hn : ∀ x, (flipRng 0).drawing.normal (-1) 0 x = (.ok (-1), x) := fun _ => rfl
      show burstLoop _ 2 _ 2 0 0 [] _ = _
      unfold burstLoop
      rw [if_pos one_pos, M.step (hn _)]
      unfold burstLoop
      rw [if_neg (by simp), if_pos one_pos, M.step (hn _)]
      simp [M.pure_run]
    rw [M.step h5, ofPy_run]
    congr 1
    show Except.ok (Scan.d1 2 fun i => f i + List.getD [0, -1] i 0) = _
    congr 2
    funext i
    fin_cases i
    · simp [dropped]
    · simp [dropped]
      ring

/-- The potentials with noise. -/
noncomputable def droppedMu (g : Flips) (r : ℝ) (i : Fin 2) : Fin 3 → ℝ := fun k => dropped (g 0 k r) (fun i => flipMu i k) i

theorem flip_pot (r : ℝ) (lab : Labelling) (s : ObjState Flips) (q : Option ScanState) : ∃ u, distortScanPot (-2, -1) (-2, -1)
    ((flipScanSim r).scan lab flipSensor).potD (.d1 2 flipMu) (q, s) = (.ok (.d1 2 (droppedMu s.gens r)), (q, u)) := by
  obtain ⟨s1, h1, e1⟩ := flip_dist r (fun i => flipMu i 0) s
  obtain ⟨s2, h2, e2⟩ := flip_dist r (fun i => flipMu i 1) s1
  obtain ⟨s3, h3, e3⟩ := flip_dist r (fun i => flipMu i 2) s2
  rw [e2, e1] at h3
  rw [e1] at h2
  refine ⟨s3, ?_⟩
  have hr : applyRows (-2, -1) (-2, -1) [(SigObject.rtn 0 (pure (1 / 2)) (pure 0) (pure (-1)) r (flipRng 0)).dist.beside] (potRows (.d1 2 flipMu)) (q, s) =
      (.ok (potRows (.d1 2 (droppedMu s.gens r))), (q, s3)) := by
    refine (rows_three h1 h2 h3 q).trans ?_
    simp only [Function.update_self]
    rfl
  show distortScanPot _ _ (some [(SigObject.rtn 0 (pure (1 / 2)) (pure 0) (pure (-1)) r (flipRng 0)).dist.beside]) _ _ = _
  unfold distortScanPot
  refine (M.step hr).trans ?_
  rw [ofPy_run, fromRows_potRows]

theorem flip_signal_lt {a b c a' b' c' : ℝ} (h0 : a' ≤ a) (h1 : b' ≤ b) (h2 : c' ≤ c) (ha : a < 0)
    (h : flipSignal ![a', b', c'] = flipSignal ![a, b, c]) : a' = a ∧ b' = b ∧ c' = c := by
  have hm := (C17_glf_monotone sampleGlf sampleGlf_ok 0).1 (by norm_num [sampleGlf])
  have hp : ∀ t, 0 < glf sampleGlf 0 t := fun t => by
    have := (C17_glf_between sampleGlf sampleGlf_ok (by norm_num [sampleGlf]) 0 t).1
    refine lt_of_le_of_lt ?_ this
    norm_num [sampleGlf]
  have hg : ∀ t, 0 < gaussResponse t 0 1 1 0 := fun t => by
    unfold gaussResponse
    have := Real.exp_pos (-((t - 0) / 1) ^ 2)
    linarith
  have hgm : ∀ {x y : ℝ}, x < y → y < 0 → gaussResponse x 0 1 1 0 < gaussResponse y 0 1 1 0 := by
    intro x y hxy hy
    unfold gaussResponse
    have : Real.exp (-((x - 0) / 1) ^ 2) < Real.exp (-((y - 0) / 1) ^ 2) := Real.exp_lt_exp.2 (by nlinarith)
    linarith
  have e : 1 / flipSignal ![a', b', c'] = 1 / flipSignal ![a, b, c] := by rw [h]
  have k : ∀ x y z, 1 / flipSignal ![x, y, z] = 1 / gaussResponse x 0 1 1 0 + 1 / glf sampleGlf 0 y + 1 / glf sampleGlf 0 z := fun x y z =>
    C23_series_law _ _ _ (hg x) (hp y) (hp z)
  rw [k, k] at e
  have l0 : 1 / gaussResponse a 0 1 1 0 ≤ 1 / gaussResponse a' 0 1 1 0 := by
    rcases h0.eq_or_lt with rfl | h0
    · exact le_rfl
    · exact one_div_le_one_div_of_le (hg _) (hgm h0 ha).le
  have l1 : 1 / glf sampleGlf 0 b ≤ 1 / glf sampleGlf 0 b' := one_div_le_one_div_of_le (hp _) (hm.monotone h1)
  have l2 : 1 / glf sampleGlf 0 c ≤ 1 / glf sampleGlf 0 c' := one_div_le_one_div_of_le (hp _) (hm.monotone h2)
  refine ⟨?_, ?_, ?_⟩
  · by_contra hne
    have := one_div_lt_one_div_of_lt (hg _) (hgm (lt_of_le_of_ne h0 hne) ha)
    linarith
  · by_contra hne
    have := one_div_lt_one_div_of_lt (hp _) (hm (lt_of_le_of_ne h1 hne))
    linarith
  · by_contra hne
    have := one_div_lt_one_div_of_lt (hp _) (hm (lt_of_le_of_ne h2 hne))
    linarith

theorem flip_equal {g : Flips} {r : ℝ} (h : (Scan.d1 2 (droppedMu g r)).map flipSignal = (Scan.d1 2 flipMu).map flipSignal) :
    g 0 0 r = false ∧ g 0 1 r = false ∧ g 0 2 r = false := by
  have h1 := congrFun (eq_of_heq (Scan.d1.inj h).2) 1
  obtain ⟨m0, m1, m2⟩ := flip_last
  have hx : ∀ m : Fin 3 → ℝ, flipSignal m = flipSignal ![m 0, m 1, m 2] := fun _ => rfl
  have hle : ∀ b (f : Fin 2 → ℝ), dropped b f 1 ≤ f 1 := by
    intro b f
    unfold dropped
    split_ifs <;> linarith
  have hne : ∀ b (f : Fin 2 → ℝ), dropped b f 1 = f 1 → b = false := by
    intro b f h
    cases b with
    | false => rfl
    | true => simp [dropped] at h
  rw [hx (droppedMu g r 1), hx (flipMu 1)] at h1
  obtain ⟨k0, k1, k2⟩ := flip_signal_lt (hle _ _) (hle _ _) (hle _ _) (by rw [m0]; norm_num) h1
  exact ⟨hne _ _ k0, hne _ _ k1, hne _ _ k2⟩

/-- Without noise. -/
theorem flip_plain (r : ℝ) (lab : Labelling) (s : ObjState Flips) (q : Option ScanState) : ∃ u, distortScanPot (-2, -1) (-2, -1)
    (AnySim.scan { flipScanSim r with pot := none } lab flipSensor).potD (.d1 2 flipMu) (q, s) = (.ok (.d1 2 flipMu), (q, u)) := ⟨s, rfl⟩

/-- The data with noise are those without noise only if all three decisions are negative. -/
theorem flip_gives (r : ℝ) (lab : Labelling) (s : SimState Flips) : ∃ out,
    (∀ g, g ∈ Gives (AnySim.measureScan { flipScanSim r with pot := none } lab flipRequest) s out) ∧
    (∀ g, g ∈ Succeeds ((flipScanSim r).measureScan lab flipRequest) s) ∧
    ∀ g, g ∈ Gives ((flipScanSim r).measureScan lab flipRequest) s out → g 0 0 r = false ∧ g 0 1 r = false ∧ g 0 2 r = false := by
  obtain ⟨cond, peaks, h⟩ := flip_run lab
  refine ⟨_, fun g => h { flipScanSim r with pot := none } rfl rfl rfl rfl _ (withGenerators s g) (flip_plain r lab _), fun g => ?_, fun g hg => ?_⟩
  · obtain ⟨s', h'⟩ := h (flipScanSim r) rfl rfl rfl rfl _ (withGenerators s g) (flip_pot r lab _)
    exact ⟨_, _, h'⟩
  · obtain ⟨s', h'⟩ := h (flipScanSim r) rfl rfl rfl rfl _ (withGenerators s g) (flip_pot r lab _)
    obtain ⟨s'', hg⟩ := hg
    rw [h'] at hg
    exact flip_equal (congrArg Prod.fst (Except.ok.inj (Prod.mk.inj hg).1))

/-! ### A measurement -/

theorem flip_valid (k : Fin 3) : ((flipRng k).drawing).Valid where
  geometric_error := by
    intro p n s h
    show drawing ((flipRng k).geometric p n) s = _
    unfold drawing flipRng
    simp only [if_neg h]
  geometric_ok := by
    intro p n s h0 h1
    refine ⟨fun _ => 1, s, ?_, fun _ _ => le_rfl⟩
    show drawing ((flipRng k).geometric p n) s = _
    unfold drawing flipRng
    simp only [if_pos (And.intro h0 h1)]

theorem flip_untouched {k l : Fin 3} (h : k ≠ l) : RngUntouched (fun g : Flips => g k) (flipRng l) where
  binomial := fun _ g => Function.update_of_ne h _ g
  geometric := by
    intro p n g
    unfold flipRng
    dsimp only
    split_ifs <;> rfl
  poisson := fun _ _ => rfl
  normal := fun _ _ _ => rfl

/-- Dot jumps. -/
noncomputable def flipJumps (r : ℝ) : OccObject Flips := .jumps 0 (pure 0) (pure 0) .g1 r (flipRng 0) false 0

/-- Telegraph noise. -/
noncomputable def flipNoise (i : ℕ) (k : Fin 3) (r : ℝ) : SigObject Flips := .rtn i (pure 0) (pure 1) (pure 1) r (flipRng k)

/-- The default configuration with dot jumps and telegraph noise of the potential and of the response. -/
noncomputable def flipSim (r : ℝ) : AnySim Flips where
  lim := ⟨none, none, none, none⟩
  ideal := some defaultIdeal
  sensor := .generic defaultSensor
  occ := some [flipJumps r]
  pot := some [flipNoise 0 1 r]
  resp := some [flipNoise 1 2 r]

theorem flipNoise_call (i : ℕ) (k : Fin 3) (r : ℝ) {x : Scan ℝ} {g1 g2 : ℝ × ℝ} (hf : rtnFactor g1 g2 x ≠ none) (s : ObjState Flips) : ∃ s',
    (flipNoise i k r).dist x g1 g2 s = (.ok x, s') := by
  cases hb : s.gens k 0 r with
  | false => exact ⟨_, rtn_off (t := Function.update s.gens k fun n => s.gens k (n + 1)) (by rw [← hb]; rfl) _ _ _⟩
  | true =>
    obtain ⟨t, ht⟩ : ∃ t, t = Function.update s.gens k fun n => s.gens k (n + 1) := ⟨_, rfl⟩
    refine ⟨{ s with active := Function.update s.active i (some true), gens := t }, ?_⟩
    show (activeSlot Flips i).run (Rtn.noiseFunction ⟨drawing (pure 0), drawing (pure 1), drawing (pure 1), r, (flipRng k).drawing⟩ x g1 g2) s = _
    refine run_of (activeSlot Flips i) (p := (some true, { s with gens := t })) ?_ rfl
    unfold Rtn.noiseFunction
    have hb : drawing ((flipRng k).binomial r) s = (.ok true, { s with gens := t }) := by
      rw [ht, ← hb]
      rfl
    have h1 : onRest ((flipRng k).drawing.binomial r) ((activeSlot Flips i).get s, s) = (.ok true, ((activeSlot Flips i).get s, { s with gens := t })) :=
      onRest_eq (D := Option Bool) hb ((activeSlot Flips i).get s)
    rw [M.step h1, M.step (setOwn_run _ _ _), if_neg (by simp)]
    have h2 : ∀ (v : ℝ) (x : Option Bool × ObjState Flips), onRest (drawing (pure v : M Flips ℝ)) x = (.ok v, x) := fun _ _ => rfl
    rw [M.step (h2 _ _), M.step (h2 _ _), M.step (h2 _ _)]
    obtain ⟨v, hv⟩ := Option.ne_none_iff_exists'.1 hf
    rw [hv, Option.map_some, zero_mul]
    refine onRest_eq (D := Option Bool) ?_ (some true)
    unfold telegraphNoise
    dsimp only
    rw [if_pos rfl]
    rfl

theorem flipJumps_call (lab : Labelling) (r : ℝ) (o : Fin 10 → ℝ × ℝ) (l : Fin 10 → ℕ) (s : ObjState Flips) : ∃ o' l' s',
    (flipJumps r).dist (.d1 10 o, .d1 10 l) (-0.2, -0.1) (-0.2, -0.1) (idealGen defaultIdeal lab) false s = (.ok (.d1 10 o', .d1 10 l'), s') := by
  obtain ⟨d, hd⟩ : ∃ d : DotJumps (ObjState Flips), d = ⟨drawing (pure 0), drawing (pure 0), .g1, r, (flipRng 0).drawing, false, 0⟩ := ⟨_, rfl⟩
  obtain ⟨t, ht⟩ : ∃ t, t = Function.update s.gens 0 fun n => s.gens 0 (n + 1) := ⟨_, rfl⟩
  obtain ⟨b, hb⟩ : ∃ b, b = s.gens 0 0 r := ⟨_, rfl⟩
  have e' : d.rng.binomial d.ratio s = (.ok b, { s with gens := t }) := by
    rw [hd, ht, hb]
    rfl
  show ∃ o' l' s', OccDist.on (jumpsSlot Flips 0) (DotJumps.noiseFunction ⟨drawing (pure 0), drawing (pure 0), .g1, r, (flipRng 0).drawing, false, 0⟩)
    (.d1 10 o, .d1 10 l) (-0.2, -0.1) (-0.2, -0.1) (idealGen defaultIdeal lab) false s = _
  rw [← hd]
  unfold OccDist.on
  cases b with
  | false =>
    refine ⟨o, l, _, run_of (jumpsSlot Flips 0) (p := (⟨some false, ((jumpsSlot Flips 0).get s).prev⟩, { s with gens := t })) ?_ rfl⟩
    unfold DotJumps.noiseFunction
    rw [M.bind_eq (getOwn_run _)]
    simp only [Bool.false_eq_true, if_false]
    rw [M.bind_eq (onRest_eq e' _), M.bind_eq (setOwn_run _ _ _)]
    rfl
  | true =>
    have hk : jumpFactor d.axis (-0.2, -0.1) (-0.2, -0.1) (.d1 10 o) = some 100 := by
      rw [hd]
      show pxPerVolt 10 (-0.2, -0.1) = _
      unfold pxPerVolt
      norm_num
    obtain ⟨noise, sg, hn⟩ := C33_jumps_total d.rng (by rw [hd]; exact flip_valid 0) 10 1 (0 * 100) (by rw [hd]; exact fun s => ⟨0, s, rfl⟩) le_rfl { s with gens := t }
    have hl := (C33_jumps d.rng (by rw [hd]; exact flip_valid 0) 10 1 (0 * 100) one_ne_zero _ _ noise hn).1
    have en : d.noise (-0.2, -0.1) (-0.2, -0.1) (.d1 10 o) 10 false ({ (jumpsSlot Flips 0).get s with activated := some true }, { s with gens := t }) =
        (.ok (noise, some 1), (⟨some true, some noise⟩, sg)) := by
      unfold DotJumps.noise
      simp only [Bool.false_eq_true, if_false]
      have h2 : ∀ (x : DotState × ObjState Flips), onRest (drawing (pure 0 : M Flips ℝ)) x = (.ok 0, x) := fun _ => rfl
      rw [show d.scale = drawing (pure 0) by rw [hd], show d.lam = drawing (pure 0) by rw [hd], M.step (h2 _), M.step (h2 _), hk]
      rw [show pixelParams (some 100) 0 0 = some (1, 0 * 100) by unfold pixelParams; norm_num]
      dsimp only
      rw [M.step (onRest_eq hn _), M.step (setOwn_run _ _ _)]
      rfl
    have hline : LineBorderOk Line d.axis (sortLim (-0.2, -0.1)) (sortLim (-0.2, -0.1)) 10 := by
      exact LineBelow.border (LineBelow.sort ⟨by norm_num, by norm_num, by norm_num, Or.inl (by norm_num)⟩) (sortLim_le' _) _
    obtain ⟨o', l', p', er, hp'⟩ := run1d_serves (inner_serves (jumpsSlot Flips 0) (ideal_serves lab ((jumpsSlot Flips 0).put ⟨some true, some noise⟩ sg))) d
      hline (by rw [hd]; exact nofun) o l (p := (noise, some 1)) (by simp only; omega) (by simp only; omega) (s := (⟨some true, some noise⟩, sg)) rfl
    refine ⟨o', l', _, run_of (jumpsSlot Flips 0) ?_ hp'⟩
    unfold DotJumps.noiseFunction
    rw [M.bind_eq (getOwn_run _)]
    simp only [Bool.false_eq_true, if_false]
    rw [M.bind_eq (onRest_eq e' _), M.bind_eq (setOwn_run _ _ _)]
    simp only [Bool.true_eq_false, if_false]
    unfold DotJumps.active
    simp only
    rw [M.bind_eq ((ofPy_run _ _).trans (by rw [as1d_self])), M.bind_eq en]
    exact er

theorem flip_measure (r : ℝ) (lab : Labelling) (s : SimState Flips) : ∃ out s', (flipSim r).measure lab countingRequest s = (.ok out, s') := by
  obtain ⟨p, o⟩ := s
  have hl : Line (-0.2, -0.1) (-0.2, -0.1) 10 := ⟨by norm_num, by norm_num, by norm_num, Or.inl (by norm_num)⟩
  obtain ⟨c0, l0, s', hg, hs'⟩ := (ideal_serves lab o).one (-0.2, -0.1) (-0.2, -0.1) 10 o rfl hl
  subst s'
  obtain ⟨c, l, o1, hj⟩ := flipJumps_call lab r c0 l0 o
  obtain ⟨f, hf⟩ := generic_pot1d defaultSensor (g1 := (-0.2, -0.1)) (g2 := (-0.2, -0.1)) (n := 10) (by norm_num) c
  obtain ⟨o2, h2⟩ := flipNoise_call 0 1 r (x := .d1 10 f) (g1 := (-0.2, -0.1)) (g2 := (-0.2, -0.1)) (by unfold rtnFactor; norm_num; exact nofun) o1
  obtain ⟨q, hq⟩ : ∃ q, defaultSensor.response (.d1 10 f) = .d1 10 q := ⟨_, rfl⟩
  obtain ⟨o3, h3⟩ := flipNoise_call 1 2 r (x := .d1 10 q) (g1 := (-0.2, -0.1)) (g2 := (-0.2, -0.1)) (by unfold rtnFactor; norm_num; exact nofun) o2
  refine ⟨(.d1 10 q, .d1 10 c, .d1 10 l), (p, o3), ?_⟩
  have hc : measureCheck ((flipSim r).generic lab defaultSensor).lim ((flipSim r).generic lab defaultSensor).gen.isSome countingRequest =
      .ok ((-0.2, -0.1), (-0.2, -0.1)) := by
    simp [measureCheck, flipSim, AnySim.generic, countingRequest, rangeOutside, sensorOutside, valueOutside, resCheck]
  unfold AnySim.measure
  show onRest (measure ((flipSim r).generic lab defaultSensor) countingRequest) (p, o) = _
  refine onRest_eq ?_ p
  unfold measure
  rw [hc]
  show measureRun ((flipSim r).generic lab defaultSensor) (idealGen defaultIdeal lab) countingRequest (-0.2, -0.1) (-0.2, -0.1) o = _
  unfold measureRun
  rw [M.step (show idealGen defaultIdeal lab (-0.2, -0.1) (-0.2, -0.1) countingRequest.res o = _ from hg)]
  have ha : applyOcc (-0.2, -0.1) (-0.2, -0.1) (((flipSim r).generic lab defaultSensor).occD.getD []) (idealGen defaultIdeal lab)
      (.d1 10 c0, .d1 10 l0) o = (.ok ((.d1 10 c, .d1 10 l), withNoise (idealGen defaultIdeal lab) (flipJumps r).dist), o1) := by
    show applyOcc _ _ [(flipJumps r).dist] _ _ _ = _
    unfold applyOcc
    rw [M.step hj]
    rfl
  rw [M.step ha]
  have hp : ((flipSim r).generic lab defaultSensor).sensor.potential (.d1 10 c) (-0.2, -0.1) (-0.2, -0.1)
      (if ((flipSim r).generic lab defaultSensor).sensor.scan then some (countingRequest.s1, countingRequest.s2) else none) o1 =
      (.ok (.single (.d1 10 f)), o1) := by
    show (match defaultSensor.potential (.d1 10 c) (-0.2, -0.1) (-0.2, -0.1) with
      | .ok p => (pure (Pot.single p) : M (ObjState Flips) Pot) | .error e => M.raise e) _ = _
    rw [hf]
    rfl
  rw [M.step hp]
  have hd : distortPotential (-0.2, -0.1) (-0.2, -0.1) (.d1 10 c) ((flipSim r).generic lab defaultSensor).potD (.single (.d1 10 f)) o1 =
      (.ok (.single (.d1 10 f)), o2) := by
    show (do let q ← applySig (-0.2, -0.1) (-0.2, -0.1) [(flipNoise 0 1 r).dist] (.d1 10 f); pure (Pot.single q) : M (ObjState Flips) Pot) o1 = _
    unfold applySig
    rw [bind_assoc, M.step h2]
    rfl
  rw [M.step hd]
  have hr : ((flipSim r).generic lab defaultSensor).sensor.response (.single (.d1 10 f)) o2 = (.ok (.d1 10 q), o2) := by
    rw [← hq]
    rfl
  rw [M.step hr]
  have hz : distortResponse (-0.2, -0.1) (-0.2, -0.1) ((flipSim r).generic lab defaultSensor).respD (.d1 10 q) o2 = (.ok (.d1 10 q), o3) := by
    show applySig (-0.2, -0.1) (-0.2, -0.1) [(flipNoise 1 2 r).dist] (.d1 10 q) o2 = _
    unfold applySig
    rw [M.step h3]
    rfl
  rw [M.step hz]
  rfl

/-- The sensor for sensor scans with telegraph noise on the potentials and the response. -/
noncomputable def flipBothSim (r : ℝ) : AnySim Flips where
  lim := ⟨none, none, none, none⟩
  ideal := none
  sensor := .scan flipSensor
  occ := some []
  pot := some [flipNoise 0 1 r]
  resp := some [flipNoise 1 2 r]

theorem flip_both (r : ℝ) (lab : Labelling) (s : SimState Flips) : ∃ out s', (flipBothSim r).measureScan lab flipRequest s = (.ok out, s') := by
  have hk : ∀ (i : ℕ) (k : Fin 3) (y : Scan ℝ) (t : ObjState Flips), SameShape (Scan.d1 2 flipMu) y →
      ∃ z t', (flipNoise i k r).dist y (-2, -1) (-2, -1) t = (.ok z, t') ∧ SameShape (Scan.d1 2 flipMu) z := by
    intro i k y t hy
    cases hy with
    | d1 _ _ g =>
      obtain ⟨t', h⟩ := flipNoise_call i k r (x := .d1 2 g) (g1 := (-2, -1)) (g2 := (-2, -1)) (by unfold rtnFactor; norm_num; exact nofun) t
      exact ⟨_, _, h, .d1 _ _ _⟩
  obtain ⟨scan, cond, peaks, s', h, -⟩ := beside_scan (sim := (flipBothSim r).scan lab flipSensor) (occD := []) (pot := [(flipNoise 0 1 r).dist])
    (resp := [(flipNoise 1 2 r).dist]) ⟨rfl, rfl, rfl, rfl⟩ (ps := [⟨.gaussian, 0, 1, 1, 0⟩]) rfl
    (rq := flipRequest) rfl rfl (s1 := (-2, -1)) (s2 := (-2, -1)) (p := s.1) (st := s.2)
    (occ := .d1 2 fun _ => (0, 0)) rfl (mu := .d1 2 flipMu) (o := (0, 0)) flip_potential rfl (.d1 _ _ _) (by
      intro d hd y t hy
      rw [List.mem_singleton] at hd
      subst hd
      exact hk _ _ _ _ hy) (by
      intro d hd y t hy
      rw [List.mem_singleton] at hd
      subst hd
      exact hk _ _ _ _ hy)
  refine ⟨(scan, cond, peaks), s', ?_⟩
  show measureSensorScan ((flipBothSim r).scan lab flipSensor) _ _ = _
  unfold measureSensorScan
  rw [show scanCheck ((flipBothSim r).scan lab flipSensor).lim true flipRequest = .ok ((-2, -1), (-2, -1)) by
    simp [scanCheck, flipRequest, flipBothSim, AnySim.scan, rangeOutside, fixedIn2d, fixedOutside, scanResCheck, VoltArg.isNone]]
  exact h

theorem flip_distinct (r : ℝ) : Distinct (flipSim r) := by
  simp [Distinct, flipSim, Distinct.occName, Distinct.sigName, flipJumps, flipNoise]

theorem flip_before {k : Fin 3} (hk : k ≠ 0) (r : ℝ) : ∀ o ∈ (flipSim r).occ.getD [], OccUntouched (fun g => g k) o := by
  intro o ho
  rw [List.mem_singleton.1 ho]
  exact ⟨fun _ => rfl, fun _ => rfl, flip_untouched hk⟩

theorem noise_before (i : ℕ) {k : Fin 3} (hk : k ≠ 1) (r : ℝ) : ∀ o ∈ (some [flipNoise i 1 r]).getD [], SigUntouched (fun g => g k) o := by
  intro o ho
  rw [List.mem_singleton.1 ho]
  exact ⟨fun _ => rfl, fun _ => rfl, fun _ => rfl, flip_untouched hk⟩

/-- The data without noise are returned at least if all three decisions are negative. -/
theorem scan_lower [MeasurableSpace τ] {P : Measure τ} [IsProbabilityMeasure P] {sim : AnySim τ} {d : ScanSensor} (hs : sim.sensor = .scan d) {i : ℕ}
    {scale std height : M τ ℝ} {r : ℝ} {rng : Rng τ} (hp : sim.pot = some [.rtn i scale std height r rng]) (hr : sim.resp = none)
    (hc : CoinDraws P rng r) {lab : Labelling} {rq : ScanRequest} {s : SimState τ} {out : Scan ℝ × Scan ℕ × Scan ℕ}
    (hout : ∀ g, g ∈ Gives (AnySim.measureScan { sim with pot := none } lab rq) s out) :
    (1 - r) ^ 3 ≤ P.real (Gives (sim.measureScan lab rq) s out) := by
  obtain ⟨X, hX, hm, hi, hP⟩ := hc
  rw [← three_false hm hi hP]
  refine measureReal_mono fun g hg => ?_
  obtain ⟨t1, t2, t3, h1, h2, h3⟩ := coin_next hX hg
  obtain ⟨s', h⟩ := hout g
  exact scan_inactive hs hp hr h h1 h2 h3

theorem flip_actual {r : ℝ} (h0 : 0 ≤ r) (h1 : r ≤ 1) (lab : Labelling) (s : SimState Flips) : ∃ out,
    (∀ g, g ∈ Gives (AnySim.measureScan { flipScanSim r with pot := none } lab flipRequest) s out) ∧
    (∀ g, g ∈ Succeeds ((flipScanSim r).measureScan lab flipRequest) s) ∧
    flips.real (Gives ((flipScanSim r).measureScan lab flipRequest) s out) = (1 - r) ^ 3 := by
  obtain ⟨out, ha, hb, hc⟩ := flip_gives r lab s
  refine ⟨out, ha, hb, le_antisymm ?_ (scan_lower (d := flipSensor) rfl rfl rfl (flips_draws h0 h1 0) ha)⟩
  obtain ⟨X, hX, hm, hi, hP⟩ := flips_draws h0 h1 0
  rw [← three_false hm hi hP]
  refine measureReal_mono fun g hg => ?_
  have e : ∀ n, X n g = g 0 n r := by
    intro n
    have := hX n g
    rw [flip_next] at this
    have : Function.update g 0 (fun m => g 0 (m + n)) 0 0 r = X n g := Except.ok.inj this
    rw [← this, Function.update_self, zero_add]
  show X 0 g = false ∧ X 1 g = false ∧ X 2 g = false
  rw [e, e, e]
  exact hc g hg

end SimCATS
