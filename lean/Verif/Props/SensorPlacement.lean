import Verif.Props.SensorSampler
import Verif.Lemmas.SensorRoom

/-!
Property theorems: the search for the peaks of sampled sensors (C64).
-/

namespace SimCATS

open Spec MeasureTheory

variable {τ : Type}

/-! ### C64 -/

/-- C64: any two peaks of a sampled generic sensor are further apart than half of an equal share of the potential range. -/
theorem C64_separated (rng : CfgRng τ) (hv : rng.Valid) (q : ℝ) (h0 : 0 < q) (h1 : q ≤ 1) (comp steepest : Bool) (s s' : τ)
    (d : SensorGeneric) (h : sampleSensorGeneric rng q comp steepest s (.ok d, s')) :
    ∃ ps, d.peaks = some ps ∧ ∀ (i j : ℕ) (hi : i < ps.length) (hj : j < ps.length), i ≠ j →
      (potHigh d.alphaGate d.alphaDot - potLow d.alphaGate d.alphaDot) / (2 * ps.length) < |ps[i].mu0 - ps[j].mu0| := by
  obtain ⟨d', s'', ps, e, -, hp, hg⟩ := C46_sensor_generic rng hv q h0 h1 comp steepest s _ h
  cases e
  refine ⟨ps, hp, fun i j hi hj hij => ?_⟩
  have key := List.pairwise_iff_getElem.1 hg.apart
  rcases lt_or_gt_of_ne hij with h | h
  · exact key i j hi hj h
  · rw [abs_sub_comm]
    exact key j i hj hi h

/-- C64: whenever a peak has to be placed, the positions that end the search at any time fill at least one `n`-th of the range, where
`n` is the number of peaks; a uniformly distributed position is accepted with at least this probability.  (The first 1000 draws may
reject some of these positions.) -/
theorem C64_room (n : ℕ) (lo hi : ℝ) (ps : List Peak) (hne : ps ≠ []) (hl : ps.length < n) (counter : ℕ) (hc : 1000 ≤ counter) :
    ENNReal.ofReal ((hi - lo) / n) ≤ volume {mu : ℝ | mu ∈ Set.Icc lo hi ∧ placed n lo hi ps (mu, counter)} := by
  refine (room_volume ps hl).trans (measure_mono ?_)
  rintro mu ⟨hmu, hfar⟩
  refine ⟨Set.Ioo_subset_Icc_self hmu, ?_⟩
  rintro (⟨-, hx⟩ | hx)
  · simp only at hx; omega
  · refine absurd hx ((minDist_gt hne).2 fun p hp => ?_)
    have := hfar p hp
    unfold Apart at this
    rw [mul_comm (n : ℝ), abs_sub_comm]
    exact this

/-- C64: sampling a generic sensor ends, unless the lever arms let the sensor have the same potential at both limits. -/
theorem C64_ends (rng : CfgRng τ) (hv : rng.Valid) (hf : FairRng rng) (q : ℝ) (h0 : 0 < q) (h1 : q ≤ 1) (comp steepest : Bool) (s : τ)
    (hr : ∀ gate dot s', sampleAlphas rng q comp s (.ok (gate, dot), s') → potEmpty gate ≠ potFull gate dot) :
    ∃ r, sampleSensorGeneric rng q comp steepest s r := by
  obtain ⟨r, hra⟩ := sampleAlphas_ends rng q comp s
  obtain ⟨⟨gate, dot⟩, s1, rfl, -⟩ := sampleAlphas_spec hv h0 h1 comp s r hra
  have hlt : potLow gate dot < potHigh gate dot := min_lt_max.2 (hr gate dot s1 hra)
  have rest : Proc.Ends (do
      let sensor : SensorGeneric := ⟨none, dot, gate, 0⟩
      let pot ← Proc.ofPy (sensor.potential (.d1 2 fun i => if i = 0 then (0, 0) else (5, 5)) (-0.2, -0.06) (-0.2, -0.06))
      let lim ← match pot with
        | .d1 2 f => pure (min (f 0) (f 1), max (f 0) (f 1))
        | _ => Proc.ofPy (.error .valueError)
      let n ← Proc.call (rng.choice 3 6)
      let ps ← peakLoop (sampleGenericPeak rng q n lim.1 lim.2) n []
      if steepest then
        let i ← (fun s r => ∃ i, IsArgmax (gradient 999998 fun j => sumPeaks ps (steepGrid lim.1 lim.2 j)) i ∧ r = (.ok i, s) :
          Proc τ (Fin 1000000))
        pure (⟨some ps, dot, gate, steepGrid lim.1 lim.2 i⟩ : SensorGeneric)
      else pure ⟨some ps, dot, gate, 0⟩ : Proc τ SensorGeneric) := by
    refine Proc.Ends.bind (Q := fun p => p = .d1 2 fun i => if i = 0 then potEmpty gate else potFull gate dot) (ends_ofPy _)
      (ensures_ofPy (testPotential gate dot) rfl) ?_
    rintro _ rfl
    refine Proc.Ends.bind (Q := fun l => l = (potLow gate dot, potHigh gate dot)) (Proc.ends_pure _) (Proc.ensures_pure rfl) ?_
    rintro _ rfl
    refine (Proc.ends_call _).bind (ensures_choice hv (by norm_num)) fun n hn => ?_
    refine Proc.Ends.bind' ?_ fun ps => ?_
    · exact peakLoop_ends (Inv := GenericInv n (potLow gate dot) (potHigh gate dot)) (n := n)
        (fun ps hi _ => sampleGenericPeak_spec hv h0 n hlt.le hi) (fun ps hi hl => sampleGenericPeak_ends hv hf h0 hlt hi hl)
        n [] (genericInv_nil _ _ _) (by simp)
    · cases steepest with
      | false => exact Proc.ends_pure _
      | true =>
        refine Proc.Ends.bind' (fun s => ?_) fun i => Proc.ends_pure _
        obtain ⟨i, hi⟩ := argmax_exists (n := 999999)
          (gradient 999998 fun j => sumPeaks ps (steepGrid (potLow gate dot) (potHigh gate dot) j))
        exact ⟨_, i, hi, rfl⟩
  obtain ⟨r, hr⟩ := rest s1
  exact ⟨r, Or.inl ⟨(gate, dot), s1, hra, hr⟩⟩

/-- C64: sampling a compensated generic sensor always ends. -/
theorem C64_compensated_ends (rng : CfgRng τ) (hv : rng.Valid) (hf : FairRng rng) (q : ℝ) (h0 : 0 < q) (h1 : q ≤ 1) (steepest : Bool)
    (s : τ) : ∃ r, sampleSensorGeneric rng q true steepest s r := by
  refine C64_ends rng hv hf q h0 h1 true steepest s fun gate dot s' h => ?_
  obtain ⟨_, _, e, ha⟩ := sampleAlphas_spec hv h0 h1 true s _ h
  cases e
  have g1 := ha.gate1
  simp only [if_true] at g1
  have d1 := ha.dot1; have d2 := ha.dot2; have g2 := ha.gate2
  have st1 := ha.step1; have st2 := ha.step2
  simp only at g1 g2 d1 d2 st1 st2
  have hd1 : dot.1 ≤ -0.0000961 := by norm_num at d1 ⊢; linarith
  have hd2 : dot.2 ≤ -0.0000630 := by norm_num at d2 ⊢; linarith
  unfold potEmpty potFull
  norm_num at g1 hd1 hd2 g2 ⊢
  intro he
  linarith

/-- C64: sampling a sensor scan sensor always ends. -/
theorem C64_scan_ends (rng : CfgRng τ) (hf : FairRng rng) (q : ℝ) (comp : Bool) (s : τ) :
    ∃ r, sampleScanSensor rng q comp s r := scanSensor_ends hf.normal q comp s

/-- The hypotheses of the theorems about sampled sensors can be met: with a generator that returns all rational numbers one after the
other, both samplers return a sensor. -/
theorem fair_returns (steepest : Bool) : ∃ d s', sampleSensorGeneric fairRng 0.5 true steepest 0 (.ok d, s') := by
  obtain ⟨r, hr⟩ := C64_compensated_ends fairRng fairRng_valid fairRng_fair 0.5 (by norm_num) (by norm_num) steepest 0
  obtain ⟨d, s', ps, rfl, -⟩ := C46_sensor_generic fairRng fairRng_valid 0.5 (by norm_num) (by norm_num) true steepest 0 r hr
  exact ⟨d, s', hr⟩

theorem fair_returns_scan (comp : Bool) : ∃ d s', sampleScanSensor fairRng 0.5 comp 0 (.ok d, s') := by
  obtain ⟨r, hr⟩ := C64_scan_ends fairRng fairRng_fair 0.5 comp 0
  obtain ⟨d, s', base, rfl, -⟩ := C46_sensor_scan fairRng fairRng_valid fairRng_nonzero 0.5 (by norm_num) (by norm_num) comp 0 r hr
  exact ⟨d, s', hr⟩

example : ∃ (rng : CfgRng ℕ) (d : ScanSensor) (s' : ℕ), rng.Valid ∧ rng.NormalNonzero ∧ FairRng rng ∧
    sampleScanSensor rng 0.5 true 0 (.ok d, s') :=
  (fair_returns_scan true).elim fun d h => h.elim fun s' h => ⟨fairRng, d, s', fairRng_valid, fairRng_nonzero, fairRng_fair, h⟩

/-- Sampling a barrier function returns, so that the theorems about its pinch-off point apply. -/
example : ∃ b s', sampleBarrier fairRng (-0.6) 0.25 0.5 0.001 0.999 0 (.ok b, s') ∧ PinchesAt (0.25 * 0.5) (-0.6) b.barrier := by
  have he : (sampleBarrier fairRng (-0.6) 0.25 0.5 0.001 0.999).Ends := by
    unfold sampleBarrier
    exact Proc.Ends.bind' (sampleUniform_ends _ _) fun _ => Proc.Ends.bind' (sampleUniform_ends _ _) fun _ =>
      Proc.Ends.bind' (sampleUniform_ends _ _) fun _ => ends_ofPy _
  obtain ⟨r, hr⟩ := he 0
  obtain ⟨b, s', rfl, h⟩ := C48_pinch_off fairRng fairRng_valid (-0.6) 0.25 0.5 (by norm_num) (by norm_num) 0 r hr
  exact ⟨b, s', hr, h⟩

/-- The lever arm for which the potentials at both limits agree. -/
noncomputable def cornerArm : ℝ := 0.006604 / 0.14 - 0.02805

/-- A generator that returns the lower limit, except that it prefers the number `cornerArm`. -/
noncomputable def cornerRng : CfgRng Unit where
  uniform a b := fun s => open Classical in
    if a ≤ b then (.ok (if a ≤ cornerArm ∧ cornerArm ≤ b then cornerArm else a), s) else (.error .valueError, s)
  normal m _ := fun s => (.ok m, s)
  lognormal m _ := fun s => (.ok (Real.exp m), s)
  exponential c := fun s => (.ok |c|, s)
  choice a _ := fun s => (.ok a, s)

theorem cornerRng_valid : cornerRng.Valid where
  draws := by
    refine ⟨?_, ?_, ?_⟩
    · intro a b s v s' hab h
      simp only [cornerRng, if_pos hab] at h
      cases h
      split_ifs with h
      · exact h
      · exact ⟨le_rfl, hab⟩
    · intro m d s v s' h
      simp only [cornerRng] at h
      cases h
      exact Real.exp_pos _
    · intro c s v s' h
      simp only [cornerRng] at h
      cases h
      exact abs_nonneg _
  uniform_ok a b s h := ⟨_, s, if_pos h⟩
  uniform_error a b s h := ⟨s, if_neg (not_le.2 h)⟩
  normal_ok m _ s _ := ⟨m, s, rfl⟩
  exponential_ok c s _ := ⟨|c|, s, rfl⟩
  choice_ok a _ s h := ⟨a, s, rfl, le_rfl, h⟩

theorem corner_low {a b : ℝ} (h : a ≤ b) (hc : ¬ (a ≤ cornerArm ∧ cornerArm ≤ b)) :
    (Proc.call (cornerRng.uniform a b)).Ensures fun v => v = a := by
  intro s r hx
  refine ⟨_, s, ?_, rfl⟩
  rw [← hx]
  show (if a ≤ b then _ else _) = _
  rw [if_pos h, if_neg hc]

theorem corner_arm {a b : ℝ} (hc : a ≤ cornerArm ∧ cornerArm ≤ b) :
    (Proc.call (cornerRng.uniform a b)).Ensures fun v => v = cornerArm := by
  intro s r hx
  refine ⟨_, s, ?_, rfl⟩
  rw [← hx]
  show (if a ≤ b then _ else _) = _
  rw [if_pos (hc.1.trans hc.2), if_pos hc]

/-- In an empty range no second peak can be placed. -/
theorem no_second {p : Peak} {n : ℕ} {lo : ℝ} (hp : p.mu0 = lo) (hlo : lo < cornerArm) :
    (samplePosition cornerRng n lo lo [p]).Ensures fun _ => False := by
  have hlow : (Proc.call (cornerRng.uniform lo lo)).Ensures fun v => v = lo := corner_low le_rfl fun h => absurd h.2 (not_le.2 hlo)
  unfold samplePosition
  refine hlow.bind fun mu hmu => ?_
  simp only
  refine (Proc.ensures_while (Q := fun st : ℝ × ℕ => st.1 = lo) ?_ hmu).bind fun st hst => ?_
  · intro st _ _
    exact hlow.bind fun mu hmu => Proc.ensures_pure hmu
  · refine absurd ?_ hst.2
    refine Or.inr ?_
    rw [hst.1, sub_self, zero_div]
    by_contra hx
    have := (minDist_gt (by simp)).1 hx p (by simp)
    rw [hp, sub_self, abs_zero] at this
    exact lt_irrefl _ this

/-- The exception in `C64_ends` is needed: there are lever arms in the documented ranges for which the sampler of an uncompensated
sensor searches forever. -/
theorem C64_degenerate (steepest : Bool) : ∃ rng : CfgRng Unit, rng.Valid ∧ ∀ s r, ¬ sampleSensorGeneric rng 1 false steepest s r := by
  refine ⟨cornerRng, cornerRng_valid, fun s r h => ?_⟩
  suffices hs : (sampleSensorGeneric cornerRng 1 false steepest).Ensures fun _ => False by
    obtain ⟨_, _, _, hf⟩ := hs s r h
    exact hf
  have hc1 : 0.01912142 < cornerArm := by unfold cornerArm; norm_num
  have hc2 : cornerArm < 0.01912143 := by unfold cornerArm; norm_num
  norm_num at hc1 hc2
  unfold sampleSensorGeneric
  refine Proc.Ensures.bind (Q := fun a => a = ((0.02805, cornerArm), (-0.0007994, -0.0005214))) ?_ ?_
  · unfold sampleAlphas
    simp only [Bool.false_eq_true, if_false]
    refine (corner_low (by norm_num) (by norm_num; intro; linarith)).bind ?_
    rintro _ rfl
    refine (corner_arm (by norm_num; constructor <;> linarith)).bind ?_
    rintro _ rfl
    refine (corner_low (by norm_num) (by norm_num; intro; linarith)).bind ?_
    rintro _ rfl
    have e : (0.5 * -0.0007994 : ℝ) = -0.0003997 := by norm_num
    have hh : min (min (0.5 * -0.0007994) (2 * cornerArm * (-0.03) / 100)) (-0.0005214 + 1 * (-0.0000630 - -0.0005214)) = -0.0003997 := by
      rw [e, min_eq_left (a := (-0.0003997 : ℝ)) (by norm_num; linarith), min_eq_left (by norm_num)]
    rw [hh, if_neg (by norm_num), max_eq_right (by norm_num)]
    refine (corner_low (by norm_num) (by norm_num; intro; linarith)).bind ?_
    rintro _ rfl
    exact Proc.ensures_pure rfl
  rintro _ rfl
  refine Proc.Ensures.bind (Q := fun p => p = .d1 2 fun i => if i = 0 then potEmpty (0.02805, cornerArm) else
      potFull (0.02805, cornerArm) (-0.0007994, -0.0005214))
    (ensures_ofPy (testPotential _ _) rfl) ?_
  rintro _ rfl
  have he : potFull (0.02805, cornerArm) (-0.0007994, -0.0005214) = potEmpty (0.02805, cornerArm) := by
    unfold potFull potEmpty cornerArm
    norm_num
  rw [he]
  have hlo : potEmpty (0.02805, cornerArm) < cornerArm := by unfold potEmpty; norm_num; linarith
  generalize potEmpty (0.02805, cornerArm) = lo at hlo
  refine Proc.Ensures.bind (Q := fun l => l = (lo, lo)) (Proc.ensures_pure (by simp)) ?_
  rintro _ rfl
  refine Proc.Ensures.bind (Q := fun n => n = 3) (fun s r hx => ⟨3, s, hx.symm, rfl⟩) ?_
  rintro _ rfl
  refine Proc.Ensures.bind (Q := fun _ => False) ?_ fun _ h => h.elim
  have hp : ∀ ps : List Peak, (∀ p ∈ ps, p.mu0 = lo) → ps.length ≤ 1 → (sampleGenericPeak cornerRng 1 3 lo lo ps).Ensures fun p =>
      p.mu0 = lo ∧ ps = [] := by
    intro ps hps hl
    match ps with
    | [] =>
      unfold sampleGenericPeak
      refine (corner_low (by norm_num) (by norm_num; intro; linarith)).bind ?_
      rintro _ rfl
      refine Proc.Ensures.bind (Q := fun v => v = lo)
        ((corner_low le_rfl fun h => absurd h.2 (not_le.2 hlo)).bind fun _ h => Proc.ensures_pure h) ?_
      rintro _ rfl
      refine (ensures_uniform cornerRng_valid (by norm_num)).bind fun c _ => ?_
      refine (ensures_sampleExp cornerRng_valid (expScale_nonneg (by norm_num))).bind fun t _ => ?_
      exact ensures_ofPy (mk?_ok (by norm_num)) ⟨rfl, rfl⟩
    | [p] =>
      unfold sampleGenericPeak
      refine (corner_low (by norm_num) (by norm_num; intro; linarith)).bind ?_
      rintro _ rfl
      exact (no_second (hps p (by simp)) hlo).bind fun _ h => h.elim
    | _ :: _ :: _ => simp at hl
  show (peakLoop _ 3 []).Ensures _
  refine (hp [] (by simp) (by simp)).bind fun p h1 => ?_
  exact (hp [p] (by simpa using h1.1) (by simp)).bind fun _ h => absurd h.2 (by simp)

end SimCATS
