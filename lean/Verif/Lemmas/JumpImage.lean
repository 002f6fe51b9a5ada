import Verif.Spec.JumpImage
import Verif.Lemmas.HeightLaw
import Verif.Props.DotJumpsScan
import Verif.Lemmas.TelegraphSim
import Mathlib.Probability.ConditionalProbability

/-!
The dot jumps that are visible in an image.
-/

namespace SimCATS

open Spec MeasureTheory ProbabilityTheory

variable {τ : Type}

/-! ### Conditioning on an independent event -/

section cond

variable {Ω : Type} [MeasurableSpace Ω] {P : Measure Ω} [IsProbabilityMeasure P] {X : Ω → Bool}

theorem cond_map {E : Type} [MeasurableSpace E] {Y : Ω → E} (hX : Measurable X) (hY : Measurable Y) (hXY : IndepFun X Y P)
    (h0 : P (X ⁻¹' {true}) ≠ 0) : (P[|X ⁻¹' {true}]).map Y = P.map Y := by
  ext B hB
  rw [Measure.map_apply hY hB, Measure.map_apply hY hB, cond_apply (hX (measurableSet_singleton _)),
    hXY.measure_inter_preimage_eq_mul _ _ (measurableSet_singleton _) hB, ← mul_assoc, ENNReal.inv_mul_cancel h0 (measure_ne_top _ _), one_mul]

variable {α : Type} [MeasurableSpace α] {n : ℕ} {p : ℝ} {W : Fin n → Ω → ℕ} {H : ℕ → Ω → α}

/-- The law of plateaus that are visible only if the independent switch `X` is on. -/
theorem switched_plateau (hX : Measurable X) (hW : ∀ i, Measurable (W i)) (h1 : ∀ i ω, 1 ≤ W i ω) (hH : ∀ b, Measurable (H b))
    (hXY : IndepFun X (fun s => ((fun i => W i s), fun b => H b s)) P) (hi : iIndepFun W P) (hWH : IndepFun (fun s i => W i s) (fun s b => H b s) P)
    (hg : ∀ i g, P.real {ω | W i ω = g + 1} = (1 - p) ^ g * p) {Q : Measure α} (hQ : ∀ b, P.map (H b) = Q) {zero : α}
    {v : Ω → ℕ → α} (hv : ∀ ω, heightSignal (allLengths W ω) (fun b => H b ω) (v ω) zero n) {k l : ℕ} (hk : k + l < n) {B : Set α}
    (hB : MeasurableSet B) (h0 : zero ∉ B) :
    P.real {ω | X ω = true ∧ Plateau (v ω) k l B} = P.real {ω | X ω = true} * ((1 - p) ^ l * ((1 - (1 - 2 * p) ^ k) / 2) * Q.real B) := by
  have hms : MeasurableSet (X ⁻¹' {true}) := hX (measurableSet_singleton _)
  have hWm : Measurable fun (s : Ω) i => W i s := measurable_pi_iff.2 hW
  have hHm : Measurable fun (s : Ω) b => H b s := measurable_pi_iff.2 hH
  have hsplit : P.real {ω | X ω = true ∧ Plateau (v ω) k l B} = (P[|X ⁻¹' {true}]).real {ω | Plateau (v ω) k l B} * P.real (X ⁻¹' {true}) := by
    rw [measureReal_def, measureReal_def, measureReal_def, ← ENNReal.toReal_mul, cond_mul_eq_inter hms]
    rfl
  by_cases hp : P (X ⁻¹' {true}) = 0
  · have e : P.real (X ⁻¹' {true}) = 0 := by rw [measureReal_def, hp, ENNReal.toReal_zero]
    rw [hsplit, show {ω | X ω = true} = X ⁻¹' {true} from rfl, e, mul_zero, zero_mul]
  · have := cond_isProbabilityMeasure hp
    have hXW : IndepFun X (fun s i => W i s) P := hXY.comp measurable_id measurable_fst
    have hXH : IndepFun X (fun s b => H b s) P := hXY.comp measurable_id measurable_snd
    have eW := cond_map hX hWm hXW hp
    have eH := cond_map hX hHm hXH hp
    have eWH := cond_map hX (hWm.prodMk hHm) hXY hp
    have eWi : ∀ i, (P[|X ⁻¹' {true}]).map (W i) = P.map (W i) := fun i =>
      cond_map hX (hW i) (hXW.comp measurable_id (measurable_pi_apply i)) hp
    have eHb : ∀ b, (P[|X ⁻¹' {true}]).map (H b) = P.map (H b) := fun b =>
      cond_map hX (hH b) (hXH.comp measurable_id (measurable_pi_apply b)) hp
    have c1 : iIndepFun W P[|X ⁻¹' {true}] := by
      rw [iIndepFun_iff_map_fun_eq_infinitePi_map hW] at hi ⊢
      rw [eW, hi]
      simp only [eWi]
    have c2 : ∀ i g, (P[|X ⁻¹' {true}]).real {ω | W i ω = g + 1} = (1 - p) ^ g * p := by
      intro i g
      have hm : MeasurableSet ({g + 1} : Set ℕ) := measurableSet_singleton _
      rw [← hg i g, show {ω | W i ω = g + 1} = W i ⁻¹' {g + 1} from rfl, ← map_measureReal_apply (hW i) hm, ← map_measureReal_apply (hW i) hm, eWi]
    have c3 : IndepFun (fun s i => W i s) (fun s b => H b s) P[|X ⁻¹' {true}] := by
      rw [indepFun_iff_map_prod_eq_prod_map_map hWm.aemeasurable hHm.aemeasurable] at hWH ⊢
      rw [eW, eH, eWH, hWH]
    rw [hsplit, plateau_law hW h1 c1 c2 hH c3 (fun b => by rw [eHb b, hQ b]) hv hk hB h0, mul_comm]
    rfl

end cond

/-! ### Calls -/

/-- A call that draws new jumps behaves like a frozen call with these jumps. -/
theorem fresh_2d {d : DotJumps τ} {r c : ℕ} {occ : Fin r → Fin c → ℝ × ℝ} {lead : Fin r → Fin c → ℕ} {g1 g2 : ℝ × ℝ}
    {gen : Gen (DotState × τ)} {sc la scale lam : ℝ} (hsc : d.scale = pure sc) (hla : d.lam = pure la)
    (hp : pixelParams (jumpFactor d.axis g1 g2 (.d2 r c occ)) sc la = some (scale, lam)) (h0 : scale ≠ 0) {s s1 s2 : τ} {noise : List ℕ}
    (hb : d.rng.binomial d.ratio s = (.ok true, s1)) (hj : generateJumps d.rng (d.axis.size r c) scale lam s1 = (.ok noise, s2)) (st : DotState) :
    d.noiseFunction (.d2 r c occ, .d2 r c lead) g1 g2 gen false (st, s) =
      d.noiseFunction (.d2 r c occ, .d2 r c lead) g1 g2 gen true (⟨some true, some noise⟩, s2) := by
  rw [frozen_2d, ← run2d_scale _ _ _ _ _ _ _ _ _ (some scale) (by simpa using h0)]
  unfold DotJumps.noiseFunction
  rw [M.bind_run, getOwn_run]
  simp only [Bool.false_eq_true, if_false]
  rw [M.bind_run, onRest_eq hb]
  simp only
  rw [M.bind_run, setOwn_run]
  simp only [Bool.true_eq_false, if_false]
  unfold DotJumps.active DotJumps.noise
  simp only [Bool.false_eq_true, if_false]
  rw [M.bind_run, ofPy_run, reshape2_self]
  simp only
  rw [hsc, hla, M.bind_run, M.bind_run, onRest_eq (x := pure sc) (r := .ok sc) (t' := s1) rfl]
  simp only
  rw [M.bind_run, onRest_eq (x := pure la) (r := .ok la) (t' := s1) rfl]
  simp only
  rw [hp]
  simp only
  rw [M.bind_run, onRest_eq hj]
  simp only
  rw [M.bind_run, setOwn_run]
  simp only [M.pure_run]

/-- The law of the images, for an image `img v` with the jumps `v`. -/
theorem image_law [MeasurableSpace τ] {P : Measure τ} [IsProbabilityMeasure P] {d : DotJumps τ} {rows cols : ℕ} {occ : Fin rows → Fin cols → ℝ × ℝ}
    {lead : Fin rows → Fin cols → ℕ} {g1 g2 : ℝ × ℝ} {gen : Gen (DotState × τ)} {sc la scale lam : ℝ} (hsc : d.scale = pure sc) (hla : d.lam = pure la)
    (hp : pixelParams (jumpFactor d.axis g1 g2 (.d2 rows cols occ)) sc la = some (scale, lam)) (hs : 1 ≤ scale) (hv : d.rng.Valid) {r : ℝ}
    (hr : d.ratio = r) (hd : CoinLengthsHeights P d.rng r (1 / scale) lam (d.axis.size rows cols)) (img : (ℕ → ℕ) → CsdData)
    (hz : img 0 = (.d2 rows cols occ, .d2 rows cols lead))
    (hi : ∀ (noise : List ℕ) (t : τ), noise.length = d.axis.size rows cols → ∃ s', d.noiseFunction (.d2 rows cols occ, .d2 rows cols lead) g1 g2 gen true
      (⟨some true, some noise⟩, t) = (.ok (img fun k => noise.getD k 0), s')) {k l : ℕ} (hk : k + l < d.axis.size rows cols) {B : Set ℕ} (h0 : 0 ∉ B)
    (st : DotState) (E : CsdData → Prop) :
    ((∀ v, Plateau v k l B → E (img v)) → r * ((1 - 1 / scale) ^ l * ((1 - (1 - 2 / scale) ^ k) / 2) * (poissonMeasure lam.toNNReal).real {h | h % 256 ∈ B}) ≤
        P.real (JumpImage d (.d2 rows cols occ, .d2 rows cols lead) g1 g2 gen st E)) ∧
      ((∀ v, E (img v) ↔ Plateau v k l B) → P.real (JumpImage d (.d2 rows cols occ, .d2 rows cols lead) g1 g2 gen st E) =
        r * ((1 - 1 / scale) ^ l * ((1 - (1 - 2 / scale) ^ k) / 2) * (poissonMeasure lam.toNNReal).real {h | h % 256 ∈ B})) := by
  obtain ⟨X, W, H, hdraw, hXm, hWm, hHm, hXY, hiW, hWH, hX, hg, hQ⟩ := hd
  have hpos : ∀ i s, 1 ≤ W i s := by
    intro i s
    obtain ⟨s1, w, s2, -, hw, hww, -⟩ := hdraw s
    obtain ⟨w', t', e, h1⟩ := hv.geometric_ok (1 / scale) (d.axis.size rows cols) s1 (scale_inv hs).1 (scale_inv hs).2
    rw [hw] at e
    cases e
    rw [← hww i]
    exact h1 i i.2
  have hsig : ∀ s, ∃ s1 out s', d.rng.binomial r s = (.ok (X s), s1) ∧ generateJumps d.rng (d.axis.size rows cols) scale lam s1 = (.ok out, s') ∧
      out.length = d.axis.size rows cols ∧ ∃ v, heightSignal (allLengths W s) (fun b => H b s) v 0 (d.axis.size rows cols) ∧
        ∀ k, out.getD k 0 = v k % 256 := by
    intro s
    obtain ⟨s1, w, s2, hb, hw, hww, hH⟩ := hdraw s
    obtain ⟨out, s', ho, hl, v, hv1, hv2⟩ := jumps_signal (W := fun i _ => W i s) (H := fun b _ => H b s) hv hs s1 ⟨w, s2, hw, hww, hH⟩
    exact ⟨s1, out, s', hb, ho, hl, v, hv1, hv2⟩
  choose s1 out s' hb ho hl v hv1 hv2 using hsig
  have hmod : Measurable fun h : ℕ => h % 256 := measurable_of_countable _
  have hHm' : Measurable fun f : ℕ → ℕ => fun b => f b % 256 := measurable_pi_iff.2 fun b => hmod.comp (measurable_pi_apply b)
  have hlaw := switched_plateau (P := P) (H := fun b s => H b s % 256) (Q := (poissonMeasure lam.toNNReal).map fun h => h % 256)
    (v := fun s i => v s i % 256) hXm hWm hpos (fun b => hmod.comp (hHm b))
    (hXY.comp measurable_id (measurable_fst.prodMk (hHm'.comp measurable_snd))) hiW (hWH.comp measurable_id hHm') hg
    (fun b => by rw [← hQ b, Measure.map_map hmod (hHm b)]; rfl) (fun s => heightSignal_map (fun h => h % 256) (hv1 s)) hk MeasurableSet.of_discrete h0
  rw [map_measureReal_apply hmod MeasurableSet.of_discrete, show 2 * (1 / scale) = 2 / scale by ring, hX] at hlaw
  rw [show ({h | h % 256 ∈ B} : Set ℕ) = (fun h => h % 256) ⁻¹' B from rfl, ← hlaw]
  have hcall : ∀ s, ∃ t, d.noiseFunction (.d2 rows cols occ, .d2 rows cols lead) g1 g2 gen false (st, s) =
      (.ok (img (if X s = true then fun i => v s i % 256 else 0)), t) := by
    intro s
    cases hx : X s with
    | false =>
      have := hb s
      rw [hx, ← hr] at this
      refine ⟨(⟨some false, st.prev⟩, s1 s), ?_⟩
      rw [C34_dots_inactive d _ g1 g2 gen st s (s1 s) this, if_neg (by simp), hz]
    | true =>
      have := hb s
      rw [hx, ← hr] at this
      obtain ⟨t, ht⟩ := hi (out s) (s' s) (hl s)
      refine ⟨t, (fresh_2d hsc hla hp (by linarith) this (ho s) st).trans (ht.trans ?_)⟩
      rw [if_pos rfl]
      simp only [hv2]
  have hzero : ¬ Plateau (0 : ℕ → ℕ) k l B := fun h => h0 h.1
  constructor
  · intro hE
    refine measureReal_mono fun s hs => ?_
    obtain ⟨t, ht⟩ := hcall s
    rw [if_pos hs.1] at ht
    exact ⟨_, _, ht, hE _ hs.2⟩
  · intro hE
    congr 1
    ext s
    obtain ⟨t, ht⟩ := hcall s
    constructor
    · rintro ⟨o, t', e, h⟩
      rw [ht] at e
      cases e
      have h2 := (hE _).1 h
      split_ifs at h2 with hx
      · exact ⟨hx, h2⟩
      · exact (hzero h2).elim
    · intro h
      rw [if_pos h.1] at ht
      exact ⟨_, _, ht, (hE _).2 h.2⟩

theorem shownVolt_anti {g : ℝ × ℝ} (hg : g.1 < g.2) {n : ℕ} (hn : 2 ≤ n) (j : ℕ) {a b : ℕ} (hab : a < b) : shownVolt g n b j < shownVolt g n a j := by
  have h1 : (0 : ℝ) < n := by exact_mod_cast (by omega : 0 < n)
  have h2 : (1 : ℝ) < n := by exact_mod_cast (by omega : 1 < n)
  have h3 : (a : ℝ) < b := by exact_mod_cast hab
  have hstep : 0 < (g.2 - g.1) / n := div_pos (by linarith) h1
  have key : ∀ h ≤ j, shownVolt g n h j = gridVolt g n ((j : ℤ) - h) := fun h hh => by
    have := C32_partial g n h j hn hh
    unfold jumpVolt at this
    unfold shownVolt
    exact this
  have hstep' : 0 < (g.2 - g.1) / ((n : ℝ) - 1) := div_pos (by linarith) (by linarith)
  by_cases hb : b ≤ j
  · rw [key b hb, key a (by omega)]
    unfold gridVolt
    push_cast
    nlinarith
  · have hb' : (j : ℝ) < b := by exact_mod_cast (by omega : j < b)
    by_cases ha : a ≤ j
    · have ha' : (a : ℝ) ≤ j := by exact_mod_cast ha
      rw [key a ha]
      unfold shownVolt gridVolt
      rw [if_neg hb]
      push_cast
      nlinarith
    · unfold shownVolt
      rw [if_neg hb, if_neg ha]
      nlinarith

theorem shownVolt_inj {g : ℝ × ℝ} (hg : g.1 < g.2) {n : ℕ} (hn : 2 ≤ n) (j : ℕ) : Function.Injective fun h => shownVolt g n h j := by
  intro a b h
  rcases lt_trichotomy a b with hab | hab | hab
  · exact absurd h (shownVolt_anti hg hn j hab).ne'
  · exact hab
  · exact absurd h (shownVolt_anti hg hn j hab).ne

theorem shownVolt_zero (g : ℝ × ℝ) (n j : ℕ) : shownVolt g n 0 j = sweepVolt g n j := by
  unfold shownVolt
  rw [if_pos (Nat.zero_le j), Nat.sub_zero]

/-! ### Columns and rows -/

section

variable {τ : Type} [MeasurableSpace τ]

theorem columns_img {P : Measure τ} [IsProbabilityMeasure P] {d : DotJumps τ} (ha : d.axis = .g1) {sc la : ℝ} (hsc : d.scale = pure sc)
    (hla : d.lam = pure la) (hv : d.rng.Valid) {gen : Gen (DotState × τ)} {F : ℝ → ℝ → ℝ × ℝ} {L : ℝ → ℝ → ℕ} (hg : SampledBy gen F L)
    {g1 g2 : ℝ × ℝ} (h1 : g1.1 < g1.2) (h2 : g2.1 ≤ g2.2) {rows cols : ℕ} (hr : 2 ≤ rows)
    {x : ℝ} (hx : x = rows / (g1.2 - g1.1)) (hs : 1 ≤ sc * x) (hd : CoinLengthsHeights P d.rng d.ratio (1 / (sc * x)) (la * x) cols) {k l : ℕ} (hk : k + l < cols)
    {B : Set ℕ} (h0 : 0 ∉ B) (st : DotState) :
    d.ratio * ((1 - 1 / (sc * x)) ^ l * ((1 - (1 - 2 / (sc * x)) ^ k) / 2) * (poissonMeasure (la * x).toNNReal).real {h | h % 256 ∈ B}) ≤
        P.real (JumpImage d (grid2 F L g1 g2 rows cols) g1 g2 gen st fun out => ∃ h ∈ B, ColumnsShow F L g1 g2 rows cols k l h out) ∧
      (2 ≤ cols → (∀ v, Function.Injective fun u => F u v) →
        P.real (JumpImage d (grid2 F L g1 g2 rows cols) g1 g2 gen st fun out => ∃ h ∈ B, ColumnsShow F L g1 g2 rows cols k l h out) =
        d.ratio * ((1 - 1 / (sc * x)) ^ l * ((1 - (1 - 2 / (sc * x)) ^ k) / 2) * (poissonMeasure (la * x).toNNReal).real {h | h % 256 ∈ B})) := by
  have hp : pixelParams (jumpFactor d.axis g1 g2 (.d2 rows cols fun i j => F (sweepVolt g1 cols j) (sweepVolt g2 rows i))) sc la =
      some (sc * x, la * x) := by
    rw [ha]
    unfold pixelParams jumpFactor pxPerVolt
    simp only
    rw [max_eq_right h1.le, min_eq_left h1.le, if_neg (by linarith), Option.map_some, ← hx, if_neg (by linarith)]
  have hsize : d.axis.size rows cols = cols := by rw [ha]; rfl
  have law := image_law (P := P) (gen := gen) (lead := fun i j => L (sweepVolt g1 cols j) (sweepVolt g2 rows i)) hsc hla hp hs hv rfl (by rw [hsize]; exact hd)
    (fun v => (.d2 rows cols fun i j => F (shownVolt g1 cols (v j) j) (sweepVolt g2 rows i),
      .d2 rows cols fun i j => L (shownVolt g1 cols (v j) j) (sweepVolt g2 rows i)))
    (by simp only [Pi.zero_apply, shownVolt_zero]) (fun noise t hn => ⟨_, C32_axis1_actual d ha hg g1 g2 h1.le h2 rows cols hr (by omega) noise
      (by rw [hn, hsize]) t⟩) (by rw [hsize]; exact hk) h0 st fun out => ∃ h ∈ B, ColumnsShow F L g1 g2 rows cols k l h out
  have back : ∀ v : ℕ → ℕ, Plateau v k l B → ∃ h ∈ B, ColumnsShow F L g1 g2 rows cols k l h
      (.d2 rows cols fun i j => F (shownVolt g1 cols (v j) j) (sweepVolt g2 rows i),
        .d2 rows cols fun i j => L (shownVolt g1 cols (v j) j) (sweepVolt g2 rows i)) := by
    rintro v ⟨hB, hv⟩
    refine ⟨v k, hB, _, _, rfl, fun i j hj1 hj2 => ?_⟩
    have e : v j = v k := by
      have := hv (j - k) (by omega)
      rwa [Nat.add_sub_cancel' hj1] at this
    rw [e]
    exact ⟨rfl, rfl⟩
  refine ⟨law.1 back, fun hc hF => law.2 fun v => ⟨?_, back v⟩⟩
  rintro ⟨h, hB, occ, lead, e, hcol⟩
  simp only [Prod.mk.injEq, Scan.d2.injEq, true_and, heq_eq_eq] at e
  obtain ⟨rfl, -⟩ := e
  have key : ∀ j, k ≤ j → j ≤ k + l → v j = h := fun j hj1 hj2 =>
    shownVolt_inj h1 hc j (hF _ (hcol ⟨0, by omega⟩ ⟨j, by omega⟩ hj1 hj2).1)
  exact ⟨by rw [key k le_rfl (by omega)]; exact hB, fun j hj => by rw [key k le_rfl (by omega), key (k + j) (by omega) (by omega)]⟩

theorem rows_img {P : Measure τ} [IsProbabilityMeasure P] {d : DotJumps τ} (ha : d.axis = .g2) {sc la : ℝ} (hsc : d.scale = pure sc)
    (hla : d.lam = pure la) (hv : d.rng.Valid) {gen : Gen (DotState × τ)} {F : ℝ → ℝ → ℝ × ℝ} {L : ℝ → ℝ → ℕ} (hg : SampledBy gen F L)
    {g1 g2 : ℝ × ℝ} (h1 : g1.1 ≤ g1.2) (h2 : g2.1 < g2.2) {rows cols : ℕ} (hc : 2 ≤ cols)
    {x : ℝ} (hx : x = cols / (g2.2 - g2.1)) (hs : 1 ≤ sc * x) (hd : CoinLengthsHeights P d.rng d.ratio (1 / (sc * x)) (la * x) rows) {k l : ℕ} (hk : k + l < rows)
    {B : Set ℕ} (h0 : 0 ∉ B) (st : DotState) :
    d.ratio * ((1 - 1 / (sc * x)) ^ l * ((1 - (1 - 2 / (sc * x)) ^ k) / 2) * (poissonMeasure (la * x).toNNReal).real {h | h % 256 ∈ B}) ≤
        P.real (JumpImage d (grid2 F L g1 g2 rows cols) g1 g2 gen st fun out => ∃ h ∈ B, RowsShow F L g1 g2 rows cols k l h out) ∧
      (2 ≤ rows → (∀ u, Function.Injective fun v => F u v) →
        P.real (JumpImage d (grid2 F L g1 g2 rows cols) g1 g2 gen st fun out => ∃ h ∈ B, RowsShow F L g1 g2 rows cols k l h out) =
        d.ratio * ((1 - 1 / (sc * x)) ^ l * ((1 - (1 - 2 / (sc * x)) ^ k) / 2) * (poissonMeasure (la * x).toNNReal).real {h | h % 256 ∈ B})) := by
  have hp : pixelParams (jumpFactor d.axis g1 g2 (.d2 rows cols fun i j => F (sweepVolt g1 cols j) (sweepVolt g2 rows i))) sc la =
      some (sc * x, la * x) := by
    rw [ha]
    unfold pixelParams jumpFactor pxPerVolt
    simp only
    rw [max_eq_right h2.le, min_eq_left h2.le, if_neg (by linarith), Option.map_some, ← hx, if_neg (by linarith)]
  have hsize : d.axis.size rows cols = rows := by rw [ha]; rfl
  have law := image_law (P := P) (gen := gen) (lead := fun i j => L (sweepVolt g1 cols j) (sweepVolt g2 rows i)) hsc hla hp hs hv rfl (by rw [hsize]; exact hd)
    (fun v => (.d2 rows cols fun i j => F (sweepVolt g1 cols j) (shownVolt g2 rows (v i) i),
      .d2 rows cols fun i j => L (sweepVolt g1 cols j) (shownVolt g2 rows (v i) i)))
    (by simp only [Pi.zero_apply, shownVolt_zero]) (fun noise t hn => ⟨_, C32_axis0_actual d ha hg g1 g2 h1 h2.le rows cols (by omega) hc noise
      (by rw [hn, hsize]) t⟩) (by rw [hsize]; exact hk) h0 st fun out => ∃ h ∈ B, RowsShow F L g1 g2 rows cols k l h out
  have back : ∀ v : ℕ → ℕ, Plateau v k l B → ∃ h ∈ B, RowsShow F L g1 g2 rows cols k l h
      (.d2 rows cols fun i j => F (sweepVolt g1 cols j) (shownVolt g2 rows (v i) i),
        .d2 rows cols fun i j => L (sweepVolt g1 cols j) (shownVolt g2 rows (v i) i)) := by
    rintro v ⟨hB, hv⟩
    refine ⟨v k, hB, _, _, rfl, fun i j hj1 hj2 => ?_⟩
    have e : v i = v k := by
      have := hv (i - k) (by omega)
      rwa [Nat.add_sub_cancel' hj1] at this
    rw [e]
    exact ⟨rfl, rfl⟩
  refine ⟨law.1 back, fun hr hF => law.2 fun v => ⟨?_, back v⟩⟩
  rintro ⟨h, hB, occ, lead, e, hrow⟩
  simp only [Prod.mk.injEq, Scan.d2.injEq, true_and, heq_eq_eq] at e
  obtain ⟨rfl, -⟩ := e
  have key : ∀ i, k ≤ i → i ≤ k + l → v i = h := fun i hi1 hi2 =>
    shownVolt_inj h2 hr i (hF _ (hrow ⟨i, by omega⟩ ⟨0, by omega⟩ hi1 hi2).1)
  exact ⟨by rw [key k le_rfl (by omega)]; exact hB, fun j hj => by rw [key k le_rfl (by omega), key (k + j) (by omega) (by omega)]⟩

end

/-! ### A generator that reads coins, lengths and heights from streams -/

/-- The coins, lengths and heights that the generator will give. -/
abbrev JumpStreams := (ℝ → Bool) × HeightStreams

/-- Independent coins, lengths and heights; the Poisson numbers have the mean `m`. -/
noncomputable def jumpStreams (m : NNReal) : Measure JumpStreams := (Measure.infinitePi coinLaw).prod (heightStreams m)

instance (m : NNReal) : IsProbabilityMeasure (jumpStreams m) := by unfold jumpStreams; infer_instance

/-- The generator. -/
noncomputable def jumpRng : Rng JumpStreams where
  binomial := fun r g => (.ok (g.1 r), g)
  geometric := fun p n => onRest (heightRng.geometric p n)
  poisson := fun l => onRest (heightRng.poisson l)
  normal := fun m sd => onRest (heightRng.normal m sd)

theorem jumpRng_valid : jumpRng.Valid where
  geometric_error := fun p n s h => onRest_eq (heightRng_valid.geometric_error p n s.2 h) s.1
  geometric_ok := fun p n s h1 h2 => by
    obtain ⟨w, t, e, h⟩ := heightRng_valid.geometric_ok p n s.2 h1 h2
    exact ⟨w, (s.1, t), onRest_eq e s.1, h⟩

theorem jump_draws {r p lam : ℝ} (hr0 : 0 ≤ r) (hr1 : r ≤ 1) (h0 : 0 < p) (h1 : p ≤ 1) (n : ℕ) :
    CoinLengthsHeights (jumpStreams lam.toNNReal) jumpRng r p lam n := by
  have e2 : (jumpStreams lam.toNNReal).map Prod.snd = heightStreams lam.toNNReal := by
    unfold jumpStreams
    rw [Measure.map_snd_prod, measure_univ, one_smul]
  have e1 : (jumpStreams lam.toNNReal).map Prod.fst = Measure.infinitePi coinLaw := by
    unfold jumpStreams
    rw [Measure.map_fst_prod, measure_univ, one_smul]
  obtain ⟨W, H, hW, hm, hmH, hi, hWH, hl, hQ⟩ := poisson_draws lam.toNNReal h0 h1 n lam
  have hmW' : Measurable fun (s : HeightStreams) i => W i s := measurable_pi_iff.2 hm
  have hmH' : Measurable fun (s : HeightStreams) b => H b s := measurable_pi_iff.2 hmH
  have hm2 : ∀ i : Fin n, Measurable fun g : JumpStreams => W i g.2 := fun i => (hm i).comp measurable_snd
  refine ⟨fun g => g.1 r, fun i g => W i g.2, fun b g => H b g.2, fun g => ?_, by fun_prop, hm2, fun b => (hmH b).comp measurable_snd, ?_, ?_, ?_, ?_,
    fun i k => ?_, fun b => ?_⟩
  · obtain ⟨w, s', e, hw, st, hst0, hst⟩ := hW g.2
    exact ⟨g, w, (g.1, s'), rfl, onRest_eq e g.1, hw, fun b => (g.1, st b), Prod.ext rfl hst0, fun b => onRest_eq (hst b) g.1⟩
  · exact indepFun_prod (X := fun f : ℝ → Bool => f r) (Y := fun s : HeightStreams => ((fun i => W i s), fun b => H b s)) (by fun_prop)
      (hmW'.prodMk hmH')
  · rw [iIndepFun_iff_map_fun_eq_infinitePi_map hm2]
    rw [iIndepFun_iff_map_fun_eq_infinitePi_map hm] at hi
    rw [← e2, Measure.map_map hmW' measurable_snd] at hi
    refine hi.trans ?_
    congr 1
    funext i
    rw [Measure.map_map (hm i) measurable_snd]
    rfl
  · rw [indepFun_iff_map_prod_eq_prod_map_map hmW'.aemeasurable hmH'.aemeasurable, ← e2, Measure.map_map (hmW'.prodMk hmH') measurable_snd,
      Measure.map_map hmW' measurable_snd, Measure.map_map hmH' measurable_snd] at hWH
    exact (indepFun_iff_map_prod_eq_prod_map_map (hmW'.comp measurable_snd).aemeasurable (hmH'.comp measurable_snd).aemeasurable).2 hWH
  · have e3 : (Measure.infinitePi coinLaw).map (fun f => f r) = coinLaw r := Measure.infinitePi_map_eval _ r
    have e4 : (jumpStreams lam.toNNReal).map (fun g => g.1 r) = coinLaw r := by
      rw [← e3, ← e1, Measure.map_map (by fun_prop) (by fun_prop)]
      rfl
    show (jumpStreams lam.toNNReal).real ((fun g => g.1 r) ⁻¹' {true}) = r
    rw [← map_measureReal_apply (by fun_prop) MeasurableSet.of_discrete, e4, coinLaw, dif_pos ⟨hr0, hr1⟩,
      bernoulliMeasure_real_apply_of_mem_of_notMem _ MeasurableSet.of_discrete (by simp) (by simp)]
  · have hk : MeasurableSet {s | W i s = k + 1} := (hm i) (MeasurableSet.of_discrete (s := {k + 1}))
    rw [← hl i k, ← e2, map_measureReal_apply measurable_snd hk]
    rfl
  · rw [← hQ b, ← e2, Measure.map_map (hmH b) measurable_snd]
    rfl

/-- An image of 4 x 4 pixels over 1 V with 4 pixels per volt, a scale of 0.5 V (2 pixels) and a mean of 0.5 V (2 pixels); the jumps are active in one of
three calls. -/
noncomputable def imageJumps (axis : Axis) : DotJumps JumpStreams := ⟨pure 0.5, pure 0.5, axis, 1 / 3, jumpRng, false, 0⟩

end SimCATS
