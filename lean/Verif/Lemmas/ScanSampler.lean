import Verif.Lemmas.SensorSampler
import Verif.Lemmas.Glf

/-! Lemmas about the sampler of sensor scan sensors. -/

namespace SimCATS

open Spec

variable {τ : Type}

/-- The invariant of the loop over the peaks. -/
structure ScanInv (base : ℝ) (ps : List Peak) : Prop where
  kind : ∀ p ∈ ps, p.kind = .lorentzian
  first : ∀ p, ps.head? = some p → p.mu0 = base
  ordered : ps.Pairwise fun a b => a.mu0 < b.mu0
  width : ∀ p ∈ ps, 0 < p.width
  limited : ∀ p ∈ ps.drop 2, p.width ≤ 0.0022
  height : ∀ p ∈ ps, 0 ≤ p.height
  offset : ∀ p ∈ ps, p.offset = 0
  spacing : ∀ p0 p1 : Peak, ps[0]? = some p0 → ps[1]? = some p1 → 0 < p1.mu0 - p0.mu0 ∧ p1.mu0 - p0.mu0 ≤ 0.0147 ∧
    ∀ (k : ℕ) (a b : Peak), ps[k]? = some a → ps[k + 1]? = some b →
      0.88 * (p1.mu0 - p0.mu0) ≤ b.mu0 - a.mu0 ∧ b.mu0 - a.mu0 ≤ 1.07 * (p1.mu0 - p0.mu0)

/-- What is required of position and width of the next peak. -/
def NextOk (base : ℝ) : List Peak → ℝ × ℝ → Prop
  | [], m => m.1 = base ∧ 0 < m.2
  | [p0], m => (0 < m.1 - p0.mu0 ∧ m.1 - p0.mu0 ≤ 0.0147) ∧ 0 < m.2
  | p0 :: p1 :: rest, m =>
    (0.88 * (p1.mu0 - p0.mu0) ≤ m.1 - ((p1 :: rest).getLast (by simp)).mu0 ∧
      m.1 - ((p1 :: rest).getLast (by simp)).mu0 ≤ 1.07 * (p1.mu0 - p0.mu0)) ∧ 0 < m.2 ∧ m.2 ≤ 0.0022

theorem nextPeak_spec {rng : CfgRng τ} (hv : rng.Valid) (hz : rng.NormalNonzero) (base : ℝ) {ps : List Peak} (inv : ScanInv base ps) :
    (nextPeak rng base ps).Ensures (NextOk base ps) := by
  match ps, inv with
  | [], _ =>
    refine (ensures_sampleAbove hv hz (by norm_num)).bind fun g hg => Proc.ensures_pure ⟨rfl, ?_⟩
    exact lt_of_le_of_ne hg.1 (Ne.symm hg.2)
  | [p0], inv =>
    refine (ensures_sampleNormal hv hz (by norm_num)).bind fun d hd => ?_
    refine (ensures_sampleNormal hv hz (by norm_num)).bind fun g hg => Proc.ensures_pure ⟨⟨?_, ?_⟩, ?_⟩
    · have := lt_of_le_of_ne hd.1 (Ne.symm hd.2.2)
      simp only
      linarith
    · have := hd.2.1
      norm_num at this ⊢
      linarith
    · have h1 := inv.width p0 (by simp)
      have h2 := hg.1
      norm_num at h2
      exact mul_pos h1 (by linarith)
  | p0 :: p1 :: rest, inv =>
    refine (ensures_sampleNormal hv hz (by norm_num)).bind fun d hd => ?_
    refine (ensures_sampleNormal hv hz (by norm_num)).bind fun g hg => ?_
    obtain ⟨s1, -, -⟩ := inv.spacing p0 p1 rfl rfl
    have hwl := inv.width ((p1 :: rest).getLast (by simp)) (List.mem_cons_of_mem _ (List.getLast_mem _))
    have hgp : 0 < ((p1 :: rest).getLast (by simp)).width * g := by
      have h2 := hg.1
      norm_num at h2
      exact mul_pos hwl (by linarith)
    have hq : Proc.Ensures (open Classical in
        if 0.002 < ((p1 :: rest).getLast (by simp)).width * g then sampleUniform rng (0.002 * (1 - 0.1), 0.002 * (1 + 0.1))
        else pure (((p1 :: rest).getLast (by simp)).width * g)) fun w => 0 < w ∧ w ≤ 0.0022 := by
      split_ifs with hc
      · refine (ensures_sampleUniform hv (by norm_num)).mono fun w hw => ?_
        norm_num at hw ⊢
        constructor <;> linarith
      · refine Proc.ensures_pure ⟨hgp, ?_⟩
        rw [not_lt] at hc
        norm_num at hc ⊢
        linarith
    refine hq.bind fun w hw => Proc.ensures_pure ⟨?_, hw⟩
    have hnum : (2 : ℝ) ≤ ((if rest.length + 2 < 10 then rest.length + 2 else 10 : ℕ) : ℝ) ∧
        ((if rest.length + 2 < 10 then rest.length + 2 else 10 : ℕ) : ℝ) ≤ 10 := by
      constructor
      · have : 2 ≤ (if rest.length + 2 < 10 then rest.length + 2 else 10 : ℕ) := by split_ifs <;> omega
        exact_mod_cast this
      · have : (if rest.length + 2 < 10 then rest.length + 2 else 10 : ℕ) ≤ 10 := by split_ifs <;> omega
        exact_mod_cast this
    simp only
    generalize ((if rest.length + 2 < 10 then rest.length + 2 else 10 : ℕ) : ℝ) = x at hnum ⊢
    have r1 : 0.88 ≤ d + (-0.0374000174907983 / 4) * (x - 1) + 1.0189427890611187 := by
      have := hd.1
      norm_num at this ⊢
      linarith
    have r2 : d + (-0.0374000174907983 / 4) * (x - 1) + 1.0189427890611187 ≤ 1.07 := by
      have := hd.2.1
      norm_num at this ⊢
      linarith
    rw [add_sub_cancel_left]
    exact ⟨mul_le_mul_of_nonneg_right r1 s1.le, mul_le_mul_of_nonneg_right r2 s1.le⟩

theorem scanInv_step {base : ℝ} {ps : List Peak} (inv : ScanInv base ps) {m : ℝ × ℝ} (hm : NextOk base ps m) {h : ℝ} (hh : 0 ≤ h) :
    ScanInv base (ps ++ [⟨.lorentzian, m.1, m.2, h, 0⟩]) := by
  have hw : 0 < m.2 := by
    match ps, hm with
    | [], hm => exact hm.2
    | [_], hm => exact hm.2
    | _ :: _ :: _, hm => exact hm.2.1
  -- the new peak is to the right of the last one
  have hlast : ∀ l, ps.getLast? = some l → l.mu0 < m.1 := by
    match ps, inv, hm with
    | [], _, _ => intro l hl; simp at hl
    | [p0], _, hm => intro l hl; simp at hl; subst hl; have := hm.1.1; linarith
    | p0 :: p1 :: rest, inv, hm =>
      intro l hl
      rw [List.getLast?_cons_cons, List.getLast?_eq_getLast_of_ne_nil (by simp), Option.some.injEq] at hl
      subst hl
      have h1 := (inv.spacing p0 p1 rfl rfl).1
      have h2 := hm.1.1
      norm_num at h2
      linarith
  have hle : ∀ p ∈ ps, p.mu0 < m.1 := by
    intro p hp
    have hne : ps ≠ [] := List.ne_nil_of_mem hp
    have e := List.dropLast_append_getLast hne
    have h1 := hlast _ (List.getLast?_eq_getLast_of_ne_nil hne)
    rw [← e] at hp
    rcases List.mem_append.1 hp with hp | hp
    · have ho := inv.ordered
      rw [← e, List.pairwise_append] at ho
      exact (ho.2.2 p hp _ (List.mem_singleton.2 rfl)).trans h1
    · rw [List.mem_singleton.1 hp]; exact h1
  refine ⟨?_, ?_, ?_, ?_, ?_, ?_, ?_, ?_⟩
  · intro p hp
    rcases List.mem_append.1 hp with hp | hp
    · exact inv.kind p hp
    · rw [List.mem_singleton.1 hp]
  · intro p hp
    cases ps with
    | nil => simp at hp; subst hp; exact hm.1
    | cons a l => simp at hp; subst hp; exact inv.first a rfl
  · rw [List.pairwise_append]
    refine ⟨inv.ordered, List.pairwise_singleton _ _, fun a ha b hb => ?_⟩
    rw [List.mem_singleton.1 hb]
    exact hle a ha
  · intro p hp
    rcases List.mem_append.1 hp with hp | hp
    · exact inv.width p hp
    · rw [List.mem_singleton.1 hp]; exact hw
  · intro p hp
    match ps, inv, hm with
    | [], _, _ => simp at hp
    | [p0], _, _ => simp at hp
    | p0 :: p1 :: rest, inv, hm =>
      simp only [List.cons_append, List.drop_succ_cons, List.drop_zero] at hp
      rcases List.mem_append.1 hp with hp | hp
      · exact inv.limited p hp
      · rw [List.mem_singleton.1 hp]; exact hm.2.2
  · intro p hp
    rcases List.mem_append.1 hp with hp | hp
    · exact inv.height p hp
    · rw [List.mem_singleton.1 hp]; exact hh
  · intro p hp
    rcases List.mem_append.1 hp with hp | hp
    · exact inv.offset p hp
    · rw [List.mem_singleton.1 hp]
  · intro p0 p1 h0 h1
    match ps, inv, hm with
    | [], _, _ => simp at h1
    | [a0], _, hm =>
      simp at h0 h1
      subst h0 h1
      refine ⟨hm.1.1, hm.1.2, fun k a b ha hb => ?_⟩
      match k with
      | 0 =>
        simp at ha hb
        subst ha hb
        have := hm.1.1
        constructor <;> norm_num <;> linarith
      | k + 1 => simp at hb
    | a0 :: a1 :: rest, inv, hm =>
      simp at h0 h1
      subst h0 h1
      obtain ⟨c1, c2, c3⟩ := inv.spacing a0 a1 rfl rfl
      refine ⟨c1, c2, fun k a b ha hb => ?_⟩
      rcases lt_trichotomy (k + 1) (rest.length + 2) with hk | hk | hk
      · rw [List.getElem?_append_left (by simp; omega)] at ha hb
        exact c3 k a b ha hb
      · rw [List.getElem?_append_left (by simp; omega)] at ha
        rw [List.getElem?_append_right (by simp; omega)] at hb
        have hk' : k + 1 - (a0 :: a1 :: rest).length = 0 := by simp; omega
        rw [hk'] at hb
        simp at hb
        subst hb
        have hl : (a0 :: a1 :: rest).getLast? = some a := by
          rw [List.getLast?_eq_getElem?, ← ha]
          congr 1
          simp
          omega
        rw [List.getLast?_cons_cons, List.getLast?_eq_getLast_of_ne_nil (by simp), Option.some.injEq] at hl
        rw [← hl]
        exact hm.1
      · rw [List.getElem?_append_right (by simp; omega)] at hb
        have : k + 1 - (a0 :: a1 :: rest).length ≠ 0 := by simp; omega
        obtain ⟨j, hj⟩ := Nat.exists_eq_succ_of_ne_zero this
        rw [hj] at hb
        simp at hb

theorem addScanPeak_spec {rng : CfgRng τ} (hv : rng.Valid) (hz : rng.NormalNonzero) (ref base : ℝ) {ps : List Peak}
    (inv : ScanInv base ps) : (addScanPeak rng ref base ps).Ensures fun p => ScanInv base (ps ++ [p]) := by
  unfold addScanPeak
  refine (nextPeak_spec hv hz base inv).bind fun m hm => ?_
  refine (ensures_sampleAbove hv hz (by norm_num)).bind fun h hh => ?_
  have key := scanInv_step inv hm (h := ref + h) (by linarith [hh.1])
  exact ensures_ofPy (mk?_ok (key.width _ (List.mem_append_right _ (List.mem_singleton.2 rfl)))) key

theorem scanInv_nil (base : ℝ) : ScanInv base [] := by
  refine ⟨by simp, by simp, List.Pairwise.nil, by simp, by simp, by simp, by simp, by simp⟩

theorem scanPeaks_of_inv {base : ℝ} {ps : List Peak} (inv : ScanInv base ps) (h20 : 20 ≤ ps.length) (h30 : ps.length ≤ 30) :
    ScanPeaks base ps := by
  match ps, inv, h20, h30 with
  | [], _, h, _ => simp at h
  | [_], _, h, _ => simp at h
  | p0 :: p1 :: rest, inv, h20, h30 =>
    obtain ⟨c1, c2, c3⟩ := inv.spacing p0 p1 rfl rfl
    exact ⟨⟨h20, h30⟩, inv.kind, ⟨p0, rfl, inv.first p0 rfl⟩, inv.ordered, inv.width, inv.limited, inv.height, inv.offset,
      ⟨_, c1, c2, c3⟩⟩

theorem sampleSensorFunction_spec {rng : CfgRng τ} (hv : rng.Valid) (hz : rng.NormalNonzero) (offset q : ℝ) :
    (sampleSensorFunction rng offset q).Ensures fun f => ScanPeaks offset f.1 ∧
      (f.2.mu0 = 0 ∧ f.2.g.A = 0 ∧ f.2.g.C = 1 ∧ f.2.fullyCondPct = 0.95 ∧ (400 ≤ f.2.g.B ∧ f.2.g.B ≤ 600) ∧
        (0.01 ≤ f.2.g.nu ∧ f.2.g.nu ≤ 1) ∧ (0.01 ≤ f.2.g.Q ∧ f.2.g.Q ≤ 100)) ∧
      (∀ i : Fin 500000, 1.05 * sumPeaks f.1 (linspace (-5) 5 500000 i) ≤ f.2.g.K) ∧
      ∃ i : Fin 500000, 1.05 * sumPeaks f.1 (linspace (-5) 5 500000 i) = f.2.g.K := by
  unfold sampleSensorFunction
  refine (ensures_sampleNormal hv hz (by norm_num)).bind fun ref _ => ?_
  refine (ensures_sampleUniform hv (by norm_num)).bind fun x hx => ?_
  have hf : 20 ≤ ⌊x⌋₊ ∧ ⌊x⌋₊ ≤ 30 := by
    constructor
    · exact Nat.le_floor (by exact_mod_cast hx.1)
    · have := Nat.floor_mono hx.2
      simpa using this
  refine (peakLoop_spec (Inv := ScanInv offset) (n := ⌊x⌋₊) (fun ps hi _ => addScanPeak_spec hv hz ref offset hi) ⌊x⌋₊ []
    (scanInv_nil offset) (by simp)).bind fun ps hps => ?_
  obtain ⟨hi, hl⟩ := hps
  rw [List.length_nil, zero_add] at hl
  refine (ensures_sampleUniform hv (by norm_num)).bind fun b hb => ?_
  refine (ensures_sampleUniform hv (by norm_num)).bind fun nu hnu => ?_
  refine (ensures_sampleUniform hv (by norm_num)).bind fun sh hsh => ?_
  set top := maxOf 499999 fun i => sumPeaks ps (linspace (-5) 5 500000 i) with ht
  have hok : RiseGlf.mk? ⟨0, ⟨0, top * 1.05, b, nu, sh, 1⟩, 0.95⟩ = .ok ⟨0, ⟨0, top * 1.05, b, nu, sh, 1⟩, 0.95⟩ := by
    unfold RiseGlf.mk?
    have := hnu.1
    norm_num at this
    exact if_neg (by simp only; linarith)
  refine Proc.Ensures.bind (Q := fun r : RiseGlf => r = ⟨0, ⟨0, top * 1.05, b, nu, sh, 1⟩, 0.95⟩) (ensures_ofPy hok rfl) ?_
  rintro _ rfl
  refine Proc.ensures_pure ⟨scanPeaks_of_inv (ps := ps) hi (by omega) (by omega), ⟨rfl, rfl, rfl, rfl, hb, hnu, hsh⟩, ?_, ?_⟩
  · intro i
    have : sumPeaks ps (linspace (-5) 5 500000 i) ≤ top :=
      Finset.le_sup' (fun i : Fin (499999 + 1) => sumPeaks ps (linspace (-5) 5 500000 i)) (Finset.mem_univ _)
    simp only
    norm_num at this ⊢
    linarith
  · obtain ⟨i, -, e⟩ := Finset.exists_mem_eq_sup' (s := (Finset.univ : Finset (Fin (499999 + 1)))) ⟨0, Finset.mem_univ 0⟩
      (fun i : Fin (499999 + 1) => sumPeaks ps (linspace (-5) 5 500000 i))
    refine ⟨i, ?_⟩
    have e' : top = sumPeaks ps (linspace (-5) 5 500000 i) := e
    simp only
    rw [e', mul_comm]

/-- The results of drawing from a uniform sampler. -/
theorem sampleUniform_iff {rng : CfgRng τ} {range : ℝ × ℝ} {s : τ} {r : Py ℝ × τ} :
    sampleUniform rng range s r ↔ r = rng.uniform range.1 range.2 s := by
  have key : ∀ r : Py ℝ × τ, Redraw (rng.uniform range.1 range.2) (fun _ => True) s r ↔ r = rng.uniform range.1 range.2 s := by
    intro r
    constructor
    · intro h
      cases h with
      | stop h _ => exact h.symm
      | again _ h _ => exact absurd trivial h
      | fail h => exact h.symm
    · rintro rfl
      cases h : rng.uniform range.1 range.2 s with
      | mk x t =>
        cases x with
        | ok v => exact .stop h trivial
        | error e => exact .fail h
  constructor
  · rintro (⟨d, s', h1, o, h2⟩ | ⟨e, s', h1, -⟩)
    · cases h1
      obtain ⟨x, t⟩ := r
      cases h2 with
      | ok h2 => exact (key _).1 h2
      | error h2 => exact (key _).1 h2
    · cases h1
  · intro h
    refine Or.inl ⟨_, s, rfl, ?_⟩
    obtain ⟨x, t⟩ := r
    cases x with
    | ok v => exact ⟨_, .ok ((key _).2 h)⟩
    | error e => exact ⟨_, .error ((key _).2 h)⟩

/-- The parameters of a sampled barrier. -/
theorem sampleBarrier_spec {rng : CfgRng τ} (hv : rng.Valid) (offset height q pct full : ℝ) :
    (sampleBarrier rng offset height q pct full).Ensures fun b =>
      b.pinchOffPct = pct ∧ b.fullyCondPct = full ∧ b.g.A = 0 ∧ b.g.K = height * q ∧ b.g.C = 1 ∧
      (20 ≤ b.g.B ∧ b.g.B ≤ 40) ∧ (0.000001 ≤ b.g.nu ∧ b.g.nu ≤ 0.0001) ∧ (0.01 ≤ b.g.Q ∧ b.g.Q ≤ 100) ∧
      b.offset = offset - inverseGlf b.g 0 (height * q * pct) := by
  unfold sampleBarrier
  refine (ensures_sampleUniform hv (by norm_num)).bind fun b hb => ?_
  refine (ensures_sampleUniform hv (by norm_num)).bind fun nu hnu => ?_
  refine (ensures_sampleUniform hv (by norm_num)).bind fun sh hsh => ?_
  refine ensures_ofPy (a := ⟨pct, full, ⟨0, height * q, b, nu, sh, 1⟩,
    offset - inverseGlf ⟨0, height * q, b, nu, sh, 1⟩ 0 (height * q * pct)⟩) ?_ ⟨rfl, rfl, rfl, rfl, rfl, hb, hnu, hsh, rfl⟩
  unfold BarrierGlf.mk?
  have := hnu.1
  norm_num at this
  exact if_neg (by simp only; linarith)

end SimCATS
