import Verif.Model.SensorSampler
import Verif.Spec.SampledSensor
import Verif.Lemmas.Proc
import Mathlib.Tactic.Linarith
import Mathlib.Tactic.NormNum
import Mathlib.Tactic.FieldSimp

/-! Lemmas about the sensor samplers. -/

namespace SimCATS

open Spec

variable {τ : Type}

theorem ensures_ofPy {α : Type} {x : Py α} {a : α} {Q : α → Prop} (h : x = .ok a) (hq : Q a) :
    (Proc.ofPy x : Proc τ α).Ensures Q := by
  intro s r hx
  exact ⟨a, s, by rw [← h]; exact hx, hq⟩

/-- A loop of draws that never raise. -/
theorem redraw_ensures {draw : M τ ℝ} {accept : ℝ → Prop} {Q : ℝ → Prop}
    (hd : ∀ s, ∃ v s', draw s = (.ok v, s') ∧ Q v) : Proc.Ensures (fun s r => Redraw draw accept s r) fun v => Q v ∧ accept v := by
  intro s r h
  induction h with
  | @stop s s' v h1 ha =>
    obtain ⟨w, t, e, hq⟩ := hd s
    rw [h1] at e
    cases e
    exact ⟨v, s', rfl, hq, ha⟩
  | again _ _ _ ih => exact ih
  | @fail s s' e h1 =>
    obtain ⟨w, t, e', -⟩ := hd s
    rw [h1] at e'
    cases e'

theorem sample_ensures {mk : M τ (Sampler τ)} {P : Sampler τ → Prop} {Q : ℝ → Prop}
    (hm : ∀ s, ∃ d s', mk s = (.ok d, s') ∧ P d)
    (hp : ∀ d, P d → Proc.Ensures (fun s r => Redraw d.draw d.accept s r) Q) : (Proc.sample mk).Ensures Q := by
  intro s r h
  rcases h with ⟨d, s', h1, o, h2⟩ | ⟨e, s', h1, -⟩
  · obtain ⟨d', s'', e, hd⟩ := hm s
    unfold Proc.call at h1
    rw [h1] at e
    cases e
    obtain ⟨x, t⟩ := r
    cases h2 with
    | ok h2 =>
      obtain ⟨a, s1, e, hq⟩ := hp _ hd _ _ h2
      cases e
      exact ⟨_, _, rfl, hq⟩
    | error h2 =>
      obtain ⟨a, s1, e, hq⟩ := hp _ hd _ _ h2
      cases e
  · obtain ⟨d', s'', e', hd⟩ := hm s
    unfold Proc.call at h1
    rw [h1] at e'
    cases e'

theorem ensures_sampleUniform {rng : CfgRng τ} (hv : rng.Valid) {a b : ℝ} (h : a ≤ b) :
    (sampleUniform rng (a, b)).Ensures fun v => a ≤ v ∧ v ≤ b := by
  refine sample_ensures (P := fun d => d.draw = rng.uniform a b) (fun s => ⟨_, s, rfl, rfl⟩) ?_
  intro d hd
  refine (redraw_ensures (Q := fun v => a ≤ v ∧ v ≤ b) ?_).mono fun _ h => h.1
  rw [hd]
  intro s
  obtain ⟨v, s', e⟩ := hv.uniform_ok a b s h
  exact ⟨v, s', e, hv.draws.uniform a b s v s' h e⟩

/-- Values drawn from the normal distribution are not exactly 0. -/
def CfgRng.NormalNonzero (rng : CfgRng τ) : Prop := ∀ m d s v s', rng.normal m d s = (.ok v, s') → v ≠ 0

theorem ensures_sampleNormal {rng : CfgRng τ} (hv : rng.Valid) (hz : rng.NormalNonzero) {a b std mean : ℝ} (h : 0 ≤ std) :
    (sampleNormal rng (a, b) std mean).Ensures fun v => a ≤ v ∧ v ≤ b ∧ v ≠ 0 := by
  refine sample_ensures (P := fun d => d.draw = rng.normal mean std ∧ d.accept = fun v => ¬ (v < a ∨ b < v))
    (fun s => ⟨_, s, rfl, rfl, rfl⟩) ?_
  rintro d ⟨hd, ha⟩
  refine (redraw_ensures (Q := fun v => v ≠ 0) ?_).mono fun v h => ?_
  · rw [hd]
    intro s
    obtain ⟨v, s', e⟩ := hv.normal_ok mean std s h
    exact ⟨v, s', e, hz _ _ _ _ _ e⟩
  · obtain ⟨h0, h1⟩ := h
    rw [ha] at h1
    push Not at h1
    exact ⟨h1.1, h1.2, h0⟩

theorem ensures_sampleAbove {rng : CfgRng τ} (hv : rng.Valid) (hz : rng.NormalNonzero) {a std mean : ℝ} (h : 0 ≤ std) :
    (sampleAbove rng a std mean).Ensures fun v => a ≤ v ∧ v ≠ 0 := by
  refine (redraw_ensures (Q := fun v => v ≠ 0) ?_).mono fun v h => ⟨not_lt.1 h.2, h.1⟩
  intro s
  obtain ⟨v, s', e⟩ := hv.normal_ok mean std s h
  exact ⟨v, s', e, hz _ _ _ _ _ e⟩

theorem expScale_nonneg {q : ℝ} (h : 0 ≤ q) : 0 ≤ expScale q := by
  unfold expScale
  refine div_nonneg (by positivity) (Real.log_nonneg ?_)
  norm_num

theorem ensures_sampleExp {rng : CfgRng τ} (hv : rng.Valid) {a b scale : ℝ} (h : 0 ≤ scale) :
    (Proc.sample (exponentialSampler rng.toDrawRng (a, b) scale none)).Ensures fun v => min a b ≤ v ∧ v ≤ max a b := by
  refine sample_ensures (P := fun d => (∀ s, ∃ v s', d.draw s = (.ok v, s')) ∧ d.accept = fun v => ¬ (v < min a b ∨ max a b < v))
    (fun s => ⟨_, s, rfl, fun s => ?_, rfl⟩) ?_
  · obtain ⟨v, s', e⟩ := hv.exponential_ok scale s h
    exact ⟨a + v * (b - a), s', M.bind_ok.2 ⟨v, s', e, rfl⟩⟩
  · rintro d ⟨hd, ha⟩
    refine (redraw_ensures (Q := fun _ => True) ?_).mono fun v h => ?_
    · intro s
      obtain ⟨v, s', e⟩ := hd s
      exact ⟨v, s', e, trivial⟩
    · have := h.2
      rw [ha] at this
      push Not at this
      exact this

theorem sampleAlphas_spec {rng : CfgRng τ} (hv : rng.Valid) {q : ℝ} (h0 : 0 < q) (h1 : q ≤ 1) (comp : Bool) :
    (sampleAlphas rng q comp).Ensures fun a => LeverArms q comp a.1 a.2 := by
  have hr : (if comp then ((0.0001 : ℝ), (0.0005 : ℝ)) else (0.02805, 0.15093)).1 ≤
      (if comp then ((0.0001 : ℝ), (0.0005 : ℝ)) else (0.02805, 0.15093)).2 := by
    cases comp <;> norm_num
  refine (ensures_uniform hv hr).bind fun g1 hg1 => ?_
  have hg : (if comp then 0.0001 ≤ g1 ∧ g1 ≤ 0.0005 else 0.02805 ≤ g1 ∧ g1 ≤ 0.15093) := by
    cases comp <;> exact hg1
  have hpos : 0 < g1 ∧ g1 ≤ 0.15093 := by
    cases comp
    · simp only [Bool.false_eq_true, if_false] at hg
      norm_num at hg ⊢
      constructor <;> linarith
    · simp only [if_true] at hg
      norm_num at hg ⊢
      constructor <;> linarith
  obtain ⟨hp, hle⟩ := hpos
  norm_num at hle
  refine (ensures_uniform hv (by norm_num; linarith)).bind fun g2 hg2 => ?_
  have i1 : (-0.0007994 : ℝ) ≤ min (2 * g1 * (-0.03) / 100) (-0.0007994 + q * (-0.0000961 - -0.0007994)) := by
    refine le_min ?_ ?_
    · norm_num; linarith
    · norm_num; linarith
  refine (ensures_uniform hv i1).bind fun d1 hd1 => ?_
  obtain ⟨l1, u1⟩ := hd1
  have u1a := u1.trans (min_le_left _ _)
  have u1b := u1.trans (min_le_right _ _)
  obtain ⟨g2l, g2u⟩ := hg2
  norm_num at l1 u1a u1b g2l g2u
  set high2 := min (min (0.5 * d1) (2 * g2 * (-0.03) / 100)) (-0.0005214 + q * (-0.0000630 - -0.0005214)) with hh
  have e1 : high2 ≤ 0.5 * d1 := (min_le_left _ _).trans (min_le_left _ _)
  have e2 : high2 ≤ 2 * g2 * (-0.03) / 100 := (min_le_left _ _).trans (min_le_right _ _)
  have e3 : high2 ≤ -0.0005214 + q * (-0.0000630 - -0.0005214) := min_le_right _ _
  have lo : (-0.0005214 : ℝ) ≤ high2 := by
    refine le_min (le_min ?_ ?_) ?_
    · norm_num; linarith
    · norm_num; linarith
    · norm_num; linarith
  have lo2 : 2 * d1 ≤ high2 := by
    refine le_min (le_min ?_ ?_) ?_
    · norm_num; linarith
    · norm_num; linarith
    · norm_num; linarith
  have eh : (open Classical in if high2 < -0.0005214 then -0.0005214 + q * (-0.0000630 - -0.0005214) else high2) = high2 :=
    if_neg (not_lt.2 lo)
  have i2 : max (2 * d1) (-0.0005214) ≤
      (open Classical in if high2 < -0.0005214 then -0.0005214 + q * (-0.0000630 - -0.0005214) else high2) := by
    rw [eh]
    exact max_le lo2 lo
  refine (ensures_uniform hv i2).bind fun d2 hd2 => ?_
  rw [eh] at hd2
  obtain ⟨l2, u2⟩ := hd2
  have l2a := (le_max_left _ _).trans l2
  have l2b := (le_max_right _ _).trans l2
  norm_num at e1 e2 e3 l2b
  have n1 : d1 < 0 := by linarith
  have n2 : d2 < 0 := by linarith
  refine Proc.ensures_pure ?_
  refine ⟨hg, ⟨by norm_num; linarith, by norm_num; linarith⟩, ⟨by norm_num; linarith, by norm_num; linarith⟩,
    ⟨by norm_num; linarith, by norm_num; linarith⟩, ?_, ?_, ?_⟩
  · rw [abs_of_neg n1, abs_of_neg n2]
    constructor <;> linarith
  · rw [abs_of_neg n1]; norm_num; linarith
  · rw [abs_of_neg n2]; norm_num; linarith

theorem peakLoop_spec {add : List Peak → Proc τ Peak} {Inv : List Peak → Prop} {n : ℕ}
    (h : ∀ ps, Inv ps → ps.length < n → (add ps).Ensures fun p => Inv (ps ++ [p])) :
    ∀ (m : ℕ) (ps : List Peak), Inv ps → ps.length + m ≤ n →
      (peakLoop add m ps).Ensures fun qs => Inv qs ∧ qs.length = ps.length + m := by
  intro m
  induction m with
  | zero => intro ps hi _; exact Proc.ensures_pure ⟨hi, rfl⟩
  | succ m ih =>
    intro ps hi hl
    refine (h ps hi (by omega)).bind fun p hp => ?_
    refine (ih (ps ++ [p]) hp (by simp; omega)).mono fun qs hq => ⟨hq.1, ?_⟩
    rw [hq.2]
    simp
    omega

theorem minDist_gt {ps : List Peak} (hne : ps ≠ []) {mu c : ℝ} : ¬ (minDist ps mu ≤ c) ↔ ∀ p ∈ ps, c < |mu - p.mu0| := by
  unfold minDist
  cases hm : (ps.map fun p => |mu - p.mu0|).min? with
  | none => simp only [List.min?_eq_none_iff, List.map_eq_nil_iff] at hm; exact absurd hm hne
  | some m =>
    rw [List.min?_eq_some_iff] at hm
    simp only [Option.getD_some, not_le]
    obtain ⟨h1, h2⟩ := hm
    constructor
    · intro h p hp
      exact lt_of_lt_of_le h (h2 _ (List.mem_map.2 ⟨p, hp, rfl⟩))
    · intro h
      obtain ⟨p, hp, rfl⟩ := List.mem_map.1 h1
      exact h p hp

theorem samplePosition_spec {rng : CfgRng τ} (hv : rng.Valid) (n : ℕ) {lo hi : ℝ} (h : lo ≤ hi) (ps : List Peak) :
    (samplePosition rng n lo hi ps).Ensures fun mu => (lo ≤ mu ∧ mu ≤ hi) ∧ ∀ p ∈ ps, Apart n lo hi p.mu0 mu := by
  unfold samplePosition
  refine (ensures_uniform hv h).bind fun mu hmu => ?_
  cases ps with
  | nil => exact Proc.ensures_pure ⟨hmu, by simp⟩
  | cons p ps =>
    simp only
    refine (Proc.ensures_while (Q := fun st : ℝ × ℕ => lo ≤ st.1 ∧ st.1 ≤ hi) ?_ hmu).bind fun st hst => ?_
    · intro st _ _
      exact (ensures_uniform hv h).bind fun mu hmu => Proc.ensures_pure hmu
    · refine Proc.ensures_pure ⟨hst.1, ?_⟩
      have h2 := (not_or.1 hst.2).2
      rw [minDist_gt (by simp)] at h2
      intro x hx
      have := h2 x hx
      unfold Apart
      rw [abs_sub_comm, mul_comm]
      exact this

/-- The invariant of the loop over the peaks. -/
structure GenericInv (n : ℕ) (lo hi : ℝ) (ps : List Peak) : Prop where
  kind : ∀ p ∈ ps, p.kind = .lorentzian
  position : ∀ p ∈ ps, lo ≤ p.mu0 ∧ p.mu0 ≤ hi
  width : ∀ p ∈ ps, 0.0009636 ≤ p.width ∧ p.width ≤ 0.0029509
  apart : ps.Pairwise fun a b => Apart n lo hi a.mu0 b.mu0
  height : ∀ p0, ps.head? = some p0 → (0.02245 ≤ p0.height ∧ p0.height ≤ 0.19204) ∧
    ∀ p ∈ ps, 0.8 * p0.height ≤ p.height ∧ p.height ≤ 1.2 * p0.height
  offset : ∀ p0, ps.head? = some p0 → (-0.42275 ≤ p0.offset ∧ p0.offset ≤ -0.0838) ∧
    ∀ p ∈ ps, 1.2 * p0.offset ≤ p.offset ∧ p.offset ≤ 0.8 * p0.offset

theorem mk?_ok {p : Peak} (h : 0 < p.width) : Peak.mk? p = .ok p := by
  unfold Peak.mk?
  rw [if_neg (not_le.2 h)]

theorem sampleGenericPeak_spec {rng : CfgRng τ} (hv : rng.Valid) {q : ℝ} (hq : 0 < q) (n : ℕ) {lo hi : ℝ} (h : lo ≤ hi)
    {ps : List Peak} (inv : GenericInv n lo hi ps) :
    (sampleGenericPeak rng q n lo hi ps).Ensures fun p => GenericInv n lo hi (ps ++ [p]) := by
  unfold sampleGenericPeak
  refine (ensures_uniform hv (by norm_num)).bind fun gamma hgamma => ?_
  have hw : 0 < gamma := by norm_num at hgamma; linarith
  refine (samplePosition_spec hv n h ps).bind fun mu hmu => ?_
  have hap : ∀ c t : ℝ, (ps ++ [(⟨.lorentzian, mu, gamma, t, c⟩ : Peak)]).Pairwise fun a b => Apart n lo hi a.mu0 b.mu0 := by
    intro c t
    rw [List.pairwise_append]
    refine ⟨inv.apart, List.pairwise_singleton _ _, fun a ha b hb => ?_⟩
    rw [List.mem_singleton.1 hb]
    exact hmu.2 a ha
  have hall : ∀ (c t : ℝ), (∀ p ∈ ps ++ [(⟨.lorentzian, mu, gamma, t, c⟩ : Peak)], p.kind = .lorentzian) ∧
      (∀ p ∈ ps ++ [(⟨.lorentzian, mu, gamma, t, c⟩ : Peak)], lo ≤ p.mu0 ∧ p.mu0 ≤ hi) ∧
      (∀ p ∈ ps ++ [(⟨.lorentzian, mu, gamma, t, c⟩ : Peak)], 0.0009636 ≤ p.width ∧ p.width ≤ 0.0029509) := by
    intro c t
    refine ⟨?_, ?_, ?_⟩ <;> intro p hp <;> rcases List.mem_append.1 hp with hp | hp
    · exact inv.kind p hp
    · rw [List.mem_singleton.1 hp]
    · exact inv.position p hp
    · rw [List.mem_singleton.1 hp]; exact hmu.1
    · exact inv.width p hp
    · rw [List.mem_singleton.1 hp]; exact hgamma
  cases ps with
  | nil =>
    simp only
    refine (ensures_uniform hv (by norm_num)).bind fun c hc => ?_
    refine (ensures_sampleExp hv (expScale_nonneg hq.le)).bind fun t ht => ?_
    rw [min_eq_right (by norm_num), max_eq_left (by norm_num)] at ht
    refine ensures_ofPy (mk?_ok hw) ⟨(hall c t).1, (hall c t).2.1, (hall c t).2.2, hap c t, ?_, ?_⟩
    · intro p0 h0
      simp only [List.nil_append, List.head?_cons, Option.some.injEq] at h0
      subst h0
      refine ⟨ht, fun p hp => ?_⟩
      rw [List.nil_append, List.mem_singleton] at hp
      subst hp
      norm_num at ht ⊢
      constructor <;> linarith
    · intro p0 h0
      simp only [List.nil_append, List.head?_cons, Option.some.injEq] at h0
      subst h0
      refine ⟨hc, fun p hp => ?_⟩
      rw [List.nil_append, List.mem_singleton] at hp
      subst hp
      norm_num at hc ⊢
      constructor <;> linarith
  | cons p0 ps =>
    simp only
    obtain ⟨oh, oa⟩ := inv.offset p0 rfl
    obtain ⟨hh, ha⟩ := inv.height p0 rfl
    have oh' := oh
    have hh' := hh
    norm_num at oh' hh'
    refine (ensures_uniform hv (by norm_num; linarith)).bind fun c hc => ?_
    refine (ensures_uniform hv (by norm_num; linarith)).bind fun t ht => ?_
    refine ensures_ofPy (mk?_ok hw) ⟨(hall c t).1, (hall c t).2.1, (hall c t).2.2, hap c t, ?_, ?_⟩
    · intro p1 h0
      simp only [List.cons_append, List.head?_cons, Option.some.injEq] at h0
      subst h0
      refine ⟨hh, fun p hp => ?_⟩
      rcases List.mem_append.1 hp with hp | hp
      · exact ha p hp
      · rw [List.mem_singleton.1 hp]
        exact ⟨by rw [mul_comm]; exact ht.1, by rw [mul_comm]; exact ht.2⟩
    · intro p1 h0
      simp only [List.cons_append, List.head?_cons, Option.some.injEq] at h0
      subst h0
      refine ⟨oh, fun p hp => ?_⟩
      rcases List.mem_append.1 hp with hp | hp
      · exact oa p hp
      · rw [List.mem_singleton.1 hp]
        exact ⟨by rw [mul_comm]; exact hc.1, by rw [mul_comm]; exact hc.2⟩

theorem genericInv_nil (n : ℕ) (lo hi : ℝ) : GenericInv n lo hi [] := by
  refine ⟨by simp, by simp, by simp, List.Pairwise.nil, ?_, ?_⟩ <;> intro p h <;> simp at h

theorem genericPeaks_of_inv {n : ℕ} {lo hi : ℝ} {ps : List Peak} (h : GenericInv n lo hi ps) (hl : ps.length = n) (h3 : 3 ≤ n)
    (h6 : n ≤ 6) : GenericPeaks lo hi ps := by
  subst hl
  obtain ⟨p0, rest, rfl⟩ : ∃ p0 rest, ps = p0 :: rest := by
    cases ps with
    | nil => simp at h3
    | cons a l => exact ⟨a, l, rfl⟩
  obtain ⟨a1, a2⟩ := h.height p0 rfl
  obtain ⟨b1, b2⟩ := h.offset p0 rfl
  exact ⟨⟨h3, h6⟩, h.kind, h.position, h.width, h.apart, ⟨p0.height, a1.1, a1.2, ⟨p0, rfl, rfl⟩, a2⟩,
    ⟨p0.offset, b1.1, b1.2, ⟨p0, rfl, rfl⟩, b2⟩⟩

/-- The two test potentials. -/
theorem testPotential (gate dot : ℝ × ℝ) :
    (⟨none, dot, gate, 0⟩ : SensorGeneric).potential (.d1 2 fun i => if i = 0 then (0, 0) else (5, 5)) (-0.2, -0.06) (-0.2, -0.06) =
      .ok (.d1 2 fun i => if i = 0 then potEmpty gate else potFull gate dot) := by
  unfold SensorGeneric.potential
  simp only
  rw [if_neg (by norm_num)]
  refine congrArg (fun f => Except.ok (Scan.d1 2 f)) (funext fun i => ?_)
  unfold dot2 linspace potEmpty potFull linAt
  fin_cases i
  · norm_num
    ring
  · norm_num
    ring

end SimCATS
