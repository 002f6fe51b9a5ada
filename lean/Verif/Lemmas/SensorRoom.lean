import Verif.Lemmas.ScanSampler
import Verif.Lemmas.SamplerEnds
import Verif.Spec.FairRng
import Mathlib.MeasureTheory.Measure.Lebesgue.Basic
import Mathlib.Data.Rat.Encodable
import Mathlib.Data.Nat.Pairing

/-! Room for the peaks of sampled sensors, and loops of draws that end. -/

namespace SimCATS

open Spec MeasureTheory

variable {τ : Type}

/-! ### Room -/

theorem volume_near_le (ps : List Peak) (c : ℝ) :
    volume {mu : ℝ | ∃ p ∈ ps, |p.mu0 - mu| ≤ c} ≤ ps.length * ENNReal.ofReal (2 * c) := by
  induction ps with
  | nil => simp
  | cons p ps ih =>
    have hs : {mu : ℝ | ∃ q ∈ p :: ps, |q.mu0 - mu| ≤ c} ⊆ Metric.closedBall p.mu0 c ∪ {mu : ℝ | ∃ q ∈ ps, |q.mu0 - mu| ≤ c} := by
      rintro mu ⟨q, hq, h⟩
      rcases List.mem_cons.1 hq with rfl | hq
      · left
        rw [Metric.mem_closedBall, Real.dist_eq, abs_sub_comm]
        exact h
      · exact Or.inr ⟨q, hq, h⟩
    refine (measure_mono hs).trans ((measure_union_le _ _).trans ?_)
    rw [Real.volume_closedBall, List.length_cons]
    push_cast
    rw [add_mul, one_mul, add_comm]
    gcongr

theorem isOpen_far (ps : List Peak) (c : ℝ) : IsOpen {mu : ℝ | ∀ p ∈ ps, c < |p.mu0 - mu|} := by
  induction ps with
  | nil => simp
  | cons p ps ih =>
    have : {mu : ℝ | ∀ q ∈ p :: ps, c < |q.mu0 - mu|} = {mu : ℝ | c < |p.mu0 - mu|} ∩ {mu : ℝ | ∀ q ∈ ps, c < |q.mu0 - mu|} := by
      ext mu
      simp
    rw [this]
    exact (isOpen_lt continuous_const (by fun_prop)).inter ih

/-- As long as fewer than `n` peaks are placed, at least one `n`-th of the range is free. -/
theorem room_volume {n : ℕ} {lo hi : ℝ} (ps : List Peak) (hl : ps.length < n) :
    ENNReal.ofReal ((hi - lo) / n) ≤ volume {mu : ℝ | mu ∈ Set.Ioo lo hi ∧ ∀ p ∈ ps, Apart n lo hi p.mu0 mu} := by
  have hn : (0 : ℝ) < n := by exact_mod_cast (by omega : 0 < n)
  set c := (hi - lo) / (2 * n) with hc
  have e2 : 2 * c = (hi - lo) / n := by rw [hc]; field_simp
  have hcov : Set.Ioo lo hi ⊆ {mu : ℝ | mu ∈ Set.Ioo lo hi ∧ ∀ p ∈ ps, Apart n lo hi p.mu0 mu} ∪
      {mu : ℝ | ∃ p ∈ ps, |p.mu0 - mu| ≤ c} := by
    intro mu hmu
    by_cases hx : ∀ p ∈ ps, Apart n lo hi p.mu0 mu
    · exact Or.inl ⟨hmu, hx⟩
    · push Not at hx
      obtain ⟨p, hp, hx⟩ := hx
      exact Or.inr ⟨p, hp, not_lt.1 hx⟩
  have h1 := (measure_mono hcov).trans ((measure_union_le _ _).trans (add_le_add_right (volume_near_le ps c) _))
  rw [Real.volume_Ioo, e2] at h1
  have h2 : ENNReal.ofReal (hi - lo) = n * ENNReal.ofReal ((hi - lo) / n) := by
    rw [← ENNReal.ofReal_natCast, ← ENNReal.ofReal_mul hn.le]
    congr 1
    field_simp
  have h3 : (ps.length : ENNReal) * ENNReal.ofReal ((hi - lo) / n) + ENNReal.ofReal ((hi - lo) / n) ≤ ENNReal.ofReal (hi - lo) := by
    rw [h2, ← add_one_mul]
    gcongr
    exact_mod_cast (by omega : ps.length + 1 ≤ n)
  have h4 := h3.trans h1
  rw [add_comm] at h4
  exact (ENNReal.add_le_add_iff_right (ENNReal.mul_ne_top (ENNReal.natCast_ne_top _) ENNReal.ofReal_ne_top)).1 h4

/-- There is an interval of free positions. -/
theorem room_interval {n : ℕ} {lo hi : ℝ} (h : lo < hi) (ps : List Peak) (hl : ps.length < n) :
    ∃ c d, lo ≤ c ∧ c < d ∧ d ≤ hi ∧ ∀ mu ∈ Set.Ioo c d, ∀ p ∈ ps, Apart n lo hi p.mu0 mu := by
  have hn : (0 : ℝ) < n := by exact_mod_cast (by omega : 0 < n)
  have hv := room_volume (lo := lo) (hi := hi) ps hl
  have hpos : 0 < volume {mu : ℝ | mu ∈ Set.Ioo lo hi ∧ ∀ p ∈ ps, Apart n lo hi p.mu0 mu} :=
    lt_of_lt_of_le (ENNReal.ofReal_pos.2 (div_pos (sub_pos.2 h) hn)) hv
  obtain ⟨x, hx, hfar⟩ := nonempty_of_measure_ne_zero hpos.ne'
  have ho := isOpen_far ps ((hi - lo) / (2 * n))
  obtain ⟨e, he, hball⟩ := Metric.isOpen_iff.1 ho x hfar
  refine ⟨max lo (x - e), min hi (x + e), le_max_left _ _, ?_, min_le_left _ _, ?_⟩
  · exact max_lt (lt_min h (by linarith [hx.1])) (lt_min (by linarith [hx.2]) (by linarith))
  · intro mu hmu p hp
    refine hball ?_ p hp
    rw [Metric.mem_ball, Real.dist_eq, abs_lt]
    constructor
    · linarith [(max_lt_iff.1 hmu.1).2]
    · linarith [(lt_min_iff.1 hmu.2).2]

/-! ### Loops that end -/

theorem redraw_ends {draw : M τ ℝ} {accept : ℝ → Prop} {A : Set ℝ} (hA : ∀ v ∈ A, accept v) {s : τ} (h : Reaches draw A s) :
    ∃ r, Redraw draw accept s r := by
  induction h with
  | now e hv => exact ⟨_, .stop e (hA _ hv)⟩
  | @later s v s' e _ ih =>
    by_cases ha : accept v
    · exact ⟨_, .stop e ha⟩
    · obtain ⟨r, hr⟩ := ih
      exact ⟨r, .again e ha hr⟩

theorem sample_ends {mk : M τ (Sampler τ)} {d : Sampler τ} (hm : ∀ s, mk s = (.ok d, s))
    (hd : ∀ s, ∃ r, Redraw d.draw d.accept s r) : (Proc.sample mk).Ends := by
  intro s
  obtain ⟨⟨x, t⟩, hr⟩ := hd s
  cases x with
  | ok v => exact ⟨(.ok v, t), Or.inl ⟨d, s, hm s, some v, .ok hr⟩⟩
  | error e => exact ⟨(.error e, t), Or.inl ⟨d, s, hm s, none, .error hr⟩⟩

theorem sampleUniform_ends (rng : CfgRng τ) (range : ℝ × ℝ) : (sampleUniform rng range).Ends := fun _ =>
  ⟨_, sampleUniform_iff.2 rfl⟩

theorem sampleNormal_ends' {rng : CfgRng τ} (hn : ∀ m std c d s, 0 < std → c < d → Reaches (rng.normal m std) (Set.Ioo c d) s) {a b std : ℝ} (mean : ℝ) (h : a < b) (hs : 0 < std) :
    (sampleNormal rng (a, b) std mean).Ends := by
  refine sample_ends (d := ⟨(a, b), rng.normal mean std, fun v => ¬ (v < a ∨ b < v)⟩) (fun s => rfl) fun s => ?_
  refine redraw_ends (A := Set.Ioo a b) (fun v hv => ?_) (hn mean std a b s hs h)
  rintro (h | h)
  · exact absurd hv.1 (not_lt.2 h.le)
  · exact absurd hv.2 (not_lt.2 h.le)

theorem sampleAbove_ends' {rng : CfgRng τ} (hn : ∀ m std c d s, 0 < std → c < d → Reaches (rng.normal m std) (Set.Ioo c d) s) (a : ℝ) {std : ℝ} (mean : ℝ) (hs : 0 < std) :
    (sampleAbove rng a std mean).Ends := by
  intro s
  exact redraw_ends (A := Set.Ioo a (a + 1)) (fun v hv => not_lt.2 hv.1.le) (hn mean std a (a + 1) s hs (by linarith))

theorem sampleNormal_ends {rng : CfgRng τ} (hf : FairRng rng) {a b std : ℝ} (mean : ℝ) (h : a < b) (hs : 0 < std) :
    (sampleNormal rng (a, b) std mean).Ends := sampleNormal_ends' hf.normal mean h hs

theorem sampleAbove_ends {rng : CfgRng τ} (hf : FairRng rng) (a : ℝ) {std : ℝ} (mean : ℝ) (hs : 0 < std) :
    (sampleAbove rng a std mean).Ends := sampleAbove_ends' hf.normal a mean hs

theorem expScale_pos {q : ℝ} (h : 0 < q) : 0 < expScale q := by
  unfold expScale
  refine div_pos (by positivity) (Real.log_pos ?_)
  norm_num

theorem reaches_map {draw : M τ ℝ} {f : ℝ → ℝ} {A B : Set ℝ} (hf : ∀ v ∈ A, f v ∈ B) {s : τ} (h : Reaches draw A s) :
    Reaches (do let v ← draw; pure (f v)) B s := by
  induction h with
  | now e hv => exact .now (M.bind_ok.2 ⟨_, _, e, rfl⟩) (hf _ hv)
  | later e _ ih => exact .later (M.bind_ok.2 ⟨_, _, e, rfl⟩) ih

theorem sampleExp_ends {rng : CfgRng τ} (hf : FairRng rng) (a b : ℝ) {scale : ℝ} (h : 0 < scale) :
    (Proc.sample (exponentialSampler rng.toDrawRng (a, b) scale none)).Ends := by
  refine sample_ends (d := ⟨(a, b), do
    let e ← rng.exponential scale
    pure (a + e * (b - a)), fun v => ¬ (v < min a b ∨ max a b < v)⟩) (fun s => rfl) fun s => ?_
  refine redraw_ends (A := Set.Icc (min a b) (max a b)) (fun v hv => ?_)
    (reaches_map (A := Set.Ioo 0 1) ?_ (hf.exponential scale 0 1 s h le_rfl one_pos))
  · rintro (h | h)
    · exact absurd hv.1 (not_le.2 h)
    · exact absurd hv.2 (not_le.2 h)
  · rintro v ⟨v0, v1⟩
    rcases le_total a b with hab | hab
    · rw [min_eq_left hab, max_eq_right hab]
      constructor <;> nlinarith
    · rw [min_eq_right hab, max_eq_left hab]
      constructor <;> nlinarith

/-- The search for a position ends. -/
theorem samplePosition_ends {rng : CfgRng τ} (hv : rng.Valid) (hf : FairRng rng) {n : ℕ} {lo hi : ℝ} (h : lo < hi) (ps : List Peak)
    (hl : ps.length < n) : (samplePosition rng n lo hi ps).Ends := by
  unfold samplePosition
  refine (Proc.ends_call _).bind (ensures_uniform hv h.le) fun mu hmu => ?_
  cases ps with
  | nil => exact Proc.ends_pure _
  | cons p ps =>
    simp only
    set qs := p :: ps with hqs
    set body : ℝ × ℕ → Proc τ (ℝ × ℕ) := fun st => do
      let mu ← Proc.call (rng.uniform lo hi)
      pure (mu, st.2 + 1) with hbody
    obtain ⟨c, d, hc, hcd, hd, hfree⟩ := room_interval h qs hl
    have hgood : ∀ (mu : ℝ) (k : ℕ), mu ∈ Set.Ioo c d → 1000 ≤ k → placed n lo hi qs (mu, k) := by
      intro mu k hmu hk hx
      rcases hx with ⟨-, hx⟩ | hx
      · exact absurd hk (by simp only at hx; omega)
      · refine absurd hx ((minDist_gt (by rw [hqs]; simp)).2 fun q hq => ?_)
        have := hfree mu hmu q hq
        unfold Apart at this
        rw [mul_comm (n : ℝ), abs_sub_comm]
        exact this
    have hstep : ∀ (st : ℝ × ℕ) (s s' : τ) (v : ℝ), rng.uniform lo hi s = (.ok v, s') → body st s (.ok (v, st.2 + 1), s') :=
      fun st s s' v e => Or.inl ⟨v, s', e, rfl⟩
    have late : ∀ s, Reaches (rng.uniform lo hi) (Set.Ioo c d) s → ∀ st : ℝ × ℕ, 1000 ≤ st.2 →
        ∃ r, Proc.While (placed n lo hi qs) body st s r := by
      intro s hs
      induction hs with
      | @now s v s' e hv =>
        intro st hst
        by_cases hg : placed n lo hi qs st
        · exact ⟨_, .stop hg⟩
        · exact ⟨_, .again hg (hstep st _ _ _ e) (.stop (hgood v _ hv (by omega)))⟩
      | @later s v s' e _ ih =>
        intro st hst
        by_cases hg : placed n lo hi qs st
        · exact ⟨_, .stop hg⟩
        · obtain ⟨r, hr⟩ := ih (v, st.2 + 1) (by simp only; omega)
          exact ⟨r, .again hg (hstep st _ _ _ e) hr⟩
    have early : ∀ (k : ℕ) (st : ℝ × ℕ) (s : τ), 1000 ≤ st.2 + k → ∃ r, Proc.While (placed n lo hi qs) body st s r := by
      intro k
      induction k with
      | zero => intro st s hk; exact late s (hf.uniform _ _ _ _ _ hc hcd hd) st (by omega)
      | succ k ih =>
        intro st s hk
        by_cases hg : placed n lo hi qs st
        · exact ⟨_, .stop hg⟩
        · obtain ⟨v, s', e⟩ := hv.uniform_ok lo hi s h.le
          obtain ⟨r, hr⟩ := ih (v, st.2 + 1) s' (by simp only; omega)
          exact ⟨r, .again hg (hstep st _ _ _ e) hr⟩
    refine Proc.Ends.bind (Q := fun _ => True) (fun s => early 1000 (mu, 0) s (by simp)) ?_ fun st _ => Proc.ends_pure _
    refine (Proc.ensures_while (Q := fun _ => True) ?_ trivial).mono fun _ _ => trivial
    intro st _ _
    exact (ensures_uniform hv h.le).bind fun _ _ => Proc.ensures_pure trivial

theorem ends_ofPy {α : Type} (x : Py α) : (Proc.ofPy x : Proc τ α).Ends := fun s => ⟨(x, s), rfl⟩

theorem peakLoop_ends {add : List Peak → Proc τ Peak} {Inv : List Peak → Prop} {n : ℕ}
    (h : ∀ ps, Inv ps → ps.length < n → (add ps).Ensures fun p => Inv (ps ++ [p]))
    (he : ∀ ps, Inv ps → ps.length < n → (add ps).Ends) :
    ∀ (m : ℕ) (ps : List Peak), Inv ps → ps.length + m ≤ n → (peakLoop add m ps).Ends := by
  intro m
  induction m with
  | zero => intro ps _ _; exact Proc.ends_pure _
  | succ m ih =>
    intro ps hi hl
    exact (he ps hi (by omega)).bind (h ps hi (by omega)) fun p hp => ih (ps ++ [p]) hp (by simp; omega)

theorem sampleGenericPeak_ends {rng : CfgRng τ} (hv : rng.Valid) (hf : FairRng rng) {q : ℝ} (hq : 0 < q) {n : ℕ} {lo hi : ℝ}
    (h : lo < hi) {ps : List Peak} (inv : GenericInv n lo hi ps) (hl : ps.length < n) : (sampleGenericPeak rng q n lo hi ps).Ends := by
  unfold sampleGenericPeak
  refine (Proc.ends_call _).bind (ensures_uniform hv (by norm_num)) fun gamma _ => ?_
  refine (samplePosition_ends hv hf h ps hl).bind (samplePosition_spec hv n h.le ps) fun mu _ => ?_
  cases ps with
  | nil =>
    simp only
    refine (Proc.ends_call _).bind (ensures_uniform hv (by norm_num)) fun c _ => ?_
    exact (sampleExp_ends hf _ _ (expScale_pos hq)).bind (ensures_sampleExp hv (expScale_nonneg hq.le)) fun _ _ => ends_ofPy _
  | cons p0 ps =>
    simp only
    have oh := (inv.offset p0 rfl).1
    have hh := (inv.height p0 rfl).1
    norm_num at oh hh
    refine (Proc.ends_call _).bind (ensures_uniform hv (by norm_num; linarith)) fun c _ => ?_
    exact (Proc.ends_call _).bind (ensures_uniform hv (by norm_num; linarith)) fun _ _ => ends_ofPy _

theorem sampleAlphas_ends (rng : CfgRng τ) (q : ℝ) (comp : Bool) :
    (sampleAlphas rng q comp).Ends := by
  unfold sampleAlphas
  have ends' : ∀ (α β : Type) (m : M τ α) (f : α → Proc τ β), (∀ a, (f a).Ends) → (Proc.call m >>= f).Ends := by
    intro α β m f hf s
    cases hm : m s with
    | mk x s' =>
      cases x with
      | ok a =>
        obtain ⟨r, hr⟩ := hf a s'
        exact ⟨r, Or.inl ⟨a, s', hm, hr⟩⟩
      | error e => exact ⟨_, Or.inr ⟨e, s', hm, rfl⟩⟩
  exact ends' _ _ _ _ fun _ => ends' _ _ _ _ fun _ => ends' _ _ _ _ fun _ => ends' _ _ _ _ fun _ => Proc.ends_pure _

theorem Proc.Ends.bind' {α β : Type} {x : Proc τ α} {f : α → Proc τ β} (hx : x.Ends) (hf : ∀ a, (f a).Ends) : (x >>= f).Ends := by
  intro s
  obtain ⟨⟨y, s'⟩, hr⟩ := hx s
  cases y with
  | ok a =>
    obtain ⟨r', hr'⟩ := hf a s'
    exact ⟨r', Or.inl ⟨a, s', hr, hr'⟩⟩
  | error e => exact ⟨_, Or.inr ⟨e, s', hr, rfl⟩⟩

/-- Sampling a sensor scan sensor ends if the normal draws reach all intervals. -/
theorem scanSensor_ends {rng : CfgRng τ} (hn : ∀ m std c d s, 0 < std → c < d → Reaches (rng.normal m std) (Set.Ioo c d) s)
    (q : ℝ) (comp : Bool) (s : τ) : ∃ r, sampleScanSensor rng q comp s r := by
  have hbar : ∀ o h p f, (sampleBarrier rng o h q p f).Ends := fun o h p f =>
    (sampleUniform_ends rng _).bind' fun _ => (sampleUniform_ends rng _).bind' fun _ => (sampleUniform_ends rng _).bind' fun _ =>
      ends_ofPy _
  have hnext : ∀ base ps, (nextPeak rng base ps).Ends := by
    intro base ps
    match ps with
    | [] => exact (sampleAbove_ends' hn _ _ (by norm_num)).bind' fun _ => Proc.ends_pure _
    | [_] =>
      exact (sampleNormal_ends' hn _ (by norm_num) (by norm_num)).bind' fun _ =>
        (sampleNormal_ends' hn _ (by norm_num) (by norm_num)).bind' fun _ => Proc.ends_pure _
    | p0 :: p1 :: rest =>
      refine (sampleNormal_ends' hn _ (by norm_num) (by norm_num)).bind' fun _ =>
        (sampleNormal_ends' hn _ (by norm_num) (by norm_num)).bind' fun g => Proc.Ends.bind' ?_ fun _ => Proc.ends_pure _
      split_ifs
      · exact sampleUniform_ends rng _
      · exact Proc.ends_pure _
  have hadd : ∀ ref base ps, (addScanPeak rng ref base ps).Ends := fun ref base ps =>
    (hnext base ps).bind' fun _ => (sampleAbove_ends' hn _ _ (by norm_num)).bind' fun _ => ends_ofPy _
  have hloop : ∀ (ref base : ℝ) (m : ℕ) (ps : List Peak), (peakLoop (addScanPeak rng ref base) m ps).Ends := by
    intro ref base m
    induction m with
    | zero => intro ps; exact Proc.ends_pure _
    | succ m ih => intro ps; exact (hadd ref base ps).bind' fun _ => ih _
  have hfun : ∀ o, (sampleSensorFunction rng o q).Ends := fun o =>
    (sampleNormal_ends' hn _ (by norm_num) (by norm_num)).bind' fun _ => (sampleUniform_ends rng _).bind' fun _ =>
      (hloop _ _ _ _).bind' fun _ => (sampleUniform_ends rng _).bind' fun _ => (sampleUniform_ends rng _).bind' fun _ =>
        (sampleUniform_ends rng _).bind' fun _ => (ends_ofPy _).bind' fun _ => Proc.ends_pure _
  have : (sampleScanSensor rng q comp).Ends := by
    unfold sampleScanSensor
    exact (sampleNormal_ends' hn _ (by norm_num) (by norm_num)).bind' fun _ => (ends_ofPy _).bind' fun _ =>
      (sampleUniform_ends rng _).bind' fun _ => (sampleUniform_ends rng _).bind' fun _ => (sampleAlphas_ends rng q comp).bind' fun _ =>
      (sampleUniform_ends rng _).bind' fun _ => (sampleUniform_ends rng _).bind' fun _ => (hfun _).bind' fun _ =>
      (hbar _ _ _ _).bind' fun _ => (hbar _ _ _ _).bind' fun _ => Proc.ends_pure _
  exact this s

/-- The greatest value of a non-empty array has a first index. -/
theorem argmax_exists {n : ℕ} (y : Fin (n + 1) → ℝ) : ∃ i, IsArgmax y i := by
  obtain ⟨m, -, hm⟩ := Finset.exists_max_image Finset.univ y ⟨0, Finset.mem_univ 0⟩
  obtain ⟨i, hi, hmin⟩ := Finset.exists_min_image (Finset.univ.filter fun j => y j = y m) id ⟨m, by simp⟩
  rw [Finset.mem_filter] at hi
  refine ⟨i, fun j => by rw [hi.2]; exact hm j (Finset.mem_univ j), fun j hj => ?_⟩
  refine lt_of_le_of_ne (by rw [hi.2]; exact hm j (Finset.mem_univ j)) fun e => ?_
  have := hmin j (by rw [Finset.mem_filter]; exact ⟨Finset.mem_univ j, by rw [e, hi.2]⟩)
  exact absurd hj (not_lt.2 this)

/-! ### A fair generator -/

/-- A sequence of rational numbers, in blocks of four numbers: every block occurs infinitely often. -/
noncomputable def ratAt (k : ℕ) : ℝ :=
  ((((Encodable.decode (k / 4).unpair.1 : Option (List ℚ)).getD []).getD (k % 4) 0 : ℚ) : ℝ)

theorem ratAt_block (l : List ℚ) (s i : ℕ) (hi : i < 4) : ratAt (4 * Nat.pair (Encodable.encode l) s + i) = (l.getD i 0 : ℚ) := by
  unfold ratAt
  rw [show (4 * Nat.pair (Encodable.encode l) s + i) / 4 = Nat.pair (Encodable.encode l) s by omega,
    show (4 * Nat.pair (Encodable.encode l) s + i) % 4 = i by omega]
  simp

theorem ratAt_later (q : ℚ) (s : ℕ) : ∃ k, s ≤ k ∧ ratAt k = q := by
  refine ⟨4 * Nat.pair (Encodable.encode [q]) s + 0, ?_, ?_⟩
  · have := Nat.right_le_pair (Encodable.encode [q]) s
    omega
  · rw [ratAt_block _ _ _ (by norm_num)]
    rfl

/-- Every pair occurs after an even number of draws. -/
theorem ratAt_pair (q q' : ℚ) (s : ℕ) : ∃ d, ratAt (s + 2 * d) = q ∧ ratAt (s + 2 * d + 1) = q' := by
  rcases Nat.even_or_odd' s with ⟨t, rfl | rfl⟩
  · have := Nat.right_le_pair (Encodable.encode [q, q']) (2 * t)
    refine ⟨2 * Nat.pair (Encodable.encode [q, q']) (2 * t) - t, ?_, ?_⟩
    · rw [show 2 * t + 2 * (2 * Nat.pair (Encodable.encode [q, q']) (2 * t) - t) =
        4 * Nat.pair (Encodable.encode [q, q']) (2 * t) + 0 by omega, ratAt_block _ _ _ (by norm_num)]
      rfl
    · rw [show 2 * t + 2 * (2 * Nat.pair (Encodable.encode [q, q']) (2 * t) - t) + 1 =
        4 * Nat.pair (Encodable.encode [q, q']) (2 * t) + 1 by omega, ratAt_block _ _ _ (by norm_num)]
      rfl
  · have := Nat.right_le_pair (Encodable.encode [0, q, q']) (2 * t)
    refine ⟨2 * Nat.pair (Encodable.encode [0, q, q']) (2 * t) - t, ?_, ?_⟩
    · rw [show 2 * t + 1 + 2 * (2 * Nat.pair (Encodable.encode [0, q, q']) (2 * t) - t) =
        4 * Nat.pair (Encodable.encode [0, q, q']) (2 * t) + 1 by omega, ratAt_block _ _ _ (by norm_num)]
      rfl
    · rw [show 2 * t + 1 + 2 * (2 * Nat.pair (Encodable.encode [0, q, q']) (2 * t) - t) + 1 =
        4 * Nat.pair (Encodable.encode [0, q, q']) (2 * t) + 2 by omega, ratAt_block _ _ _ (by norm_num)]
      rfl

/-- A generator that returns all rational numbers of the interval, one after the other. -/
noncomputable def fairRng : CfgRng ℕ where
  uniform a b := fun k => open Classical in if a ≤ b then (.ok (max a (min b (ratAt k))), k + 1) else (.error .valueError, k)
  normal _ _ := fun k => open Classical in (.ok (if ratAt k = 0 then 1 else ratAt k), k + 1)
  lognormal m _ := fun k => (.ok (Real.exp m), k)
  exponential _ := fun k => (.ok |ratAt k|, k + 1)
  choice _ b := fun k => (.ok b, k + 1)

theorem fairRng_valid : fairRng.Valid where
  draws := by
    refine ⟨?_, ?_, ?_⟩
    · intro a b s v s' hab h
      simp only [fairRng, if_pos hab] at h
      cases h
      exact ⟨le_max_left _ _, max_le hab (min_le_left _ _)⟩
    · intro m d s v s' h
      simp only [fairRng] at h
      cases h
      exact Real.exp_pos _
    · intro c s v s' h
      simp only [fairRng] at h
      cases h
      exact abs_nonneg _
  uniform_ok a b s h := ⟨_, _, if_pos h⟩
  uniform_error a b s h := ⟨s, if_neg (not_le.2 h)⟩
  normal_ok _ _ s _ := ⟨_, _, rfl⟩
  exponential_ok _ s _ := ⟨_, _, rfl⟩
  choice_ok _ b s h := ⟨b, s + 1, rfl, h, le_rfl⟩

theorem fairRng_nonzero : fairRng.NormalNonzero := by
  intro m d s v s' h
  simp only [fairRng] at h
  cases h
  split_ifs with h
  · exact one_ne_zero
  · exact h

theorem reaches_of_later {draw : M ℕ ℝ} {A : Set ℝ} {f : ℕ → ℝ} (hd : ∀ k, draw k = (.ok (f k), k + 1)) {s k : ℕ} (hk : s ≤ k)
    (hA : f k ∈ A) : Reaches draw A s := by
  obtain ⟨d, rfl⟩ := Nat.exists_eq_add_of_le hk
  clear hk
  induction d generalizing s with
  | zero => exact .now (hd s) hA
  | succ d ih => exact .later (hd s) (ih (s := s + 1) (by rw [show s + 1 + d = s + (d + 1) by omega]; exact hA))

theorem fairRng_fair : FairRng fairRng where
  uniform a b c d s h1 h2 h3 := by
    obtain ⟨q, q1, q2⟩ := exists_rat_btwn h2
    obtain ⟨k, hk, e⟩ := ratAt_later q s
    refine reaches_of_later (f := fun k => max a (min b (ratAt k))) (fun k => if_pos (by linarith)) hk ?_
    simp only [e]
    rw [min_eq_right (by linarith), max_eq_right (by linarith)]
    exact ⟨q1, q2⟩
  pair a b a' b' c d c' d' s h1 h2 h3 h1' h2' h3' := by
    obtain ⟨q, q1, q2⟩ := exists_rat_btwn h2
    obtain ⟨q', q1', q2'⟩ := exists_rat_btwn h2'
    obtain ⟨j, e, e'⟩ := ratAt_pair q q' s
    have step : ∀ k, (do let x ← fairRng.uniform a b; let y ← fairRng.uniform a' b'; pure (x, y) : M ℕ (ℝ × ℝ)) k =
        (.ok (max a (min b (ratAt k)), max a' (min b' (ratAt (k + 1)))), k + 2) := fun k =>
      M.bind_ok.2 ⟨_, _, if_pos (by linarith), M.bind_ok.2 ⟨_, _, if_pos (by linarith), rfl⟩⟩
    induction j generalizing s with
    | zero =>
      refine .now (step s) ?_
      rw [show s + 2 * 0 + 1 = s + 1 by rfl] at e'
      rw [show s + 2 * 0 = s by rfl] at e
      rw [e, e', min_eq_right (by linarith), max_eq_right (by linarith), min_eq_right (by linarith), max_eq_right (by linarith)]
      exact ⟨⟨q1, q2⟩, ⟨q1', q2'⟩⟩
    | succ j ih =>
      exact .later (step s) (ih (s + 2) (by rw [← e]; congr 1; omega) (by rw [← e']; congr 1; omega))
  normal m std c d s _ h := by
    obtain ⟨q, hq, q1, q2⟩ : ∃ q : ℚ, (q : ℝ) ≠ 0 ∧ c < q ∧ q < d := by
      obtain ⟨q, q1, q2⟩ := exists_rat_btwn h
      by_cases h0 : (q : ℝ) = 0
      · obtain ⟨p, p1, p2⟩ := exists_rat_btwn q2
        exact ⟨p, by rw [h0] at p1; exact p1.ne', q1.trans p1, p2⟩
      · exact ⟨q, h0, q1, q2⟩
    obtain ⟨k, hk, e⟩ := ratAt_later q s
    refine reaches_of_later (f := fun k => open Classical in if ratAt k = 0 then 1 else ratAt k) (fun k => rfl) hk ?_
    simp only [e]
    rw [if_neg hq]
    exact ⟨q1, q2⟩
  exponential scale c d s _ h0 h := by
    obtain ⟨q, q1, q2⟩ := exists_rat_btwn h
    obtain ⟨k, hk, e⟩ := ratAt_later q s
    refine reaches_of_later (f := fun k => |ratAt k|) (fun k => rfl) hk ?_
    simp only [e]
    rw [abs_of_nonneg (by linarith)]
    exact ⟨q1, q2⟩

end SimCATS
