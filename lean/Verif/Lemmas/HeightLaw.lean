import Verif.Spec.HeightLaw
import Verif.Lemmas.TelegraphLaw
import Verif.Props.DotJumps
import Verif.Lemmas.Relate

/-!
The heights of dot jumps and telegraph noise.
-/

namespace SimCATS

open Spec MeasureTheory ProbabilityTheory

variable {τ α : Type}

/-- The noise that the loop computes: block `b` has the height of draw `b` if `b` is odd. -/
theorem burst_heights [Semiring α] (amp : M τ α) (size : ℕ) (w : ℕ → ℕ) (hw : ∀ i < size, 1 ≤ w i) (st : ℕ → τ) (h : ℕ → α)
    (hst : ∀ b, amp (st b) = (.ok (h b), st (b + 1))) : ∀ (todo i bi : ℕ) (noise : List α) (out : List α) (s' : τ), todo + i = size → bi = i % 2 →
      (∀ b < i, ∀ p, blockStart w b ≤ p → p < blockStart w (b + 1) → noise[p]? = some (if Odd b then h b else 0)) → noise.length = blockStart w i →
      burstLoop amp size w todo i bi noise (st i) = (.ok out, s') →
      size ≤ out.length ∧ ∃ n ≤ size, out.length = blockStart w n ∧
        ∀ b < n, ∀ p, blockStart w b ≤ p → p < blockStart w (b + 1) → out[p]? = some (if Odd b then h b else 0) := by
  intro todo
  induction todo with
  | zero =>
    intro i bi noise out s' hi hbi hb hlen hrun
    simp only [burstLoop, M.pure_run, Prod.mk.injEq, Except.ok.injEq] at hrun
    obtain ⟨rfl, rfl⟩ := hrun
    refine ⟨?_, i, by omega, hlen, hb⟩
    rw [hlen]
    have := blockStart_ge w size hw i (by omega)
    omega
  | succ todo ih =>
    intro i bi noise out s' hi hbi hb hlen hrun
    have hwi : 0 < w i := hw i (by omega)
    simp only [burstLoop, if_pos hwi] at hrun
    rw [M.bind_run, hst i] at hrun
    dsimp only at hrun
    have hlen' : (noise ++ List.replicate (w i) ((bi : α) * h i)).length = blockStart w (i + 1) := by
      rw [List.length_append, List.length_replicate, hlen]
      rfl
    have hb' : ∀ b < i + 1, ∀ p, blockStart w b ≤ p → p < blockStart w (b + 1) →
        (noise ++ List.replicate (w i) ((bi : α) * h i))[p]? = some (if Odd b then h b else 0) := by
      intro b hbi' p h1 h2
      rcases Nat.lt_succ_iff_lt_or_eq.1 hbi' with hlt | rfl
      · have h3 := blockStart_mono w (show b + 1 ≤ i from hlt)
        rw [List.getElem?_append_left (by omega)]
        exact hb b hlt p h1 h2
      · have h4 : p < (noise ++ List.replicate (w b) ((bi : α) * h b)).length := by rw [hlen']; exact h2
        rw [List.getElem?_append_right (by omega), List.getElem?_replicate]
        have h5 : p - noise.length < w b := by
          have : blockStart w (b + 1) = blockStart w b + w b := rfl
          omega
        rw [if_pos h5]
        congr 1
        subst hbi
        rcases Nat.even_or_odd b with he | he
        · rw [if_neg (Nat.not_odd_iff_even.2 he), Nat.even_iff.1 he]
          simp
        · rw [if_pos he, Nat.odd_iff.1 he]
          simp
    split at hrun
    · rename_i hsz
      simp only [M.pure_run, Prod.mk.injEq, Except.ok.injEq] at hrun
      obtain ⟨rfl, rfl⟩ := hrun
      exact ⟨hsz, i + 1, by omega, hlen', hb'⟩
    · refine ih (i + 1) _ _ _ _ (by omega) ?_ hb' hlen' hrun
      subst hbi
      split <;> omega

theorem blockStart_block {w : ℕ → ℕ} {n k : ℕ} (h : k < blockStart w n) : ∃ b < n, blockStart w b ≤ k ∧ k < blockStart w (b + 1) := by
  induction n with
  | zero => exact absurd h (Nat.not_lt_zero _)
  | succ n ih =>
    rcases lt_or_ge k (blockStart w n) with h1 | h1
    · obtain ⟨b, hb, h2⟩ := ih h1
      exact ⟨b, by omega, h2⟩
    · exact ⟨n, by omega, h1, h⟩

/-- The noise as a function of the draws. -/
def heightSignal (w : ℕ → ℕ) (h : ℕ → α) (v : ℕ → α) (zero : α) (n : ℕ) : Prop :=
  ∀ k < n, ∃ b < n, blockStart w b ≤ k ∧ k < blockStart w (b + 1) ∧ v k = open Classical in if Odd b then h b else zero

theorem burst_signal [Semiring α] {amp : M τ α} {size : ℕ} {w : ℕ → ℕ} (hw : ∀ i < size, 1 ≤ w i) {s s' : τ} {h : ℕ → α} (hd : DrawsInTurn amp s h)
    {out : List α} (hrun : burstLoop amp size w size 0 0 [] s = (.ok out, s')) :
    heightSignal w h (fun k => (out.take size).getD k 0) 0 size := by
  obtain ⟨st, rfl, hst⟩ := hd
  obtain ⟨h1, n, hn, h2, h3⟩ := burst_heights amp size w hw st h hst size 0 0 [] out s' (by omega) rfl (by omega) rfl hrun
  intro k hk
  obtain ⟨b, hb, h4, h5⟩ := blockStart_block (show k < blockStart w n by omega)
  refine ⟨b, by omega, h4, h5, ?_⟩
  have := h3 b hb k h4 h5
  show (out.take size).getD k 0 = _
  rw [List.getD_eq_getElem?_getD, List.getElem?_take, if_pos hk, this]
  split_ifs <;> rfl

/-! ### The probability of a plateau -/

section law

variable {Ω : Type} [MeasurableSpace Ω] {P : Measure Ω} [IsProbabilityMeasure P] [MeasurableSpace α] {n : ℕ} {W : Fin n → Ω → ℕ} {H : ℕ → Ω → α} {p : ℝ}

/-- A plateau at a value other than zero is part of one burst. -/
theorem plateau_iff {zero : α} {w : ℕ → ℕ} (hw : ∀ i < n, 1 ≤ w i) {h v : ℕ → α} (hv : heightSignal w h v zero n) {k l : ℕ} (hk : k + l < n) {B : Set α} (h0 : zero ∉ B) :
    Plateau v k l B ↔ ∃ b < n, (Odd b ∧ blockStart w b ≤ k ∧ k + l < blockStart w (b + 1)) ∧ h b ∈ B := by
  constructor
  · rintro ⟨h1, h2⟩
    obtain ⟨b, hb, h3, h4, h5⟩ := hv k (by omega)
    have ho : Odd b := by
      by_contra hc
      rw [if_neg hc] at h5
      rw [h5] at h1
      exact h0 h1
    rw [if_pos ho] at h5
    refine ⟨b, hb, ⟨ho, h3, ?_⟩, h5 ▸ h1⟩
    by_contra hlt
    -- the first pixel behind the block has the value zero
    have h6 : blockStart w (b + 1) < n := by omega
    obtain ⟨j, hj⟩ : ∃ j, blockStart w (b + 1) = k + j := ⟨blockStart w (b + 1) - k, by omega⟩
    obtain ⟨b', hb', h7, h8, h9⟩ := hv (blockStart w (b + 1)) h6
    have hlt' : ¬ b' ≤ b := fun hc => absurd (blockStart_mono w (show b' + 1 ≤ b + 1 by omega)) (by omega)
    have hz : v (blockStart w (b + 1)) = v k := by
      rw [hj]
      exact h2 j (by omega)
    have hle : b' ≤ b + 1 := by
      by_contra hc
      have h10 := blockStart_mono w (show b + 1 + 1 ≤ b' by omega)
      have h11 : blockStart w (b + 1 + 1) = blockStart w (b + 1) + w (b + 1) := rfl
      have := hw (b + 1) (by omega)
      omega
    obtain rfl : b' = b + 1 := by omega
    rw [if_neg (Nat.not_odd_iff_even.2 ho.add_one), hz] at h9
    rw [h9] at h1
    exact h0 h1
  · rintro ⟨b, hb, ⟨ho, h1, h2⟩, h3⟩
    have : ∀ j ≤ l, v (k + j) = h b := by
      intro j hj
      obtain ⟨b', -, h4, h5, h6⟩ := hv (k + j) (by omega)
      obtain rfl : b' = b := block_unique h4 h5 (by omega) (by omega)
      rw [h6, if_pos ho]
    have e : v k = h b := this 0 (Nat.zero_le _)
    exact ⟨e ▸ h3, fun j hj => (this j hj).trans e.symm⟩

/-- The states of the pixels as a signal. -/
theorem colour_signal (h1 : ∀ i ω, 1 ≤ W i ω) (ω : Ω) : heightSignal (allLengths W ω) (fun _ => true) (fun k => colour W k ω) false n := by
  have hpos : ∀ i < n, 1 ≤ allLengths W ω i := by
    intro i hi
    rw [allLengths, dif_pos hi]
    exact h1 _ _
  intro k hk
  obtain ⟨b, hb, h2, h3⟩ := blockStart_block (lt_of_lt_of_le hk (blockStart_ge (allLengths W ω) n hpos n le_rfl))
  refine ⟨b, hb, h2, h3, ?_⟩
  have : colour W k ω = true ↔ Odd b := colour_iff.trans (oddBlock_iff h2 h3)
  split_ifs with ho
  · exact this.2 ho
  · exact Bool.eq_false_iff.2 fun hc => ho (this.1 hc)

theorem plateau_law (hW : ∀ i, Measurable (W i)) (h1 : ∀ i ω, 1 ≤ W i ω) (hi : iIndepFun W P) (hg : ∀ i g, P.real {ω | W i ω = g + 1} = (1 - p) ^ g * p)
    (hH : ∀ b, Measurable (H b)) (hWH : IndepFun (fun s i => W i s) (fun s b => H b s) P) {Q : Measure α} (hQ : ∀ b, P.map (H b) = Q) {zero : α}
    {v : Ω → ℕ → α} (hv : ∀ ω, heightSignal (allLengths W ω) (fun b => H b ω) (v ω) zero n) {k l : ℕ} (hk : k + l < n) {B : Set α} (hB : MeasurableSet B)
    (h0 : zero ∉ B) : P.real {ω | Plateau (v ω) k l B} = (1 - p) ^ l * ((1 - (1 - 2 * p) ^ k) / 2) * Q.real B := by
  have hpos : ∀ ω, ∀ i < n, 1 ≤ allLengths W ω i := by
    intro ω i hi
    rw [allLengths, dif_pos hi]
    exact h1 _ _
  -- the lengths for which the pixels belong to block `b`
  let A : ℕ → Set (Fin n → ℕ) := fun b => {f | Odd b ∧ blockStart (fun i => if h : i < n then f ⟨i, h⟩ else 0) b ≤ k ∧
    k + l < blockStart (fun i => if h : i < n then f ⟨i, h⟩ else 0) (b + 1)}
  have hWm : Measurable fun (s : Ω) i => W i s := measurable_pi_iff.2 hW
  have hA : ∀ b, MeasurableSet ((fun (s : Ω) i => W i s) ⁻¹' A b) := fun b => hWm MeasurableSet.of_discrete
  have hdis : ∀ b b', b ≠ b' → Disjoint ((fun (s : Ω) i => W i s) ⁻¹' A b) ((fun (s : Ω) i => W i s) ⁻¹' A b') := by
    intro b b' hne
    refine Set.disjoint_left.2 fun ω h2 h3 => hne ?_
    exact block_unique (p := k) h2.2.1 (lt_of_le_of_lt (Nat.le_add_right k l) h2.2.2) h3.2.1 (lt_of_le_of_lt (Nat.le_add_right k l) h3.2.2)
  have e1 : {ω | Plateau (v ω) k l B} = ⋃ b ∈ Finset.range n, ((fun (s : Ω) i => W i s) ⁻¹' A b ∩ H b ⁻¹' B) := by
    ext ω
    rw [Set.mem_ofPred_eq, plateau_iff (hpos ω) (hv ω) hk h0]
    simp only [Set.mem_iUnion, Finset.mem_range, exists_prop]
    exact Iff.rfl
  have e2 : {ω | colour W k ω = true ∧ ∀ j ≤ l, colour W (k + j) ω = colour W k ω} = ⋃ b ∈ Finset.range n, ((fun (s : Ω) i => W i s) ⁻¹' A b) := by
    ext ω
    have := plateau_iff (hpos ω) (colour_signal h1 ω) hk (B := {true}) (by simp)
    simp only [Set.mem_singleton_iff, and_true] at this
    rw [Set.mem_ofPred_eq]
    refine (Iff.trans ?_ this).trans ?_
    · exact Iff.rfl
    · simp only [Set.mem_iUnion, Finset.mem_range, exists_prop]
      exact Iff.rfl
  have hch := colour_chain hW h1 hi hg
  have h2 := hch.stays k l hk {c | c (Fin.last k) = true}
  simp only [Set.mem_ofPred_eq, Fin.val_last] at h2
  rw [hch.state k (by omega), e2, measureReal_biUnion_finset (fun b _ b' _ h => hdis b b' h) fun b _ => hA b] at h2
  rw [e1, measureReal_biUnion_finset (fun b _ b' _ h => (hdis b b' h).mono Set.inter_subset_left Set.inter_subset_left)
    (fun b _ => (hA b).inter (hH b hB)), ← h2, Finset.sum_mul]
  refine Finset.sum_congr rfl fun b _ => ?_
  have h3 : IndepFun (fun s i => W i s) (H b) P := hWH.comp measurable_id (measurable_pi_apply b)
  rw [measureReal_def, h3.measure_inter_preimage_eq_mul _ _ MeasurableSet.of_discrete hB, ENNReal.toReal_mul, ← hQ b, map_measureReal_apply (hH b) hB]
  rfl

end law

theorem heightSignal_congr {w w' : ℕ → ℕ} {h v : ℕ → α} {zero : α} {n : ℕ} (hw : ∀ i < n, w i = w' i) (hs : heightSignal w h v zero n) :
    heightSignal w' h v zero n := by
  intro k hk
  obtain ⟨b, hb, h1, h2, h3⟩ := hs k hk
  exact ⟨b, hb, by rwa [← blockStart_congr hw b (by omega)], by rwa [← blockStart_congr hw (b + 1) (by omega)], h3⟩

theorem scale_inv {scale : ℝ} (hs : 1 ≤ scale) : 0 < 1 / scale ∧ 1 / scale ≤ 1 :=
  ⟨by positivity, by rw [div_le_one (by linarith)]; exact hs⟩

/-- The jumps as a signal. -/
theorem jumps_signal {rng : Rng τ} (hv : rng.Valid) {size : ℕ} {scale lam : ℝ} (hs : 1 ≤ scale) {W : Fin size → τ → ℕ} {H : ℕ → τ → ℕ}
    (s : τ) (hW : ∃ w s', rng.geometric (1 / scale) size s = (.ok w, s') ∧ (∀ i : Fin size, w i = W i s) ∧
      DrawsInTurn (rng.poisson lam) s' fun b => H b s) : ∃ out s', generateJumps rng size scale lam s = (.ok out, s') ∧ out.length = size ∧
      ∃ v, heightSignal (allLengths W s) (fun b => H b s) v 0 size ∧ ∀ k, out.getD k 0 = v k % 256 := by
  obtain ⟨w, t, hw, hww, hd⟩ := hW
  have hw1 : ∀ i < size, 1 ≤ w i := by
    obtain ⟨w', t', e, h1⟩ := hv.geometric_ok (1 / scale) size s (scale_inv hs).1 (scale_inv hs).2
    rw [hw] at e
    cases e
    exact h1
  obtain ⟨out, t', ho⟩ : ∃ out t', burstLoop (rng.poisson lam) size w size 0 0 [] t = (.ok out, t') := by
    obtain ⟨st, rfl, hst⟩ := hd
    suffices h : ∀ (todo i j bi : ℕ) (noise : List ℕ), ∃ out t', burstLoop (rng.poisson lam) size w todo i bi noise (st j) = (.ok out, t') from
      h size 0 0 0 []
    intro todo
    induction todo with
    | zero => exact fun _ _ _ _ => ⟨_, _, rfl⟩
    | succ todo ih =>
      intro i j bi noise
      simp only [burstLoop]
      split
      · rw [M.bind_run, hst j]
        dsimp only
        split
        · exact ⟨_, _, rfl⟩
        · exact ih _ _ _ _
      · split
        · exact ⟨_, _, rfl⟩
        · exact ih _ _ _ _
  obtain ⟨hl, -⟩ := burst_take (fun _ => True) (rng.poisson lam) (fun _ _ _ _ => trivial) size w hw1 t t' out ho
  refine ⟨(out.take size).map (· % 256), t', ?_, by rw [List.length_map, hl], _, heightSignal_congr (fun i hi => ?_) (burst_signal hw1 hd ho), fun k => ?_⟩
  · unfold generateJumps
    rw [if_neg (by linarith)]
    exact (M.step hw).trans (M.step ho)
  · rw [allLengths, dif_pos hi]
    exact hww ⟨i, hi⟩
  · rw [List.getD_eq_getElem?_getD, List.getElem?_map, List.getD_eq_getElem?_getD]
    cases (out.take size)[k]? <;> rfl

theorem heightSignal_map {β : Type} {w : ℕ → ℕ} {h v : ℕ → α} {zero : α} {n : ℕ} (f : α → β) (hs : heightSignal w h v zero n) :
    heightSignal w (fun b => f (h b)) (fun k => f (v k)) (f zero) n := by
  intro k hk
  obtain ⟨b, hb, h1, h2, h3⟩ := hs k hk
  refine ⟨b, hb, h1, h2, ?_⟩
  dsimp only
  rw [h3]
  split_ifs <;> rfl

/-- The deviations that telegraph noise causes as a signal. -/
theorem telegraph_signal {rng : Rng τ} (hv : rng.Valid) {x : Scan ℝ} {scale std height : ℝ} (hs : 1 ≤ scale) {W : Fin x.size → τ → ℕ} {H : ℕ → τ → ℝ}
    (s : τ) (hW : ∃ w s', rng.geometric (1 / scale) x.size s = (.ok w, s') ∧ (∀ i : Fin x.size, w i = W i s) ∧
      DrawsInTurn (rng.normal height std) s' fun b => H b s) :
    ∃ y s', telegraphNoise rng x (some scale) std height s = (.ok y, s') ∧
      heightSignal (allLengths W s) (fun b => H b s) (fun k => pixelAt y k - pixelAt x k) 0 x.size := by
  obtain ⟨w, t, hw, hww, hd⟩ := hW
  have hw1 : ∀ i < x.size, 1 ≤ w i := by
    obtain ⟨w', t', e, h1⟩ := hv.geometric_ok (1 / scale) x.size s (scale_inv hs).1 (scale_inv hs).2
    rw [hw] at e
    cases e
    exact h1
  obtain ⟨out, t', ho⟩ : ∃ out t', burstLoop (rng.normal height std) x.size w x.size 0 0 [] t = (.ok out, t') := by
    obtain ⟨st, rfl, hst⟩ := hd
    suffices h : ∀ (todo i j bi : ℕ) (noise : List ℝ), ∃ out t', burstLoop (rng.normal height std) x.size w todo i bi noise (st j) = (.ok out, t') from
      h x.size 0 0 0 []
    intro todo
    induction todo with
    | zero => exact fun _ _ _ _ => ⟨_, _, rfl⟩
    | succ todo ih =>
      intro i j bi noise
      simp only [burstLoop]
      split
      · rw [M.bind_run, hst j]
        dsimp only
        split
        · exact ⟨_, _, rfl⟩
        · exact ih _ _ _ _
      · split
        · exact ⟨_, _, rfl⟩
        · exact ih _ _ _ _
  obtain ⟨hl, -⟩ := burst_take (fun _ => True) (rng.normal height std) (fun _ _ _ _ => trivial) x.size w hw1 t t' out ho
  obtain ⟨y, hy⟩ := addNoise_total x _ hl
  refine ⟨y, t', ?_, heightSignal_congr (w := w) (fun i hi => ?_) fun k hk => ?_⟩
  · unfold telegraphNoise
    simp only
    rw [if_neg (by linarith), M.bind_run, hw]
    simp only
    rw [M.bind_run, ho]
    simp only
    rw [ofPy_run, hy]
  · rw [allLengths, dif_pos hi]
    exact hww ⟨i, hi⟩
  · obtain ⟨b, hb, h1, h2, h3⟩ := burst_signal hw1 hd ho k hk
    refine ⟨b, hb, h1, h2, ?_⟩
    dsimp only at h3 ⊢
    rw [← h3, pixelAt_added (addNoise_ok hy) hk]
    ring

/-! ### A generator with the documented distributions -/

/-- Streams of lengths, Poisson heights and normal heights. -/
abbrev HeightStreams := (ℕ → ℝ → ℕ) × (ℕ → ℕ) × (ℕ → ℝ)

/-- The generator that reads these streams. -/
noncomputable def heightRng : Rng HeightStreams where
  binomial := fun _ => pure true
  geometric := fun p n s =>
    match lengthRng.geometric p n s.1 with
    | (r, t) => (r, (t, s.2))
  poisson := fun _ s => (.ok (s.2.1 0), (s.1, fun b => s.2.1 (b + 1), s.2.2))
  normal := fun m sd s => (.ok (m + sd * s.2.2 0), (s.1, s.2.1, fun b => s.2.2 (b + 1)))

/-- Independent streams; the Poisson numbers have the mean `r`. -/
noncomputable def heightStreams (r : NNReal) : Measure HeightStreams :=
  lengthStreams.prod ((Measure.infinitePi fun _ => poissonMeasure r).prod (Measure.infinitePi fun _ => gaussianReal 0 1))

instance (r : NNReal) : IsProbabilityMeasure (heightStreams r) := by unfold heightStreams; infer_instance

theorem heightRng_valid : heightRng.Valid where
  geometric_error := fun p n s h => by
    show (match lengthRng.geometric p n s.1 with | (r, t) => (r, (t, s.2))) = _
    rw [lengthRng_valid.geometric_error p n s.1 h]
  geometric_ok := fun p n s h1 h2 => by
    obtain ⟨w, t, e, h⟩ := lengthRng_valid.geometric_ok p n s.1 h1 h2
    refine ⟨w, (t, s.2), ?_, h⟩
    show (match lengthRng.geometric p n s.1 with | (r, t) => (r, (t, s.2))) = _
    rw [e]

theorem height_draws {r : NNReal} {p : ℝ} (h0 : 0 < p) (h1 : p ≤ 1) (n : ℕ) [MeasurableSpace α] (amp : M HeightStreams α) (Q : Measure α)
    (H : ℕ → (ℕ → ℕ) × (ℕ → ℝ) → α) (hd : ∀ s : HeightStreams, DrawsInTurn amp s fun b => H b s.2) (hm : ∀ b, Measurable (H b))
    (hQ : ∀ b, ((Measure.infinitePi fun _ => poissonMeasure r).prod (Measure.infinitePi fun _ => gaussianReal 0 1)).map (H b) = Q) :
    LengthsThenHeights (heightStreams r) heightRng p n amp Q := by
  obtain ⟨W, hW, hWm, hi, hl⟩ := lengthRng_draws h0 h1 n
  have hfst : (heightStreams r).map Prod.fst = lengthStreams := by unfold heightStreams; rw [Measure.map_fst_prod]; simp
  have hsnd : (heightStreams r).map Prod.snd = (Measure.infinitePi fun _ => poissonMeasure r).prod (Measure.infinitePi fun _ => gaussianReal 0 1) := by
    unfold heightStreams; rw [Measure.map_snd_prod]; simp
  refine ⟨fun i s => W i s.1, fun b s => H b s.2, fun s => ?_, fun i => (hWm i).comp measurable_fst, fun b => (hm b).comp measurable_snd, ?_, ?_,
    fun i g => ?_, fun b => ?_⟩
  · obtain ⟨w, t, e, h⟩ := hW s.1
    refine ⟨w, (t, s.2), ?_, h, hd (t, s.2)⟩
    show (match lengthRng.geometric p n s.1 with | (r, t) => (r, (t, s.2))) = _
    rw [e]
  · have hWm' : ∀ i, Measurable fun s : HeightStreams => W i s.1 := fun i => (hWm i).comp measurable_fst
    rw [iIndepFun_iff_map_fun_eq_infinitePi_map hWm]  at hi
    rw [iIndepFun_iff_map_fun_eq_infinitePi_map hWm']
    have e1 : (heightStreams r).map (fun s i => W i s.1) = lengthStreams.map fun s i => W i s := by
      rw [← hfst, Measure.map_map (measurable_pi_iff.2 hWm) measurable_fst]
      rfl
    rw [e1, hi]
    congr 1
    funext i
    rw [← hfst, Measure.map_map (hWm i) measurable_fst]
    rfl
  · have hp : IndepFun (fun s : HeightStreams => fun i => W i s.1) (fun s : HeightStreams => fun b => H b s.2) (heightStreams r) :=
      indepFun_prod (measurable_pi_iff.2 hWm) (measurable_pi_iff.2 hm)
    exact hp
  · have hms : MeasurableSet {s | W i s = g + 1} := hWm i (measurableSet_singleton _)
    rw [← hl i g, ← hfst, map_measureReal_apply measurable_fst hms]
    rfl
  · rw [← hQ b, ← hsnd, Measure.map_map (hm b) measurable_snd]
    rfl

theorem poisson_draws (r : NNReal) {p : ℝ} (h0 : 0 < p) (h1 : p ≤ 1) (n : ℕ) (lam : ℝ) :
    LengthsThenHeights (heightStreams r) heightRng p n (heightRng.poisson lam) (poissonMeasure r) := by
  refine height_draws h0 h1 n _ _ (fun b s => s.1 b) (fun s => ?_) (fun b => by fun_prop) fun b => ?_
  · refine ⟨fun b => (s.1, fun j => s.2.1 (b + j), s.2.2), by simp, fun b => ?_⟩
    show (_, _) = (_, _)
    simp [add_assoc, add_comm 1]
  · have e1 : (Measure.infinitePi fun _ : ℕ => poissonMeasure r).map (fun f => f b) = poissonMeasure r := Measure.infinitePi_map_eval _ b
    rw [show (fun s : (ℕ → ℕ) × (ℕ → ℝ) => s.1 b) = (fun f : ℕ → ℕ => f b) ∘ Prod.fst from rfl, ← Measure.map_map (by fun_prop) measurable_fst,
      Measure.map_fst_prod]
    simp [e1]

theorem normal_draws (r : NNReal) {p : ℝ} (h0 : 0 < p) (h1 : p ≤ 1) (n : ℕ) (m sd : ℝ) :
    LengthsThenHeights (heightStreams r) heightRng p n (heightRng.normal m sd) (gaussianReal m (Real.toNNReal (sd ^ 2))) := by
  refine height_draws h0 h1 n _ _ (fun b s => m + sd * s.2 b) (fun s => ?_) (fun b => by fun_prop) fun b => ?_
  · refine ⟨fun b => (s.1, s.2.1, fun j => s.2.2 (b + j)), by simp, fun b => ?_⟩
    show (_, _) = (_, _)
    simp [add_assoc, add_comm 1]
  · have e1 : (Measure.infinitePi fun _ : ℕ => gaussianReal 0 1).map (fun f => f b) = gaussianReal 0 1 := Measure.infinitePi_map_eval _ b
    have e2 : (gaussianReal 0 1).map (fun a => m + sd * a) = gaussianReal m (Real.toNNReal (sd ^ 2)) := by
      rw [show (fun a : ℝ => m + sd * a) = (fun a => m + a) ∘ fun a => sd * a from rfl, ← Measure.map_map (by fun_prop) (by fun_prop),
        gaussianReal_map_const_mul, gaussianReal_map_const_add]
      congr 1
      · ring
      · rw [mul_one]
        exact (Real.toNNReal_of_nonneg (sq_nonneg sd)).symm
    rw [show (fun s : (ℕ → ℕ) × (ℕ → ℝ) => m + sd * s.2 b) = ((fun a => m + sd * a) ∘ fun f : ℕ → ℝ => f b) ∘ Prod.snd from rfl,
      ← Measure.map_map (by fun_prop) measurable_snd, Measure.map_snd_prod, ← Measure.map_map (by fun_prop) (by fun_prop)]
    simp [e1, e2]

end SimCATS
