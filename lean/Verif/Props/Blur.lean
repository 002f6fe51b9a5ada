import Verif.Lemmas.Blur
import Verif.Props.Telegraph

/-!
Property theorems: transition blurring (C37, and the parts of C34 and C36 that concern blurring).
-/

namespace SimCATS

open Spec

/-! ### C34 -/

/-- C34: an unfrozen call samples a new sigma and stores it, whatever happened before. -/
theorem C34_blur_fresh {τ : Type} (d : Blur τ) (data : CsdData) (g1 g2 : ℝ × ℝ) (gen : Gen (Option ℝ × τ)) (a : Option ℝ)
    (t t' : τ) (σ : ℝ) (h : d.sigma t = (.ok σ, t')) :
    d.noiseFunction data g1 g2 gen false (a, t) = (d.apply data g1 g2 σ, (some σ, t')) := by
  unfold Blur.noiseFunction Blur.sample
  simp only [Bool.false_eq_true, if_false]
  rw [M.bind_run, M.bind_run, onRest_eq h]
  simp only
  rw [M.pure_run]
  simp only
  rw [M.bind_run, setOwn_run]
  simp only
  rw [ofPy_run]

/-- C34: a frozen call uses the stored sigma, draws nothing and changes nothing; before the first unfrozen call there is no
stored sigma and a frozen call fails. -/
theorem C34_blur_frozen {τ : Type} (d : Blur τ) (data : CsdData) (g1 g2 : ℝ × ℝ) (gen : Gen (Option ℝ × τ)) (t : τ) :
    (∀ σ, d.noiseFunction data g1 g2 gen true (some σ, t) = (d.apply data g1 g2 σ, (some σ, t))) ∧
    d.noiseFunction data g1 g2 gen true (none, t) = (.error .typeError, (none, t)) :=
  ⟨fun _ => rfl, rfl⟩

/-- C34: a frozen call repeats the last unfrozen call. -/
theorem C34_blur_repeat {τ : Type} (d : Blur τ) (data : CsdData) (g1 g2 : ℝ × ℝ) (gen gen' : Gen (Option ℝ × τ))
    (s s' : Option ℝ × τ) (out : CsdData) (h : d.noiseFunction data g1 g2 gen false s = (.ok out, s')) :
    d.noiseFunction data g1 g2 gen' true s' = (.ok out, s') := by
  obtain ⟨a, t⟩ := s
  cases hs : d.sigma t with
  | mk r t' =>
    cases r with
    | error e =>
      exfalso
      unfold Blur.noiseFunction Blur.sample at h
      simp only [Bool.false_eq_true, if_false] at h
      rw [M.bind_run, M.bind_run, onRest_eq hs] at h
      simp at h
    | ok σ =>
      rw [C34_blur_fresh d data g1 g2 gen a t t' σ hs, Prod.mk.injEq] at h
      obtain ⟨h1, rfl⟩ := h
      rw [(C34_blur_frozen d data g1 g2 gen' t').1, h1]

/-- The state after a sequence of frozen calls (a failing call ends nothing: the object can be called again). -/
noncomputable def frozenBlurs {τ : Type} (d : Blur τ) :
    List (CsdData × (ℝ × ℝ) × (ℝ × ℝ) × Gen (Option ℝ × τ)) → Option ℝ × τ → Option ℝ × τ
  | [], s => s
  | c :: cs, s => frozenBlurs d cs (d.noiseFunction c.1 c.2.1 c.2.2.1 c.2.2.2 true s).2

/-- C34: any number of frozen calls, on any data, leaves the stored sigma and the state of all samplers unchanged. -/
theorem C34_blur_frozen_many {τ : Type} (d : Blur τ) (calls : List (CsdData × (ℝ × ℝ) × (ℝ × ℝ) × Gen (Option ℝ × τ)))
    (s : Option ℝ × τ) : frozenBlurs d calls s = s := by
  induction calls generalizing s with
  | nil => rfl
  | cons c cs ih =>
    unfold frozenBlurs
    obtain ⟨a, t⟩ := s
    cases a with
    | none => exact ih _
    | some σ => exact ih _

/-- A sampler that counts up: after an unfrozen call with sigma 3 all frozen calls keep 3. -/
example (data : CsdData) : frozenBlurs (fermiBlur (τ := ℝ) fun t => (.ok t, t + 1))
    [(data, (0, 1), (0, 1), fun _ _ _ => M.raise .typeError), (data, (0, 2), (0, 1), fun _ _ _ => M.raise .typeError)]
    ((fermiBlur (τ := ℝ) fun t => (.ok t, t + 1)).noiseFunction data (0, 1) (0, 1) (fun _ _ _ => M.raise .typeError) false
      (none, 3)).2 = (some 3, 3 + 1) := by
  rw [C34_blur_frozen_many, C34_blur_fresh _ _ _ _ _ _ 3 (3 + 1) 3 rfl]

/-- C34: a sigma that is not positive changes nothing. -/
theorem C34_blur_inactive {τ : Type} (d : Blur τ) (data : CsdData) (g1 g2 : ℝ × ℝ) (σ : ℝ) (h : σ ≤ 0) :
    d.apply data g1 g2 σ = .ok data := by
  unfold Blur.apply
  rw [if_neg (not_lt.2 h)]

example (data : CsdData) := C34_blur_inactive (fermiBlur (τ := Unit) (pure 0)) data (0, 1) (0, 1) (-1) (by norm_num)

/-! ### C36 -/

/-- What the code computes for 2D scans: the number of rows per volt of gate 1. -/
theorem C36_blur_actual (r c : ℕ) (f : Fin r → Fin c → ℝ × ℝ) (g1 g2 : ℝ × ℝ) (h1 : g1.1 ≠ g1.2) :
    blurFactor g1 g2 (.d2 r c f) = some (density r g1) := pxPerVolt_density _ _ h1

/-- C36 for blurring of square images (blurred along gate 1) and of 1D scans of one or both gates. -/
theorem C36_blur_partial (n : ℕ) (f : Fin n → Fin n → ℝ × ℝ) (f1 : Fin n → ℝ × ℝ) (g1 g2 : ℝ × ℝ) (h1 : g1.1 ≠ g1.2) (h2 : g2.1 ≠ g2.2)
    (v : ℝ) :
    blurFactor g1 g2 (.d2 n n f) = some (density n g1) ∧ blurFactor g1 (v, v) (.d1 n f1) = some (density n g1) ∧
    blurFactor (v, v) g2 (.d1 n f1) = some (density n g2) ∧
    blurFactor g1 g2 (.d1 n f1) = some (max (density n g1) (density n g2)) := by
  refine ⟨C36_blur_actual n n f g1 g2 h1, ?_, ?_, ?_⟩
  · simp only [blurFactor]
    rw [if_neg h1, if_pos trivial, pxPerVolt_density _ _ h1]
  · simp only [blurFactor]
    rw [if_pos trivial, pxPerVolt_density _ _ h2]
  · simp only [blurFactor]
    rw [if_neg h1, if_neg h2, pxPerVolt_density _ _ h1, pxPerVolt_density _ _ h2]
    rfl

example (f : Fin 3 → Fin 5 → ℝ × ℝ) := C36_blur_actual 3 5 f (0, 1) (2, 4) (by norm_num)

/-- C36 is false for blurring: 10 columns over 1 V, but sigma is multiplied by the 100 rows. -/
theorem C36_blur_refuted : ∃ (g1 g2 : ℝ × ℝ) (f : Fin 100 → Fin 10 → ℝ × ℝ), g1.1 < g1.2 ∧ g2.1 < g2.2 ∧
    blurFactor g1 g2 (.d2 100 10 f) ≠ some (density 10 g1) := by
  refine ⟨(0, 1), (0, 1), fun _ _ => (0, 0), by norm_num, by norm_num, ?_⟩
  rw [C36_blur_actual _ _ _ _ _ (by norm_num)]
  unfold density
  norm_num

/-! ### C37 -/

/-- C37: each of the two blurring distortions has a family of averaging weights (indexed by the width in pixels and the
length of the line) such that every successful call, frozen or not, in any state, returns the lead transition mask unchanged
and the occupations of both dots averaged along the rows with the weights of the width `σ * k`, where `σ` is the stored sigma
and `k` the factor from volts to pixels (C36).  The weights have the profile of the distortion, cut off after about 4 times the
width.  Widths <= 0 leave the data unchanged. -/
theorem C37_average {τ : Type} (sigma : M τ ℝ) (d : Blur τ) (v : ℝ → ℝ → ℝ)
    (hd : d = fermiBlur sigma ∧ v = fermiProfile ∨ d = gaussBlur sigma ∧ v = gaussProfile) :
    ∃ A : ℝ → (n : ℕ) → Fin n → Fin n → ℝ,
      (∀ s > 0, ∀ n, Averaging (A s n) ∧ Profile (4 * s - 1 / 2) (4 * s + 1 / 2) (v s) (A s n) ∧
        Reach (4 * s + 1 / 2) (A s n)) ∧
      ∀ data g1 g2 gen freeze s s' out, d.noiseFunction data g1 g2 gen freeze s = (.ok out, s') →
        out.2 = data.2 ∧ ∃ σ, s'.1 = some σ ∧
          (σ ≤ 0 ∧ out = data ∨
            0 < σ ∧ ∃ k, blurFactor g1 g2 data.1 = some k ∧ Blurred (A (σ * k)) data.1 out.1) := by
  refine ⟨fun s n => (d.kernel s).mat n, fun s hs n => ?_, ?_⟩
  · rcases hd with ⟨rfl, rfl⟩ | ⟨rfl, rfl⟩
    · exact ⟨mat_averaging (fermiKernel_weights hs), fermiKernel_profile hs n⟩
    · exact ⟨mat_averaging gaussKernel_weights, gaussKernel_profile hs n⟩
  have happ : ∀ data g1 g2 σ out, d.apply data g1 g2 σ = .ok out → out.2 = data.2 ∧ (σ ≤ 0 ∧ out = data ∨
      0 < σ ∧ ∃ k, blurFactor g1 g2 data.1 = some k ∧ Blurred (fun n => (d.kernel (σ * k)).mat n) data.1 out.1) := by
    intro data g1 g2 σ out h
    unfold Blur.apply at h
    split_ifs at h with hσ
    · cases hk : blurFactor g1 g2 data.1 with
      | none => rw [hk] at h; simp at h
      | some k =>
        rw [hk] at h
        simp only [Except.ok.injEq] at h
        subst h
        refine ⟨rfl, .inr ⟨hσ, k, rfl, ?_⟩⟩
        obtain ⟨x, lead⟩ := data
        cases x with
        | d0 v => simp [blurFactor] at hk
        | d1 n f => exact ⟨_, rfl, fun p => ⟨convolve_eq _ (fun i => (f i).1) _, convolve_eq _ (fun i => (f i).2) _⟩⟩
        | d2 r c f => exact ⟨_, rfl, fun i p => ⟨convolve_eq _ (fun j => (f i j).1) _, convolve_eq _ (fun j => (f i j).2) _⟩⟩
    · simp only [Except.ok.injEq] at h
      subst h
      exact ⟨rfl, .inl ⟨not_lt.1 hσ, rfl⟩⟩
  intro data g1 g2 gen freeze s s' out h
  unfold Blur.noiseFunction at h
  obtain ⟨o, s1, h1, hr⟩ := M.bind_ok.mp h
  obtain ⟨u, s2, h2, hr⟩ := M.bind_ok.mp hr
  cases h2
  cases o with
  | none => simp at hr
  | some σ =>
    simp only at hr
    rw [ofPy_run, Prod.mk.injEq] at hr
    obtain ⟨ha, rfl⟩ := hr
    obtain ⟨h3, h4⟩ := happ _ _ _ _ _ ha
    exact ⟨h3, σ, rfl, h4⟩

/-- C37: calls succeed for every image and every scanned range that is not a single point in gate 1 (2D scans) or in both
gates (1D scans); other calls with a positive sigma fail. -/
theorem C37_total {τ : Type} (d : Blur τ) (data : CsdData) (g1 g2 : ℝ × ℝ) (σ : ℝ) (hσ : 0 < σ) :
    (∃ out, d.apply data g1 g2 σ = .ok out) ↔
      match data.1 with | .d0 _ => False | .d1 _ _ => g1.1 ≠ g1.2 ∨ g2.1 ≠ g2.2 | .d2 _ _ _ => g1.1 ≠ g1.2 := by
  have hdeg : ∀ (n : ℕ) (g : ℝ × ℝ), g.1 = g.2 → pxPerVolt n g = none := by
    intro n g h
    unfold pxPerVolt
    rw [h, max_self, min_self, sub_self, if_pos rfl]
  have hk : (∃ out, d.apply data g1 g2 σ = .ok out) ↔ ∃ k, blurFactor g1 g2 data.1 = some k := by
    unfold Blur.apply
    rw [if_pos hσ]
    cases blurFactor g1 g2 data.1 <;> simp
  rw [hk]
  obtain ⟨x, lead⟩ := data
  cases x with
  | d0 v => simp [blurFactor]
  | d1 n f =>
    simp only [blurFactor]
    by_cases h1 : g1.1 = g1.2
    · rw [if_pos h1]
      by_cases h2 : g2.1 = g2.2
      · simp [hdeg n g2 h2, h1, h2]
      · simp [pxPerVolt_density n g2 h2, h2]
    · rw [if_neg h1]
      by_cases h2 : g2.1 = g2.2
      · simp [pxPerVolt_density n g1 h1, h1, h2]
      · simp [pxPerVolt_density n g1 h1, pxPerVolt_density n g2 h2, optMax, h1, h2]
  | d2 r c f =>
    simp only [blurFactor]
    by_cases h1 : g1.1 = g1.2
    · simp [hdeg r g1 h1, h1]
    · simp [pxPerVolt_density r g1 h1, h1]

/-- C37 for a row of a 2D scan: in every successful call, rows with constant occupation are unchanged, blurred occupations
stay within the range of their row, and the total charge of each dot in each row is kept. -/
theorem C37_rows {τ : Type} (sigma : M τ ℝ) (d : Blur τ) (hd : d = fermiBlur sigma ∨ d = gaussBlur sigma) (r c : ℕ)
    (f : Fin r → Fin c → ℝ × ℝ) (lead : Scan ℕ) (g1 g2 : ℝ × ℝ) (gen : Gen (Option ℝ × τ)) (freeze : Bool)
    (s s' : Option ℝ × τ) (out : CsdData) (h : d.noiseFunction (.d2 r c f, lead) g1 g2 gen freeze s = (.ok out, s')) :
    ∃ g, out = (.d2 r c g, lead) ∧ ∀ i,
      (∀ v, (∀ q, f i q = v) → ∀ p, g i p = v) ∧
      (∀ a b, (∀ q, a ≤ (f i q).1 ∧ (f i q).1 ≤ b) → ∀ p, a ≤ (g i p).1 ∧ (g i p).1 ≤ b) ∧
      (∀ a b, (∀ q, a ≤ (f i q).2 ∧ (f i q).2 ≤ b) → ∀ p, a ≤ (g i p).2 ∧ (g i p).2 ≤ b) ∧
      ∑ p, (g i p).1 = ∑ q, (f i q).1 ∧ ∑ p, (g i p).2 = ∑ q, (f i q).2 := by
  obtain ⟨v, hv⟩ : ∃ v, d = fermiBlur sigma ∧ v = fermiProfile ∨ d = gaussBlur sigma ∧ v = gaussProfile := by
    rcases hd with h | h
    · exact ⟨_, .inl ⟨h, rfl⟩⟩
    · exact ⟨_, .inr ⟨h, rfl⟩⟩
  obtain ⟨A, hA, hcall⟩ := C37_average sigma d v hv
  obtain ⟨h1, σ, -, h2⟩ := hcall _ _ _ _ _ _ _ _ h
  rcases h2 with ⟨-, rfl⟩ | ⟨hσ, k, hk, hb⟩
  · refine ⟨f, rfl, fun i => ⟨fun v hv => hv, fun a b hv => hv, fun a b hv => hv, rfl, rfl⟩⟩
  · obtain ⟨g, hg, hb'⟩ := hb
    refine ⟨g, Prod.ext hg h1, fun i => ?_⟩
    have hpos : 0 < k := by
      rcases (blurFactor_nonneg hk).2 with h | h
      · exact h
      · have := i.2
        simp only at h
        omega
    obtain ⟨b1, b2, b3, -, b4⟩ := blurred_2d (A := A (σ * k)) (hA _ (mul_pos hσ hpos) c).1 ⟨g, rfl, hb'⟩ i
    exact ⟨b1, b2, b3, b4⟩

/-- C37 for 1D scans. -/
theorem C37_line {τ : Type} (sigma : M τ ℝ) (d : Blur τ) (hd : d = fermiBlur sigma ∨ d = gaussBlur sigma) (n : ℕ)
    (f : Fin n → ℝ × ℝ) (lead : Scan ℕ) (g1 g2 : ℝ × ℝ) (gen : Gen (Option ℝ × τ)) (freeze : Bool)
    (s s' : Option ℝ × τ) (out : CsdData) (h : d.noiseFunction (.d1 n f, lead) g1 g2 gen freeze s = (.ok out, s')) :
    ∃ g, out = (.d1 n g, lead) ∧
      (∀ v, (∀ q, f q = v) → ∀ p, g p = v) ∧
      (∀ a b, (∀ q, a ≤ (f q).1 ∧ (f q).1 ≤ b) → ∀ p, a ≤ (g p).1 ∧ (g p).1 ≤ b) ∧
      (∀ a b, (∀ q, a ≤ (f q).2 ∧ (f q).2 ≤ b) → ∀ p, a ≤ (g p).2 ∧ (g p).2 ≤ b) ∧
      ∑ p, (g p).1 = ∑ q, (f q).1 ∧ ∑ p, (g p).2 = ∑ q, (f q).2 := by
  obtain ⟨v, hv⟩ : ∃ v, d = fermiBlur sigma ∧ v = fermiProfile ∨ d = gaussBlur sigma ∧ v = gaussProfile := by
    rcases hd with h | h
    · exact ⟨_, .inl ⟨h, rfl⟩⟩
    · exact ⟨_, .inr ⟨h, rfl⟩⟩
  obtain ⟨A, hA, hcall⟩ := C37_average sigma d v hv
  obtain ⟨h1, σ, -, h2⟩ := hcall _ _ _ _ _ _ _ _ h
  rcases h2 with ⟨-, rfl⟩ | ⟨hσ, k, hk, hb⟩
  · exact ⟨f, rfl, fun v hv => hv, fun a b hv => hv, fun a b hv => hv, rfl, rfl⟩
  · obtain ⟨g, hg, hb'⟩ := hb
    refine ⟨g, Prod.ext hg h1, ?_⟩
    rcases (blurFactor_nonneg hk).2 with hpos | h0
    · obtain ⟨b1, b2, b3, -, b4⟩ := blurred_2d (A := A (σ * k)) (hA _ (mul_pos hσ hpos) n).1 (r := 1) (f := fun _ => f)
        (g := fun _ => g) ⟨_, rfl, fun _ => hb'⟩ 0
      exact ⟨b1, b2, b3, b4⟩
    · simp only at h0
      subst h0
      exact ⟨fun _ _ p => p.elim0, fun _ _ _ p => p.elim0, fun _ _ _ p => p.elim0, rfl, rfl⟩

/-- A call that meets the hypothesis: a step of one electron in a 2D scan of 50 mV, sigma 1 mV. -/
example : ∃ out s', (fermiBlur (τ := Unit) (pure 0.001)).noiseFunction
    (.d2 100 100 fun _ q => if (q : ℕ) < 40 then (0, 1) else (1, 1), .d2 100 100 fun _ _ => 0) (0, 0.05) (0, 0.05)
    (fun _ _ _ => M.raise .typeError) false (none, ()) = (.ok out, s') := by
  rw [C34_blur_fresh _ _ _ _ _ _ () () 0.001 rfl]
  obtain ⟨out, h⟩ := (C37_total (fermiBlur (τ := Unit) (pure 0.001))
    (.d2 100 100 fun _ q => if (q : ℕ) < 40 then (0, 1) else (1, 1), .d2 100 100 fun _ _ => 0) (0, 0.05) (0, 0.05) 0.001
    (by norm_num)).2 (by norm_num)
  exact ⟨out, _, by rw [h]⟩

/-- C37: the total occupation of a pixel is blurred like the occupations of the dots: a call on data whose first dot holds
the total occupation gives the sum of the blurred occupations. -/
theorem C37_sum {τ : Type} (d : Blur τ) (r c : ℕ)
    (f g tot : Fin r → Fin c → ℝ × ℝ) (lead lead' : Scan ℕ) (g1 g2 : ℝ × ℝ) (gen : Gen (Option ℝ × τ)) (freeze : Bool)
    (s s' : Option ℝ × τ) (h : d.noiseFunction (.d2 r c f, lead) g1 g2 gen freeze s = (.ok (.d2 r c g, lead), s'))
    (htot : ∀ i q, (tot i q).1 = (f i q).1 + (f i q).2) :
    ∃ g', d.noiseFunction (.d2 r c tot, lead') g1 g2 gen freeze s = (.ok (.d2 r c g', lead'), s') ∧
      ∀ i p, (g' i p).1 = (g i p).1 + (g i p).2 := by
  unfold Blur.noiseFunction at h ⊢
  obtain ⟨o, s1, h1, hr⟩ := M.bind_ok.mp h
  obtain ⟨u, s2, h2, hr⟩ := M.bind_ok.mp hr
  clear h
  cases h2
  cases o with
  | none => simp at hr
  | some σ =>
    simp only at hr
    rw [ofPy_run, Prod.mk.injEq] at hr
    obtain ⟨h, rfl⟩ := hr
    suffices hs : ∃ g', d.apply (.d2 r c tot, lead') g1 g2 σ = .ok (.d2 r c g', lead') ∧
        ∀ i p, (g' i p).1 = (g i p).1 + (g i p).2 by
      obtain ⟨g', e, hg⟩ := hs
      refine ⟨g', ?_, hg⟩
      rw [M.bind_run, h1]
      simp only
      rw [M.bind_run]
      simp only [setOwn]
      rw [ofPy_run, e]
    unfold Blur.apply at h ⊢
    split_ifs at h ⊢ with hσ
    · simp only [blurFactor] at h ⊢
      cases hk : pxPerVolt r g1 with
      | none => rw [hk] at h; simp at h
      | some k =>
        rw [hk] at h
        simp only [blurScan, Except.ok.injEq, Prod.mk.injEq, and_true] at h
        cases h
        refine ⟨_, rfl, fun i p => ?_⟩
        simp only [htot]
        unfold convolve
        rw [← Finset.sum_add_distrib]
        exact Finset.sum_congr rfl fun k _ => by ring
    · cases h
      exact ⟨tot, rfl, fun i p => htot i p⟩

/-- C37: reversing the sweep direction reverses the blurred image (rows read from right to left, range of gate 1 swapped). -/
theorem C37_mirror {τ : Type} (sigma : M τ ℝ) (d : Blur τ) (hd : d = fermiBlur sigma ∨ d = gaussBlur sigma) (r c : ℕ)
    (f g : Fin r → Fin c → ℝ × ℝ) (lead lead' : Scan ℕ) (g1 g2 : ℝ × ℝ) (σ : ℝ)
    (h : d.apply (.d2 r c f, lead) g1 g2 σ = .ok (.d2 r c g, lead)) :
    d.apply (.d2 r c fun i q => f i q.rev, lead') (g1.2, g1.1) g2 σ = .ok (.d2 r c fun i q => g i q.rev, lead') := by
  unfold Blur.apply at h ⊢
  split_ifs at h ⊢ with hσ
  · simp only [blurFactor] at h ⊢
    have hsw : pxPerVolt r (g1.2, g1.1) = pxPerVolt r g1 := by
      unfold pxPerVolt
      simp only [max_comm g1.2, min_comm g1.2]
    rw [hsw]
    cases hk : pxPerVolt r g1 with
    | none => rw [hk] at h; simp at h
    | some k =>
      rw [hk] at h
      simp only [blurScan, Except.ok.injEq, Prod.mk.injEq, and_true] at h ⊢
      cases h
      congr 1
      funext i p
      have hk' : blurFactor g1 g2 (.d2 r c f) = some k := hk
      have hpos : 0 < k := by
        rcases (blurFactor_nonneg hk').2 with h | h
        · exact h
        · have := i.2
          simp only at h
          omega
      have hW : (d.kernel (σ * k)).Weights := by
        rcases hd with rfl | rfl
        · exact fermiKernel_weights (mul_pos hσ hpos)
        · exact gaussKernel_weights
      have hm : ∀ u : Fin c → ℝ, convolve (d.kernel (σ * k)) (fun j => u j.rev) p = convolve (d.kernel (σ * k)) u p.rev := by
        intro u
        rw [convolve_eq, convolve_eq]
        unfold average
        rw [← Equiv.sum_comp Fin.revPerm]
        refine Finset.sum_congr rfl fun q _ => ?_
        rw [← (mat_averaging hW).mirror p]
        simp
      exact Prod.ext (hm fun j => (f i j).1) (hm fun j => (f i j).2)
  · cases h
    rfl

end SimCATS
