import Verif.Lemmas.Samplers
import Mathlib.Tactic.NormNum

/-!
Property theorems: parameter samplers (C38, C59).
-/

namespace SimCATS

open Spec

/-- C38: a sampler created by any of the four constructors has a range that is narrowed as requested; in every execution after
its creation, every sampled value lies in this range (so in the total range), and `last_sample()` returns the value sampled
last, or None before the first one. -/
theorem C38_samplers {τ : Type} (rng : DrawRng τ) (hv : rng.Valid) (total : ℝ × ℝ) (width : Option ℝ)
    (hw : ∀ w ∈ width, 0 ≤ w) (init : M τ (Sampler τ))
    (hi : (∃ std mean, init = normalSampler rng total std mean width ∧ total.1 ≤ total.2) ∨
      init = uniformSampler rng total width ∧ total.1 ≤ total.2 ∨
      (∃ mean sigma, init = lognormalSampler rng total width mean sigma ∧ total.1 ≤ total.2) ∨
      ∃ scale, init = exponentialSampler rng total scale width)
    (s s' : τ) (d : Sampler τ) (h : init s = (.ok d, s')) :
    Narrowed total width d.range ∧
    ∀ es t, d.Run (none, s') es t →
      (∀ v, SamplerEvent.sampled v ∈ es → Inside d.range v ∧ Inside total v) ∧
      ∀ pre o post, es = pre ++ .last o :: post → o = lastSample none pre := by
  have key : Narrowed total width d.range ∧ ∀ s v s', d.Call s (.ok v, s') → Inside d.range v := by
    rcases hi with ⟨std, mean, rfl, ht⟩ | ⟨rfl, ht⟩ | ⟨mean, sigma, rfl, ht⟩ | ⟨scale, rfl⟩
    · obtain ⟨r, t, hr, h⟩ := M.bind_ok.mp h
      obtain ⟨h1, h2⟩ := narrow_spec hv ht hw hr
      cases h
      refine ⟨h1, fun s v s' hc => ?_⟩
      have ha := (call_ok hc).1
      simp only [not_or, not_lt] at ha
      unfold Inside
      simp only [min_eq_left h2, max_eq_right h2]
      exact ha
    · obtain ⟨r, t, hr, h⟩ := M.bind_ok.mp h
      obtain ⟨h1, h2⟩ := narrow_spec hv ht hw hr
      cases h
      refine ⟨h1, fun s v s' hc => ?_⟩
      obtain ⟨-, -, t, t', hd⟩ := call_ok hc
      unfold Inside
      simp only [min_eq_left h2, max_eq_right h2]
      exact hv.uniform _ _ _ _ _ h2 hd
    · obtain ⟨r, t, hr, h⟩ := M.bind_ok.mp h
      obtain ⟨h1, h2⟩ := narrow_spec hv ht hw hr
      cases h
      refine ⟨h1, fun s v s' hc => ?_⟩
      have ha := (call_ok hc).1
      simp only [not_or, not_lt] at ha
      unfold Inside
      simp only [min_eq_left h2, max_eq_right h2]
      exact ha
    · obtain ⟨r, t, hr, h⟩ := M.bind_ok.mp h
      have h1 := narrowExp_spec hv hw hr
      cases h
      refine ⟨h1, fun s v s' hc => ?_⟩
      have ha := (call_ok hc).1
      simp only [not_or, not_lt] at ha
      exact ha
  refine ⟨key.1, fun es t hr => ?_⟩
  obtain ⟨h1, h2⟩ := run_spec key.2 hr
  refine ⟨fun v hm => ⟨h1 v hm, ?_⟩, h2⟩
  have hin := h1 v hm
  have hn := key.1
  cases width with
  | none => rw [← show d.range = total from hn]; exact hin
  | some w =>
    rcases le_or_gt |total.2 - total.1| w with h' | h'
    · rw [← hn.1 h']; exact hin
    · obtain ⟨⟨a1, a2⟩, ⟨b1, b2⟩, -⟩ := hn.2 h'
      unfold Inside at hin ⊢
      exact ⟨(le_min a1 b1).trans hin.1, hin.2.trans (max_le a2 b2)⟩

/-- C38: a sampler returns the first draw that lies in its range (is accepted); it raises exactly if a draw raises before. -/
theorem C38_first {τ : Type} (d : Sampler τ) (o : Option ℝ) (s s' : τ) (v : ℝ) (o' : Option ℝ) :
    d.Call (o, s) (.ok v, (o', s')) ↔ o' = some v ∧ ∃ n, nthDraw d.draw n s = (.ok v, s') ∧ d.accept v ∧
      ∀ k < n, ∃ w t, nthDraw d.draw k s = (.ok w, t) ∧ ¬ d.accept w := by
  have hiff : ∀ r, Redraw d.draw d.accept s r → ∀ v s', r = (.ok v, s') → ∃ n, nthDraw d.draw n s = (.ok v, s') ∧ d.accept v ∧
      ∀ k < n, ∃ w t, nthDraw d.draw k s = (.ok w, t) ∧ ¬ d.accept w := by
    intro r h
    induction h with
    | stop hd ha =>
      intro v s' e
      cases e
      exact ⟨0, hd, ha, fun k hk => absurd hk (Nat.not_lt_zero k)⟩
    | @again s s1 w r hd ha _ ih =>
      intro v s' e
      obtain ⟨n, h1, h2, h3⟩ := ih v s' e
      refine ⟨n + 1, ?_, h2, fun k hk => ?_⟩
      · unfold nthDraw
        rw [hd]
        exact h1
      · cases k with
        | zero => exact ⟨w, s1, hd, ha⟩
        | succ k =>
          unfold nthDraw
          rw [hd]
          exact h3 k (by omega)
    | fail hd => intro v s' e; cases e
  have hback : ∀ n s, nthDraw d.draw n s = (.ok v, s') → d.accept v →
      (∀ k < n, ∃ w t, nthDraw d.draw k s = (.ok w, t) ∧ ¬ d.accept w) → Redraw d.draw d.accept s (.ok v, s') := by
    intro n
    induction n with
    | zero => intro s h1 h2 _; exact .stop h1 h2
    | succ n ih =>
      intro s h1 h2 h3
      obtain ⟨w, t, h4, h5⟩ := h3 0 (by omega)
      have h4' : d.draw s = (.ok w, t) := h4
      refine .again h4' h5 (ih t ?_ h2 fun k hk => ?_)
      · unfold nthDraw at h1
        rw [h4'] at h1
        exact h1
      · have := h3 (k + 1) (by omega)
        unfold nthDraw at this
        rw [h4'] at this
        exact this
  constructor
  · intro h
    cases h with
    | ok h => exact ⟨rfl, hiff _ h _ _ rfl⟩
  · rintro ⟨rfl, n, h1, h2, h3⟩
    exact .ok (hback n s h1 h2 h3)

/-- C38: calls are deterministic for a given state of the generator: there is at most one result. -/
theorem C38_deterministic {τ : Type} (d : Sampler τ) (s : Option ℝ × τ) (r r' : Py ℝ × (Option ℝ × τ)) (h : d.Call s r)
    (h' : d.Call s r') : r = r' := by
  have key : ∀ s r, Redraw d.draw d.accept s r → ∀ r', Redraw d.draw d.accept s r' → r = r' := by
    intro s r h
    induction h with
    | stop hd ha =>
      intro r' h'
      cases h' with
      | stop hd' _ => rw [← hd, ← hd']
      | again hd' ha' _ => rw [hd] at hd'; cases hd'; exact absurd ha ha'
      | fail hd' => rw [hd] at hd'; cases hd'
    | again hd ha _ ih =>
      intro r' h'
      cases h' with
      | stop hd' ha' => rw [hd] at hd'; cases hd'; exact absurd ha' ha
      | again hd' _ h'' => rw [hd] at hd'; cases hd'; exact ih _ h''
      | fail hd' => rw [hd] at hd'; cases hd'
    | fail hd =>
      intro r' h'
      cases h' with
      | stop hd' _ => rw [hd] at hd'; cases hd'
      | again hd' _ _ => rw [hd] at hd'; cases hd'
      | fail hd' => rw [← hd, ← hd']
  cases h with
  | ok h =>
    cases h' with
    | ok h' => cases key _ _ h _ h'; rfl
    | error h' => cases key _ _ h _ h'
  | error h =>
    cases h' with
    | ok h' => cases key _ _ h _ h'
    | error h' => cases key _ _ h _ h'; rfl

/-- C38: the returned values have the documented distribution. Uniform samplers draw from their range, normal samplers with the given mean (by
default the centre of their range), log-normal samplers with the given parameters; exponential samplers return values whose distance from the
first limit, in units of the width of the range, is drawn from an exponential distribution, so that values near the first limit are the most
likely ones. -/
theorem C38_drawn {τ : Type} (rng : DrawRng τ) (total : ℝ × ℝ) (width mean : Option ℝ) (std m sg scale : ℝ) (s s' : τ) (d : Sampler τ)
    (s1 s2 : Option ℝ × τ) (v : ℝ) (hc : d.Call s1 (.ok v, s2)) :
    (normalSampler rng total std mean width s = (.ok d, s') →
      ∃ t t', rng.normal (mean.getD ((d.range.1 + d.range.2) / 2)) std t = (.ok v, t')) ∧
    (uniformSampler rng total width s = (.ok d, s') → ∃ t t', rng.uniform d.range.1 d.range.2 t = (.ok v, t')) ∧
    (lognormalSampler rng total width m sg s = (.ok d, s') → ∃ t t', rng.lognormal m sg t = (.ok v, t')) ∧
    (exponentialSampler rng total scale width s = (.ok d, s') →
      ∃ e t t', rng.exponential scale t = (.ok e, t') ∧ v - d.range.1 = e * (d.range.2 - d.range.1)) := by
  obtain ⟨-, -, t, t', hd⟩ := call_ok hc
  refine ⟨fun h => ?_, fun h => ?_, fun h => ?_, fun h => ?_⟩
  · obtain ⟨r, u, -, h⟩ := M.bind_ok.mp h
    cases h
    exact ⟨t, t', hd⟩
  · obtain ⟨r, u, -, h⟩ := M.bind_ok.mp h
    cases h
    exact ⟨t, t', hd⟩
  · obtain ⟨r, u, -, h⟩ := M.bind_ok.mp h
    cases h
    exact ⟨t, t', hd⟩
  · obtain ⟨r, u, -, h⟩ := M.bind_ok.mp h
    cases h
    obtain ⟨e, u', he, h⟩ := M.bind_ok.mp hd
    cases h
    exact ⟨e, t, _, he, by simp only; ring⟩

/-- Limits of C38: a normal sampler with a descending total range, and a log-normal sampler with a range below 0, can be
created, but no call ever returns a value. -/
theorem C38_never {τ : Type} (rng : DrawRng τ) (hv : rng.Valid) (total : ℝ × ℝ) (std mean sigma : ℝ) (s s' : τ) (d : Sampler τ)
    (h : normalSampler rng total std none none s = (.ok d, s') ∧ total.2 < total.1 ∨
      lognormalSampler rng total none mean sigma s = (.ok d, s') ∧ total.2 ≤ 0)
    (s1 s2 : Option ℝ × τ) (v : ℝ) : ¬ d.Call s1 (.ok v, s2) := by
  intro hc
  obtain ⟨ha, -, t, t', hd⟩ := call_ok hc
  rcases h with ⟨h, ht⟩ | ⟨h, ht⟩
  · cases h
    simp only [not_or, not_lt] at ha
    linarith
  · cases h
    simp only [not_or, not_lt] at ha
    have := hv.lognormal _ _ _ _ _ hd
    linarith

/-! ### C59 -/

/-- What the code computes: without a given mean, a normal sampler draws around the centre of the narrowed range. -/
theorem C59_actual {τ : Type} (rng : DrawRng τ) (total : ℝ × ℝ) (std : ℝ) (width : Option ℝ) (s s' : τ) (d : Sampler τ)
    (h : normalSampler rng total std none width s = (.ok d, s')) :
    d.draw = rng.normal ((d.range.1 + d.range.2) / 2) std := by
  obtain ⟨r, t, hr, h⟩ := M.bind_ok.mp h
  cases h
  rfl

/-- C59 if the range is not narrowed: the mean is the centre of the total range. -/
theorem C59_partial {τ : Type} (rng : DrawRng τ) (total : ℝ × ℝ) (std : ℝ) (width : Option ℝ)
    (hw : ∀ w ∈ width, total.2 - total.1 ≤ w) (s s' : τ) (d : Sampler τ)
    (h : normalSampler rng total std none width s = (.ok d, s')) :
    d.draw = rng.normal ((total.1 + total.2) / 2) std := by
  rw [C59_actual rng total std width s s' d h]
  obtain ⟨r, t, hr, h⟩ := M.bind_ok.mp h
  cases h
  have : r = total := by
    cases width with
    | none => cases hr; rfl
    | some w =>
      unfold narrow at hr
      simp only at hr
      rw [if_pos (hw w rfl)] at hr
      cases hr
      rfl
  rw [this]

/-- A generator that returns the lower end of a uniform range and the centre of every other distribution. -/
noncomputable def lowRng : DrawRng Unit where
  uniform a _ := pure a
  normal m _ := pure m
  lognormal m _ := pure (Real.exp m)
  exponential c := pure |c|

theorem lowRng_valid : lowRng.Valid where
  uniform a b s v s' hab h := by
    cases h
    exact ⟨le_refl _, hab⟩
  lognormal m d s v s' h := by
    cases h
    exact Real.exp_pos _
  exponential c s v s' h := by
    cases h
    exact abs_nonneg _

/-- C59 is false: total range (0, 4), narrowed to width 1; the values are drawn around 0.5 instead of 2. -/
theorem C59_refuted : ∃ (rng : DrawRng Unit) (total : ℝ × ℝ) (w : ℝ) (d : Sampler Unit), rng.Valid ∧ 0 < w ∧ total.1 < total.2 ∧
    normalSampler rng total 1 none (some w) () = (.ok d, ()) ∧ d.draw ≠ rng.normal ((total.1 + total.2) / 2) 1 := by
  refine ⟨lowRng, (0, 4), 1, ⟨(0, 1), lowRng.normal 0.5 1, fun v => ¬ (v < 0 ∨ 1 < v)⟩, lowRng_valid, by norm_num, by norm_num,
    ?_, ?_⟩
  · unfold normalSampler narrow
    simp only
    rw [if_neg (by norm_num)]
    rw [M.bind_run, M.bind_run]
    simp only [lowRng, M.pure_run]
    norm_num
  · intro h
    have := congrFun h ()
    simp only [lowRng, M.pure_run, Prod.mk.injEq, Except.ok.injEq, and_true] at this
    norm_num at this

/-- An execution: a uniform sampler on (0, 4) narrowed to width 1 samples 0 and reports it. -/
example : ∃ d s', uniformSampler lowRng (0, 4) (some 1) () = (.ok d, s') ∧
    d.Run (none, s') [.last none, .sampled 0, .last (some 0)] (some 0, ()) := by
  have h : uniformSampler lowRng (0, 4) (some 1) () = (.ok ⟨(0, 1), lowRng.uniform 0 1, fun _ => True⟩, ()) := by
    unfold uniformSampler narrow
    simp only
    rw [if_neg (by norm_num), M.bind_run, M.bind_run]
    simp only [lowRng, M.pure_run]
    norm_num
  exact ⟨_, _, h, .last (.sampled (.ok (.stop rfl trivial)) (.last .nil))⟩

end SimCATS
