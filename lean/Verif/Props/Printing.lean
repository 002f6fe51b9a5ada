import Verif.Lemmas.PrintingUnique

/-!
C99: printed forms of the objects.
-/

namespace SimCATS

open Spec

/-- **C99** (objects that print the same).  If two objects of the package print the same, then they are of the same class
and have the same parameters, also in nested objects, lists, tuples and dictionaries, and report the same activation
and latest value.
Missing for the full property: the state of generators, arrays that numpy rounds to the same text, and barrier functions of
type multi GLF inside of sensors (see `C99_refuted`). -/
theorem C99_same_partial (fmt : Fmt) (hf : Faithful fmt) (a b : PObj) (ha : Ordinary fmt a) (hb : Ordinary fmt b)
    (h : a.print fmt = b.print fmt) : SamePrinted fmt a b :=
  print_unique hf a ha b hb h

/-- **C99** (numeric parameters).  If two objects with numbers as parameters print the same, then they are of the same
class and all parameters agree. -/
theorem C99_numbers (fmt : Fmt) (hf : Faithful fmt) (c d : PCls) (hc : c ≠ .multi) (hd : d ≠ .multi) (x y : String → ℝ)
    (hgc : c ≠ .geometric) (hgd : d ≠ .geometric)
    (hx : ∀ n, x n ∈ fmt.floats) (hy : ∀ n, y n ∈ fmt.floats)
    (h : (PObj.inst c fun n => .num (x n)).print fmt = (PObj.inst d fun n => .num (y n)).print fmt) :
    c = d ∧ ∀ n ∈ shown c, x n = y n := by
  obtain ⟨g, h1, h2, -, -⟩ := C99_same_partial fmt hf (.inst c fun n => .num (x n)) (.inst d fun n => .num (y n))
    ⟨hc, fun n _ => hx n, fun n _ => hx n, fun _ => trivial, fun h => absurd h hgc⟩
    ⟨hd, fun n _ => hy n, fun n _ => hy n, fun _ => trivial, fun h => absurd h hgd⟩ h
  cases h1
  refine ⟨rfl, fun n hn => ?_⟩
  exact (PObj.num.inj (h2 n hn)).symm

/-- Two peaks whose widths differ print differently. -/
example : (PObj.inst .gaussian fun n => .num (if n = "sigma" then (2 : ℕ) else (1 : ℕ))).print demoFmt ≠
    (PObj.inst .gaussian fun _ => .num (1 : ℕ)).print demoFmt := by
  intro h
  have := (C99_numbers demoFmt demoFmt_faithful .gaussian .gaussian (by simp) (by simp)
    (fun n => if n = "sigma" then (2 : ℕ) else (1 : ℕ)) (fun _ => (1 : ℕ)) (by simp) (by simp)
    (fun n => by
      split_ifs
      · exact ⟨2, rfl⟩
      · exact ⟨1, rfl⟩) (fun n => ⟨1, rfl⟩) h).2 "sigma" (by simp [shown])
  rw [if_pos rfl] at this
  norm_num at this

/-- A sensor with two peaks differs in print from one with a single peak. -/
example (f g : String → PObj) (hf : ∀ n, f n = .num (1 : ℕ)) (hg : ∀ n, g n = if n = "sensor_peak_function" then
      .list 2 (fun _ => .inst .gaussian f) else .none) :
    (PObj.inst .sensorGeneric g).print demoFmt ≠ (PObj.inst .sensorGeneric fun n =>
      if n = "sensor_peak_function" then .list 1 (fun _ => .inst .gaussian f) else .none).print demoFmt := by
  intro h
  have o1 : ∀ k, Ordinary demoFmt (.list k fun _ => .inst .gaussian f) := by
    intro k i _
    refine ⟨by simp, fun n _ => ?_, fun n hn => by simp [latestOf] at hn, fun h => absurd rfl h, fun h => by simp at h⟩
    rw [hf]
    exact ⟨1, rfl⟩
  obtain ⟨g', h1, h2, -, -⟩ := C99_same_partial demoFmt demoFmt_faithful (.inst .sensorGeneric g)
    (.inst .sensorGeneric fun n => if n = "sensor_peak_function" then .list 1 (fun _ => .inst .gaussian f) else .none)
    ⟨by simp, fun n _ => by
      rw [hg]
      split_ifs
      · exact o1 2
      · trivial, fun n hn => by simp [latestOf] at hn, fun h => absurd rfl h, fun h => by simp at h⟩
    ⟨by simp, fun n _ => by
      dsimp only
      split_ifs
      · exact o1 1
      · trivial, fun n hn => by simp [latestOf] at hn, fun h => absurd rfl h, fun h => by simp at h⟩ h
  cases h1
  have h3 := h2 "sensor_peak_function" (by simp [shown])
  rw [hg, if_pos rfl] at h3
  dsimp only at h3
  rw [if_pos rfl] at h3
  rcases h3 with ⟨g, h4, _⟩ | ⟨v, h4, _⟩
  · simp at h4
  · cases h4

/-- **C99** (well-formed text).  The printed form starts with the name of the class and an opening parenthesis, its
brackets are balanced, and all commas are inside of brackets.
Missing for the full property: barrier functions of type multi GLF (see `C99_multi_actual`). -/
theorem C99_balanced_partial (fmt : Fmt) (hf : Faithful fmt) (c : PCls) (f : String → PObj)
    (ha : Ordinary fmt (.inst c f)) :
    (∃ r, (PObj.inst c f).print fmt = c.name.toList ++ '(' :: r) ∧ Balanced ((PObj.inst c f).print fmt) ∧
      CommasInside ((PObj.inst c f).print fmt) :=
  ⟨⟨_, rfl⟩, scan_balanced _ (print_scan hf _ ha)⟩

/-- A distortion with a sampler as strength meets the requirements. -/
example : Balanced ((PObj.inst .pink fun n => if n = "sigma" then .inst .uniformSampler (fun m => if m = "range" then
      .tuple 2 (fun i => .num (i : ℕ)) else if m = "rng" then .gen 5 else .none) else if n = "rng" then .gen 5 else
      .num (3 : ℕ)).print demoFmt) := by
  refine (C99_balanced_partial demoFmt demoFmt_faithful .pink _ ⟨by simp, fun n hn => ?_, fun n hn => ?_, fun _ => ?_,
    fun h => by simp at h⟩).2.1
  · split_ifs
    · refine ⟨by simp, fun m hm => ?_, fun m hm => by simp [latestOf] at hm, fun h => absurd rfl h, fun h => by simp at h⟩
      dsimp only
      split_ifs
      · exact fun i _ => ⟨i, rfl⟩
      · trivial
      · trivial
    · trivial
    · exact ⟨3, rfl⟩
  · obtain rfl : n = "latest_sigma" := by simpa [latestOf] using hn
    exact ⟨3, rfl⟩
  · exact Or.inr (Or.inl rfl)

/-- **C99** (multi GLF).  Barrier functions of type multi GLF that print the same have the same parameters. -/
theorem C99_multi (fmt : Fmt) (hf : Faithful fmt) (f g : String → PObj) (ha : ∀ n ∈ shown .multi, Ordinary fmt (f n))
    (hb : ∀ n ∈ shown .multi, Ordinary fmt (g n))
    (h : (PObj.inst .multi f).print fmt = (PObj.inst .multi g).print fmt) :
    ∀ n ∈ shown .multi, SamePrinted fmt (f n) (g n) := by
  rw [print_inst, print_inst] at h
  obtain ⟨-, h⟩ := name_unique _ _ _ _ h
  obtain ⟨h1, -, -⟩ := render_unique _ _ _ _ PCls.multi.pieces (pieces_separated _) (by
    intro n ch hn
    have hs := follow_shown hn
    refine ⟨[','], Or.inl ?_, print_scan hf _ (ha n hs), print_scan hf _ (hb n hs)⟩
    have : ∀ p ∈ follows PCls.multi.pieces, p.2 = some ',' ∨ p.2 = none := by decide
    rcases this _ hn with e | e
    · cases e
      simp
    · cases e) (fun n hn => by
      rw [pieces_latest] at hn
      simp [latestOf] at hn) h
  intro n hn
  obtain ⟨ch, hch⟩ := shown_follow hn
  exact print_unique hf _ (ha n hn) _ (hb n hn) (h1 n ch hch)

/-- Two functions whose pinch-off differs print differently. -/
example : (PObj.inst .multi fun n => if n = "params" then .tuple 7 (fun i => .num (i : ℕ)) else
      if n = "pinch_off" then .num (2 : ℕ) else .num (1 : ℕ)).print demoFmt ≠
    (PObj.inst .multi fun n => if n = "params" then .tuple 7 (fun i => .num (i : ℕ)) else .num (1 : ℕ)).print demoFmt := by
  intro h
  have := C99_multi demoFmt demoFmt_faithful _ _ (fun n _ => by
    split_ifs
    · exact fun i _ => ⟨i, rfl⟩
    · exact ⟨2, rfl⟩
    · exact ⟨1, rfl⟩) (fun n _ => by
    split_ifs
    · exact fun i _ => ⟨i, rfl⟩
    · exact ⟨1, rfl⟩) h "pinch_off" (by simp [shown])
  have h2 : PObj.num ((1 : ℕ) : ℝ) = .num ((2 : ℕ) : ℝ) := this
  simp at h2

/-- **C99** (actual behaviour, multi GLF).  The printed form of a barrier function of type multi GLF has a parenthesis that
is not closed. -/
theorem C99_multi_actual (fmt : Fmt) (hf : Faithful fmt) (f : String → PObj) (ha : ∀ n ∈ shown .multi, Ordinary fmt (f n)) :
    ¬ Balanced ((PObj.inst .multi f).print fmt) := by
  have h : scan [','] 0 ((PObj.inst .multi f).print fmt) = some 1 := by
    have e : (PObj.inst .multi f).print fmt = (PCls.multi.name.toList ++ ['(']) ++
        render (fun n => (f n).print fmt) (fun n => (f n).truthy) PCls.multi.pieces := by
      rw [print_inst, List.append_assoc]
      rfl
    rw [e, scan_append, (name_scan .multi).1]
    exact scan_render [','] (by simp) _ _ PCls.multi.pieces (fun n ch hn => print_scan hf _ (ha n (follow_shown hn)))
      (fun n hn => by
        rw [pieces_latest] at hn
        simp [latestOf] at hn) 1 1 (by decide)
  have h1 := ((scan_iff [','] (by decide) _ 0 1).1 h).1
  intro hb
  have := hb.1
  omega

/-- **C99** (actual behaviour, arrays).  Sensors with different lever arms print the same if numpy prints the arrays in the
same way (after rounding to eight digits). -/
theorem C99_rounding_actual (fmt : Fmt) (v w : List ℝ) (h : fmt.arr v = fmt.arr w) (f : String → PObj) :
    (PObj.inst .sensorGeneric fun n => if n = "alpha_dot" then .array v else f n).print fmt =
      (PObj.inst .sensorGeneric fun n => if n = "alpha_dot" then .array w else f n).print fmt := by
  rw [print_inst, print_inst]
  congr 2
  have e : (fun n => (if n = "alpha_dot" then PObj.array v else f n).print fmt) =
      fun n => (if n = "alpha_dot" then PObj.array w else f n).print fmt := by
    funext n
    split_ifs
    · exact h
    · rfl
  have e2 : (fun n => (if n = "alpha_dot" then PObj.array v else f n).truthy) =
      fun n => (if n = "alpha_dot" then PObj.array w else f n).truthy := by
    funext n
    split_ifs <;> rfl
  rw [e, e2]

/-- **C99 is violated**: with every way to print numbers, a barrier function of type multi GLF with numbers as parameters
has an unbalanced printed form, and two noise distortions with generators in different states print the same; there are
ways to print arrays with which two sensors with different lever arms print the same. -/
theorem C99_refuted :
    (∀ fmt : Fmt, Faithful fmt → ∀ x ∈ fmt.floats, ¬ Balanced ((PObj.inst .multi fun n =>
      if n = "params" then .tuple 7 (fun _ => .num x) else .num x).print fmt)) ∧
    (∀ (fmt : Fmt) (x : ℝ), (PObj.inst .white fun n => if n = "rng" then .gen 0 else .num x).print fmt =
      (PObj.inst .white fun n => if n = "rng" then .gen 1 else .num x).print fmt) ∧
    ∃ (fmt : Fmt) (v w : List ℝ), Faithful fmt ∧ v ≠ w ∧
      (PObj.inst .sensorGeneric fun n => if n = "alpha_dot" then .array v else .none).print fmt =
        (PObj.inst .sensorGeneric fun n => if n = "alpha_dot" then .array w else .none).print fmt := by
  refine ⟨fun fmt hf x hx => C99_multi_actual fmt hf _ fun n _ => ?_, fun fmt x => rfl,
    demoFmt, [1], [2], demoFmt_faithful, by simp, C99_rounding_actual demoFmt [1] [2] rfl _⟩
  split_ifs
  · exact fun i _ => hx
  · exact hx

end SimCATS
