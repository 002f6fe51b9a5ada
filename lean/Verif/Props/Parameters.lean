import Verif.Lemmas.Parameters

/-!
C97: parameters of components can be changed at any time.
-/

namespace SimCATS

open Spec

/-- **C97** (constructor).  A component can be created exactly with the allowed parameters; it has these parameters and
reports nothing yet. -/
theorem C97_new (k : Component) (args : String → PVal) :
    ((∃ o, k.cls.new args = .ok o) ↔ ∀ n ∈ params k, Allowed k n (args n)) ∧
    ∀ o, k.cls.new args = .ok o →
      (∀ n ∈ params k, k.cls.getAttr n o = some (.ok (args n))) ∧
      (∀ n ∈ reports k, k.cls.getAttr n o = some (.ok .none)) := by
  obtain ⟨h1, h2⟩ := new_spec k args
  constructor
  · constructor
    · rintro ⟨o, ho⟩
      by_contra hc
      push Not at hc
      obtain ⟨e, he⟩ := h2 hc
      rw [he] at ho
      cases ho
    · intro h
      obtain ⟨o, ho, _⟩ := h1 h
      exact ⟨o, ho⟩
  · intro o ho
    by_cases h : ∀ n ∈ params k, Allowed k n (args n)
    · obtain ⟨o', ho', h3⟩ := h1 h
      rw [ho'] at ho
      cases ho
      exact h3
    · push Not at h
      obtain ⟨e, he⟩ := h2 h
      rw [he] at ho
      cases ho

/-- A Gaussian peak of width 1 can be created, one of width -1 can not. -/
example : (∃ o, clsGaussian.new demoPeakArgs = .ok o) ∧
    ¬ ∃ o, clsGaussian.new (fun n => if n = "sigma" then .num (-1) else .num 0) = .ok o :=
  ⟨(C97_new .peakGaussian demoPeakArgs).1.2 fun n _ => demo_allowed n, fun h =>
    demo_negative (by simpa using (C97_new .peakGaussian _).1.1 h "sigma" (by simp [params]))⟩

/-- **C97** (one assignment).  An assignment raises exactly if the name is reported or computed by the component, or if
it is a parameter and the value is not allowed; then the object is not changed at all. -/
theorem C97_assign (k : Component) (n : String) (v : PVal) (o : Attrs) :
    ((k.cls.setAttr n v o).1 = .ok () ↔ n ∉ reports k ∧ n ∉ computed k ∧ (n ∈ params k → Allowed k n v)) ∧
    ((k.cls.setAttr n v o).1 ≠ .ok () → (k.cls.setAttr n v o).2 = o) := by
  by_cases hr : n ∈ reports k ∨ n ∈ computed k
  · rw [report_slot k hr]
    refine ⟨⟨fun h => (nomatch h), fun h => ?_⟩, fun _ => rfl⟩
    rcases hr with hr | hr
    · exact absurd hr h.1
    · exact absurd hr h.2.1
  · push Not at hr
    by_cases hp : n ∈ params k
    · by_cases hv : Allowed k n v
      · have h := (setAttr_allowed k hp hv o).1
        exact ⟨⟨fun _ => ⟨hr.1, hr.2, fun _ => hv⟩, fun _ => h⟩, fun h' => absurd h h'⟩
      · obtain ⟨e, he⟩ := setAttr_rejected k hp hv o
        rw [he]
        exact ⟨⟨fun h => (nomatch h), fun h => absurd (h.2.2 hp) hv⟩, fun _ => rfl⟩
    · rw [unknown_name k hp hr.1 hr.2]
      exact ⟨⟨fun _ => ⟨hr.1, hr.2, fun h => absurd h hp⟩, fun _ => rfl⟩, fun h => absurd rfl h⟩

/-- `peak.sigma = -1` and `noise.latest_sigma = 1` raise, a misspelt name does not. -/
example (o : Attrs) : (clsGaussian.setAttr "sigma" (.num (-1)) o).1 ≠ .ok () ∧
    (clsPink.setAttr "latest_sigma" (.num 1) o).1 ≠ .ok () ∧ (clsPink.setAttr "sigam" (.num 1) o).1 = .ok () :=
  ⟨fun h => demo_negative (((C97_assign .peakGaussian _ _ o).1.1 h).2.2 (by simp [params])),
    fun h => ((C97_assign .pinkNoise _ _ o).1.1 h).1 (by simp [reports]),
    (C97_assign .pinkNoise _ _ o).1.2 ⟨by simp [reports], by simp [computed], by simp [params]⟩⟩

/-- **C97** (exception).  A number or tuple that is not allowed is rejected with a `ValueError`, an assignment of a
reported or computed value with an `AttributeError`. -/
theorem C97_exception (k : Component) (n : String) (o : Attrs) :
    (∀ x : ℝ, n ∈ mustBePositive k → x ≤ 0 → (k.cls.setAttr n (.num x) o).1 = .error .valueError) ∧
    (∀ l : List ℝ, n ∈ mustBeGroups k → ¬ 7 ∣ l.length → (k.cls.setAttr n (.seq l) o).1 = .error .valueError) ∧
    (∀ v, n ∈ reports k ∨ n ∈ computed k → (k.cls.setAttr n v o).1 = .error .attributeError) := by
  refine ⟨fun x hn hx => ?_, fun l hn hl => ?_, fun v hn => by rw [report_slot k hn]⟩
  · have hp : n ∈ params k := by
      revert hn
      cases k <;> simp [mustBePositive, params] <;> rintro rfl <;> simp
    obtain ⟨key, hset, _⟩ := param_slot k hp
    rw [hset]
    simp [docCheck, hn, SetCheck.run, hx]
  · have hp : n ∈ params k := by
      revert hn
      cases k <;> simp [mustBeGroups, params]
      rintro rfl
      simp
    have h1 : n ∉ mustBePositive k := fun h => positive_not_groups k n h hn
    obtain ⟨key, hset, _⟩ := param_slot k hp
    rw [hset]
    have h2 : l.length % 7 ≠ 0 := fun h => hl (Nat.dvd_of_mod_eq_zero h)
    simp [docCheck, h1, hn, SetCheck.run, h2]

/-- Eight numbers are no groups of seven. -/
example (o : Attrs) : (clsMulti.setAttr "params" (.seq [0, 1, 1, 1, 1, 1, 0, 5]) o).1 = .error .valueError :=
  (C97_exception .barrierMultiGlf "params" o).2.1 _ (by simp [mustBeGroups]) (by simp)

/-- **C97** (all sequences of assignments).  After any assignments, accepted or rejected, to any names, every parameter
has the last allowed value that was assigned to it. -/
theorem C97_last (k : Component) (prog : List (String × PVal)) (o : Attrs) {n : String} (hn : n ∈ params k) {start : PVal}
    (hs : k.cls.getAttr n o = some (.ok start)) :
    k.cls.getAttr n (assignAll k.cls prog o) = some (.ok (lastAllowed k n start prog)) :=
  assignAll_read k hn prog o start hs

/-- A rejected width, an accepted one and a misspelt one: the accepted one counts. -/
example (o : Attrs) (ho : clsGaussian.new demoPeakArgs = .ok o) :
    clsGaussian.getAttr "sigma" (assignAll clsGaussian demoAssign o) = some (.ok (.num 2)) := by
  have h := C97_last .peakGaussian demoAssign o (n := "sigma") (by simp [params])
    (((C97_new .peakGaussian demoPeakArgs).2 o ho).1 "sigma" (by simp [params]))
  rw [demo_last.2.1] at h
  exact h

/-- **C97** (reports).  No assignment changes what a component reports about its last use. -/
theorem C97_reports (k : Component) (prog : List (String × PVal)) (o : Attrs) {n : String} (hn : n ∈ reports k) :
    k.cls.getAttr n (assignAll k.cls prog o) = k.cls.getAttr n o :=
  assignAll_report k hn prog o

/-- After a measurement with strength 3, a new strength does not change the report. -/
example (o : Attrs) (ho : o (.priv "SensorPotentialPinkNoise" "latest_sigma") = some (.num 3)) :
    clsPink.getAttr "latest_sigma" (assignAll clsPink [("sigma", .num 1), ("latest_sigma", .num 7)] o) =
      some (.ok (.num 3)) := by
  have h := C97_reports .pinkNoise [("sigma", .num 1), ("latest_sigma", .num 7)] o (n := "latest_sigma")
    (by simp [reports])
  refine h.trans ?_
  show some (readKey o (.priv "SensorPotentialPinkNoise" "latest_sigma")) = _
  unfold readKey
  rw [ho]

/-- **C97** (like new).  A component that was created and then changed by any assignments has the same parameters and
reports as a component that is newly created with the last allowed values; the creation of that component succeeds. -/
theorem C97_like_new (k : Component) {args : String → PVal} {o : Attrs} (ho : k.cls.new args = .ok o)
    (prog : List (String × PVal)) :
    ∃ o', k.cls.new (fun n => lastAllowed k n (args n) prog) = .ok o' ∧
      ∀ n, n ∈ params k ∨ n ∈ reports k →
        k.cls.getAttr n (assignAll k.cls prog o) = k.cls.getAttr n o' := by
  obtain ⟨hiff, hval⟩ := C97_new k args
  have hall := hiff.1 ⟨o, ho⟩
  obtain ⟨hp, hr⟩ := hval o ho
  obtain ⟨hiff', hval'⟩ := C97_new k fun n => lastAllowed k n (args n) prog
  obtain ⟨o', ho'⟩ := hiff'.2 fun n hn => lastAllowed_allowed k n prog _ (hall n hn)
  obtain ⟨hp', hr'⟩ := hval' o' ho'
  refine ⟨o', ho', ?_⟩
  rintro n (hn | hn)
  · rw [C97_last k prog o hn (hp n hn), hp' n hn]
  · rw [C97_reports k prog o hn, hr n hn, hr' n hn]

/-- The program of the demonstration can be run on a new peak. -/
example : ∃ o o', clsGaussian.new demoPeakArgs = .ok o ∧
    clsGaussian.new (fun n => lastAllowed .peakGaussian n (demoPeakArgs n) demoAssign) = .ok o' ∧
    clsGaussian.getAttr "sigma" (assignAll clsGaussian demoAssign o) = clsGaussian.getAttr "sigma" o' := by
  obtain ⟨o, ho⟩ := (C97_new .peakGaussian demoPeakArgs).1.2 fun n _ => demo_allowed n
  obtain ⟨o', ho', h⟩ := C97_like_new .peakGaussian ho demoAssign
  exact ⟨o, o', ho, ho', h "sigma" (Or.inl (by simp [params]))⟩

/-- **C97** (Gaussian peak).  The function of a changed peak is the Gaussian with the last allowed values. -/
theorem C97_gaussian {args : String → PVal} {o : Attrs} (ho : clsGaussian.new args = .ok o) (prog : List (String × PVal))
    (mu0 sigma height offset : ℝ)
    (h1 : lastAllowed .peakGaussian "mu0" (args "mu0") prog = .num mu0)
    (h2 : lastAllowed .peakGaussian "sigma" (args "sigma") prog = .num sigma)
    (h3 : lastAllowed .peakGaussian "height" (args "height") prog = .num height)
    (h4 : lastAllowed .peakGaussian "offset" (args "offset") prog = .num offset) (mu : ℝ) :
    (gaussianOf (assignAll clsGaussian prog o)).map (fun p => p.eval mu) =
      .ok (offset + height * Real.exp (-((mu - mu0) / sigma) ^ 2)) ∧ 0 < sigma := by
  obtain ⟨hiff, hval⟩ := C97_new .peakGaussian args
  have hr : ∀ n ∈ params .peakGaussian, ∀ x, lastAllowed .peakGaussian n (args n) prog = .num x →
      clsGaussian.getNum n (assignAll clsGaussian prog o) = .ok x := fun n hn x hx =>
    getNum_of (by rw [← hx]; exact C97_last .peakGaussian prog o hn ((hval o ho).1 n hn))
  constructor
  · unfold gaussianOf
    rw [hr "mu0" (by simp [params]) _ h1, hr "sigma" (by simp [params]) _ h2, hr "height" (by simp [params]) _ h3,
      hr "offset" (by simp [params]) _ h4]
    rfl
  · have h := lastAllowed_allowed .peakGaussian "sigma" prog _ (hiff.1 ⟨o, ho⟩ "sigma" (by simp [params]))
    rw [h2] at h
    obtain ⟨x, hx, hx0⟩ := h.1 (by simp [mustBePositive])
    cases hx
    exact hx0

/-- The changed peak of the demonstration has its maximum 2 at 5. -/
example : ∃ o, clsGaussian.new demoPeakArgs = .ok o ∧
    (gaussianOf (assignAll clsGaussian demoAssign o)).map (fun p => p.eval 5) = .ok 2 := by
  obtain ⟨o, ho⟩ := (C97_new .peakGaussian demoPeakArgs).1.2 fun n _ => demo_allowed n
  refine ⟨o, ho, ?_⟩
  rw [(C97_gaussian ho demoAssign 5 2 1 1 demo_last.1 demo_last.2.1 demo_last.2.2.1 demo_last.2.2.2 5).1]
  norm_num

/-- **C97** (Lorentzian peak).  The function of a changed peak is the Lorentzian with the last allowed values. -/
theorem C97_lorentzian {args : String → PVal} {o : Attrs} (ho : clsLorentzian.new args = .ok o)
    (prog : List (String × PVal)) (mu0 gamma height offset : ℝ)
    (h1 : lastAllowed .peakLorentzian "mu0" (args "mu0") prog = .num mu0)
    (h2 : lastAllowed .peakLorentzian "gamma" (args "gamma") prog = .num gamma)
    (h3 : lastAllowed .peakLorentzian "height" (args "height") prog = .num height)
    (h4 : lastAllowed .peakLorentzian "offset" (args "offset") prog = .num offset) (mu : ℝ) :
    (lorentzianOf (assignAll clsLorentzian prog o)).map (fun p => p.eval mu) =
      .ok (offset + height * gamma ^ 2 / (gamma ^ 2 + (mu - mu0) ^ 2)) ∧ 0 < gamma := by
  obtain ⟨hiff, hval⟩ := C97_new .peakLorentzian args
  have hr : ∀ n ∈ params .peakLorentzian, ∀ x, lastAllowed .peakLorentzian n (args n) prog = .num x →
      clsLorentzian.getNum n (assignAll clsLorentzian prog o) = .ok x := fun n hn x hx =>
    getNum_of (by rw [← hx]; exact C97_last .peakLorentzian prog o hn ((hval o ho).1 n hn))
  constructor
  · unfold lorentzianOf
    rw [hr "mu0" (by simp [params]) _ h1, hr "gamma" (by simp [params]) _ h2, hr "height" (by simp [params]) _ h3,
      hr "offset" (by simp [params]) _ h4]
    rfl
  · have h := lastAllowed_allowed .peakLorentzian "gamma" prog _ (hiff.1 ⟨o, ho⟩ "gamma" (by simp [params]))
    rw [h2] at h
    obtain ⟨x, hx, hx0⟩ := h.1 (by simp [mustBePositive])
    cases hx
    exact hx0

/-- A Lorentzian peak without changes. -/
example : ∃ o, clsLorentzian.new (fun _ => .num 1) = .ok o ∧
    (lorentzianOf (assignAll clsLorentzian [] o)).map (fun p => p.eval 1) = .ok 2 := by
  obtain ⟨o, ho⟩ := (C97_new .peakLorentzian fun _ => .num 1).1.2 fun n _ =>
    ⟨fun _ => ⟨1, rfl, one_pos⟩, by simp [mustBeGroups]⟩
  refine ⟨o, ho, ?_⟩
  rw [(C97_lorentzian ho [] 1 1 1 1 rfl rfl rfl rfl 1).1]
  norm_num

/-- **C97** (barrier function).  Value, pinch-off and fully conductive point of a changed barrier function are those of
the last allowed values. -/
theorem C97_barrier {args : String → PVal} {o : Attrs} (ho : clsBarrier.new args = .ok o) (prog : List (String × PVal))
    (A K B nu Q C p f off : ℝ)
    (h1 : lastAllowed .barrierGlf "asymptote_left" (args "asymptote_left") prog = .num A)
    (h2 : lastAllowed .barrierGlf "asymptote_right" (args "asymptote_right") prog = .num K)
    (h3 : lastAllowed .barrierGlf "growth_rate" (args "growth_rate") prog = .num B)
    (h4 : lastAllowed .barrierGlf "asymmetry" (args "asymmetry") prog = .num nu)
    (h5 : lastAllowed .barrierGlf "shape_factor" (args "shape_factor") prog = .num Q)
    (h6 : lastAllowed .barrierGlf "denominator_offset" (args "denominator_offset") prog = .num C)
    (h7 : lastAllowed .barrierGlf "pinch_off_percentage" (args "pinch_off_percentage") prog = .num p)
    (h8 : lastAllowed .barrierGlf "fully_conductive_percentage" (args "fully_conductive_percentage") prog = .num f)
    (h9 : lastAllowed .barrierGlf "offset" (args "offset") prog = .num off) :
    ∃ b, barrierOf (assignAll clsBarrier prog o) = .ok b ∧
      (∀ mu, b.getValue mu = A + (K - A) / (C + Q * Real.exp (-B * (mu - off))) ^ (1 / nu)) ∧
      b.pinchOff = inverseGlf ⟨A, K, B, nu, Q, C⟩ off (|K - A| * p + min A K) ∧
      b.fullyConductive = inverseGlf ⟨A, K, B, nu, Q, C⟩ off (|K - A| * f + min A K) ∧ 0 < nu := by
  obtain ⟨hiff, hval⟩ := C97_new .barrierGlf args
  have hr : ∀ n ∈ params .barrierGlf, ∀ x, lastAllowed .barrierGlf n (args n) prog = .num x →
      clsBarrier.getNum n (assignAll clsBarrier prog o) = .ok x := fun n hn x hx =>
    getNum_of (by rw [← hx]; exact C97_last .barrierGlf prog o hn ((hval o ho).1 n hn))
  refine ⟨⟨p, f, ⟨A, K, B, nu, Q, C⟩, off⟩, ?_, fun mu => rfl, rfl, rfl, ?_⟩
  · unfold barrierOf
    rw [hr "asymptote_left" (by simp [params]) _ h1, hr "asymptote_right" (by simp [params]) _ h2,
      hr "growth_rate" (by simp [params]) _ h3, hr "asymmetry" (by simp [params]) _ h4,
      hr "shape_factor" (by simp [params]) _ h5, hr "denominator_offset" (by simp [params]) _ h6,
      hr "pinch_off_percentage" (by simp [params]) _ h7, hr "fully_conductive_percentage" (by simp [params]) _ h8,
      hr "offset" (by simp [params]) _ h9]
    rfl
  · have h := lastAllowed_allowed .barrierGlf "asymmetry" prog _ (hiff.1 ⟨o, ho⟩ "asymmetry" (by simp [params]))
    rw [h4] at h
    obtain ⟨x, hx, hx0⟩ := h.1 (by simp [mustBePositive])
    cases hx
    exact hx0

/-- A barrier function without changes. -/
example : ∃ o b, clsBarrier.new (fun _ => .num 1) = .ok o ∧ barrierOf (assignAll clsBarrier [] o) = .ok b := by
  obtain ⟨o, ho⟩ := (C97_new .barrierGlf fun _ => .num 1).1.2 fun n _ =>
    ⟨fun _ => ⟨1, rfl, one_pos⟩, by simp [mustBeGroups]⟩
  obtain ⟨b, hb, _⟩ := C97_barrier ho [] 1 1 1 1 1 1 1 1 1 rfl rfl rfl rfl rfl rfl rfl rfl rfl
  exact ⟨o, b, ho, hb⟩

/-- **C97** (final rise).  The function of a changed rise and its fully conductive point are those of the last allowed
values. -/
theorem C97_rise {args : String → PVal} {o : Attrs} (ho : clsRise.new args = .ok o) (prog : List (String × PVal))
    (A K B nu Q C p mu0 : ℝ)
    (h1 : lastAllowed .riseGlf "asymptote_left" (args "asymptote_left") prog = .num A)
    (h2 : lastAllowed .riseGlf "asymptote_right" (args "asymptote_right") prog = .num K)
    (h3 : lastAllowed .riseGlf "growth_rate" (args "growth_rate") prog = .num B)
    (h4 : lastAllowed .riseGlf "asymmetry" (args "asymmetry") prog = .num nu)
    (h5 : lastAllowed .riseGlf "shape_factor" (args "shape_factor") prog = .num Q)
    (h6 : lastAllowed .riseGlf "denominator_offset" (args "denominator_offset") prog = .num C)
    (h7 : lastAllowed .riseGlf "fully_conductive_percentage" (args "fully_conductive_percentage") prog = .num p)
    (h8 : lastAllowed .riseGlf "mu0" (args "mu0") prog = .num mu0) :
    ∃ r, riseOf (assignAll clsRise prog o) = .ok r ∧
      r.fullyConductive = inverseGlf ⟨A, K, B, nu, Q, C⟩ mu0 ((K - A) * p + A) ∧
      (∀ mu off, r.sensorFunction mu off =
        A + (K - A) / (C + Q * Real.exp (-B * (mu - (-r.fullyConductive + off)))) ^ (1 / nu)) ∧ 0 < nu := by
  obtain ⟨hiff, hval⟩ := C97_new .riseGlf args
  have hr : ∀ n ∈ params .riseGlf, ∀ x, lastAllowed .riseGlf n (args n) prog = .num x →
      clsRise.getNum n (assignAll clsRise prog o) = .ok x := fun n hn x hx =>
    getNum_of (by rw [← hx]; exact C97_last .riseGlf prog o hn ((hval o ho).1 n hn))
  refine ⟨⟨mu0, ⟨A, K, B, nu, Q, C⟩, p⟩, ?_, rfl, fun mu off => rfl, ?_⟩
  · unfold riseOf
    rw [hr "asymptote_left" (by simp [params]) _ h1, hr "asymptote_right" (by simp [params]) _ h2,
      hr "growth_rate" (by simp [params]) _ h3, hr "asymmetry" (by simp [params]) _ h4,
      hr "shape_factor" (by simp [params]) _ h5, hr "denominator_offset" (by simp [params]) _ h6,
      hr "fully_conductive_percentage" (by simp [params]) _ h7, hr "mu0" (by simp [params]) _ h8]
    rfl
  · have h := lastAllowed_allowed .riseGlf "asymmetry" prog _ (hiff.1 ⟨o, ho⟩ "asymmetry" (by simp [params]))
    rw [h4] at h
    obtain ⟨x, hx, hx0⟩ := h.1 (by simp [mustBePositive])
    cases hx
    exact hx0

/-- A rise without changes. -/
example : ∃ o r, clsRise.new (fun _ => .num 1) = .ok o ∧ riseOf (assignAll clsRise [] o) = .ok r := by
  obtain ⟨o, ho⟩ := (C97_new .riseGlf fun _ => .num 1).1.2 fun n _ =>
    ⟨fun _ => ⟨1, rfl, one_pos⟩, by simp [mustBeGroups]⟩
  obtain ⟨r, hr, _⟩ := C97_rise ho [] 1 1 1 1 1 1 1 1 rfl rfl rfl rfl rfl rfl rfl rfl
  exact ⟨o, r, ho, hr⟩

/-- **C97** (multi GLF barrier).  `get_value` of a changed multi GLF barrier function never fails, and is the sum of the
functions of the last allowed groups. -/
theorem C97_multi {args : String → PVal} {o : Attrs} (ho : clsMulti.new args = .ok o) (prog : List (String × PVal)) :
    ∃ l : List ℝ, lastAllowed .barrierMultiGlf "params" (args "params") prog = .seq l ∧ 7 ∣ l.length ∧
      ∀ mu, multiValue (assignAll clsMulti prog o) mu = .ok (sumGlf mu l) := by
  obtain ⟨hiff, hval⟩ := C97_new .barrierMultiGlf args
  have h := lastAllowed_allowed .barrierMultiGlf "params" prog _ (hiff.1 ⟨o, ho⟩ "params" (by simp [params]))
  obtain ⟨l, hl, h7⟩ := h.2 (by simp [mustBeGroups])
  refine ⟨l, hl, h7, fun mu => ?_⟩
  have hg : clsMulti.getAttr "params" (assignAll clsMulti prog o) =
      some (.ok (lastAllowed .barrierMultiGlf "params" (args "params") prog)) :=
    C97_last .barrierMultiGlf prog o (by simp [params]) ((hval o ho).1 "params" (by simp [params]))
  rw [hl] at hg
  have hk : readKey (assignAll clsMulti prog o) (.priv "BarrierFunctionMultiGLF" "params") = .ok (.seq l) :=
    Option.some.inj hg
  have ho' : (assignAll clsMulti prog o) (.priv "BarrierFunctionMultiGLF" "params") = some (.seq l) := by
    unfold readKey at hk
    revert hk
    cases (assignAll clsMulti prog o) (.priv "BarrierFunctionMultiGLF" "params") with
    | none => exact fun h => (nomatch h)
    | some v => exact fun h => by rw [Except.ok.inj h]
  unfold multiValue
  rw [ho']
  show multiGlf mu l = _
  unfold multiGlf
  rw [if_neg (by simpa using Nat.mod_eq_zero_of_dvd h7)]

/-- A multi GLF barrier function of one group, after a rejected change. -/
example : ∃ o, clsMulti.new (fun _ => .seq [0, 1, 1, 1, 1, 1, 0]) = .ok o ∧
    multiValue (assignAll clsMulti [("params", .seq [1])] o) 0 = .ok (sumGlf 0 [0, 1, 1, 1, 1, 1, 0]) := by
  obtain ⟨o, ho⟩ := (C97_new .barrierMultiGlf fun _ => .seq [0, 1, 1, 1, 1, 1, 0]).1.2 fun n _ =>
    ⟨by simp [mustBePositive], fun _ => ⟨_, rfl, by simp⟩⟩
  refine ⟨o, ho, ?_⟩
  obtain ⟨l, hl, _, h⟩ := C97_multi ho [("params", .seq [1])]
  have hno : ¬ Allowed .barrierMultiGlf "params" (.seq [1]) := by
    intro h
    obtain ⟨l, hl, h7⟩ := h.2 (by simp [mustBeGroups])
    rw [← PVal.seq.inj hl] at h7
    simp at h7
  rw [lastAllowed_cons, if_neg (fun h => hno h.2), lastAllowed_nil] at hl
  rw [h, PVal.seq.inj hl]

/-- **C97** (deformations).  Changed deformations use the last radius or angle. -/
theorem C97_deformation {args : String → PVal} {o : Attrs} (prog : List (String × PVal)) (x alphaNorm dist mu0 : ℝ) :
    (clsCircle.new args = .ok o → lastAllowed .circle "radius" (args "radius") prog = .num x →
      circleValue (assignAll clsCircle prog o) alphaNorm dist mu0 = .ok (circleCalcMu x alphaNorm dist mu0)) ∧
    (clsLinear.new args = .ok o → lastAllowed .linear "angle" (args "angle") prog = .num x →
      linearValue (assignAll clsLinear prog o) alphaNorm dist mu0 = .ok (linearCalcMu x alphaNorm dist mu0)) := by
  constructor
  · intro ho hx
    obtain ⟨hiff, hval⟩ := C97_new .circle args
    have hg : clsCircle.getAttr "radius" (assignAll clsCircle prog o) =
        some (.ok (lastAllowed .circle "radius" (args "radius") prog)) :=
      C97_last .circle prog o (by simp [params]) ((hval o ho).1 "radius" (by simp [params]))
    rw [hx] at hg
    have hk : readKey (assignAll clsCircle prog o) (.priv "SensorPeakDeformationCircle" "radius") = .ok (.num x) :=
      Option.some.inj hg
    have ho' : (assignAll clsCircle prog o) (.priv "SensorPeakDeformationCircle" "radius") = some (.num x) := by
      unfold readKey at hk
      revert hk
      cases (assignAll clsCircle prog o) (.priv "SensorPeakDeformationCircle" "radius") with
      | none => exact fun h => (nomatch h)
      | some v => exact fun h => by rw [Except.ok.inj h]
    unfold circleValue
    rw [ho']
  · intro ho hx
    obtain ⟨hiff, hval⟩ := C97_new .linear args
    have hg : clsLinear.getNum "angle" (assignAll clsLinear prog o) = .ok x :=
      getNum_of (by
        rw [← hx]
        exact C97_last .linear prog o (by simp [params]) ((hval o ho).1 "angle" (by simp [params])))
    unfold linearValue
    rw [hg]
    rfl

/-- A circle whose radius is changed from 1 to 2. -/
example : ∃ o, clsCircle.new (fun _ => .num 1) = .ok o ∧
    circleValue (assignAll clsCircle [("radius", .num 2)] o) 1 0 0 = .ok (circleCalcMu 2 1 0 0) := by
  obtain ⟨o, ho⟩ := (C97_new .circle fun _ => .num 1).1.2 fun n _ => ⟨by simp [mustBePositive], by simp [mustBeGroups]⟩
  refine ⟨o, ho, (C97_deformation [("radius", .num 2)] 2 1 0 0).1 ho ?_⟩
  rw [lastAllowed_cons, if_pos ⟨rfl, by simp [mustBePositive], by simp [mustBeGroups]⟩, lastAllowed_nil]

end SimCATS
