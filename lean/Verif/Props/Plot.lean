import Verif.Lemmas.Plot
import Mathlib.Tactic.NormNum

/-! Plots show the measured values at the voltages at which they were measured. -/

namespace SimCATS

open Spec

/-- **C82 (images)**: every measured value is drawn once, at the voltages at which it was measured; the ticks name the voltages
of their places; the image has the proportions of the voltage ranges; sorted axes ascend, others run as measured. -/
theorem C82_image (fmt : ℝ → String) {r c : ℕ} (hr : 2 ≤ r) (hc : 2 ≤ c) (csd : Fin r → Fin c → ℝ) (g1 g2 : ℝ × ℝ) (o : PlotOpts)
    {a b : String} {rest : List String} (hl : o.gateLabels.getD ["g1", "g2"] = a :: b :: rest) {kx ky : ℕ}
    (hx : o.xTicks = kx) (hy : o.yTicks = ky) :
    ∃ data aspect tx ty h1 h2,
      plotCsd fmt (.d2 r c csd) g1 g2 o = .ok (.image r c data aspect tx ty (a ++ " [" ++ o.unit ++ "]") (b ++ " [" ++ o.unit ++ "]")
        o.sensorLabel o.title) ∧
      ShowsImage csd g1 g2 h1 h2 data ∧
      TicksName (fun x => fmt (scaleAt h1.1 h1.2 c x)) c kx tx ∧ TicksName (fun y => fmt (scaleAt h2.1 h2.2 r y)) r ky ty ∧
      (o.sort = true → h1.1 ≤ h1.2 ∧ h2.1 ≤ h2.2) ∧ (o.sort = false → data = csd ∧ h1 = g1 ∧ h2 = g2) ∧
      (g1.1 ≠ g1.2 → (r * aspect) / c = |g2.2 - g2.1| / |g1.2 - g1.1|) := by
  have hp : plotCsd fmt (.d2 r c csd) g1 g2 o = plot2d fmt r c csd g1 g2 o.title o.sensorLabel (a ++ " [" ++ o.unit ++ "]")
      (b ++ " [" ++ o.unit ++ "]") o.sort kx ky := by
    unfold plotCsd
    simp only [hl, hx, hy]
    rfl
  rw [hp, plot2d_run]
  refine ⟨_, _, _, _, shownLim o.sort g1, shownLim o.sort g2, rfl, ⟨shownPix o.sort g2, shownPix o.sort g1, fun i j =>
    ⟨rfl, shown_volt _ _ hc _, shown_volt _ _ hr _⟩⟩, ?_, ?_, ?_, ?_, ?_⟩
  · refine ticks_name _ hc ?_
    simp only [scale_linAt _ _ hc, axisTicks]
  · refine ticks_name _ hr ?_
    simp only [scale_linAt _ _ hr, axisTicks]
  · intro h
    rw [h]
    exact ⟨shownLim_sorted _, shownLim_sorted _⟩
  · intro h
    rw [h]
    refine ⟨?_, shownLim_unsorted _, shownLim_unsorted _⟩
    unfold shownPix
    rw [if_neg (by simp), if_neg (by simp)]
    rfl
  · intro h
    have h0 : |g1.2 - g1.1| ≠ 0 := abs_ne_zero.mpr (sub_ne_zero.mpr (Ne.symm h))
    have hr0 : (r : ℝ) ≠ 0 := by exact_mod_cast (by omega : r ≠ 0)
    have hc0 : (c : ℝ) ≠ 0 := by exact_mod_cast (by omega : c ≠ 0)
    field_simp

/-- **C82 (direction)**: with sorting, the figure does not depend on the direction in which an axis was measured. -/
theorem C82_image_direction (fmt : ℝ → String) {r c : ℕ} (csd : Fin r → Fin c → ℝ) (g1 g2 : ℝ × ℝ) (o : PlotOpts)
    (hs : o.sort = true) {kx ky : ℕ} (hx : o.xTicks = kx) (hy : o.yTicks = ky) :
    (g1.1 ≠ g1.2 → plotCsd fmt (.d2 r c fun i j => csd i j.rev) (g1.2, g1.1) g2 o = plotCsd fmt (.d2 r c csd) g1 g2 o) ∧
    (g2.1 ≠ g2.2 → plotCsd fmt (.d2 r c fun i j => csd i.rev j) g1 (g2.2, g2.1) o = plotCsd fmt (.d2 r c csd) g1 g2 o) := by
  have key : ∀ (csd csd' : Fin r → Fin c → ℝ) (g1 g2 g1' g2' : ℝ × ℝ), (∀ xl yl,
      plot2d fmt r c csd' g1' g2' o.title o.sensorLabel xl yl true kx ky =
        plot2d fmt r c csd g1 g2 o.title o.sensorLabel xl yl true kx ky) →
      plotCsd fmt (.d2 r c csd') g1' g2' o = plotCsd fmt (.d2 r c csd) g1 g2 o := by
    intro csd csd' g1 g2 g1' g2' h
    unfold plotCsd
    simp only [hs, hx, hy, h]
  constructor <;> intro hg <;> apply key <;> intro xl yl
  · have e := shownLim_rev hg
    have e' := fun i => shownPix_rev hg (n := c) i
    have hab := abs_sub_comm g1.1 g1.2
    unfold revLim at e e'
    rw [plot2d_run, plot2d_run, e]
    simp only [e', hab]
  · have e := shownLim_rev hg
    have e' := fun i => shownPix_rev hg (n := r) i
    have hab := abs_sub_comm g2.1 g2.2
    unfold revLim at e e'
    rw [plot2d_run, plot2d_run, e]
    simp only [e', hab]

/-- **C82 (lines)**: every measured value is drawn once, at the voltages of both gates at which it was measured; the ticks name
both voltages of their places; the ticks of the signal run from its minimum to its maximum; with sorting gate 1 ascends. -/
theorem C82_line (fmt : ℝ → String) {n : ℕ} (hn : 2 ≤ n) (csd : Fin n → ℝ) (g1 g2 : ℝ × ℝ) (o : PlotOpts)
    {a b : String} {rest : List String} (hl : o.gateLabels.getD ["g1", "g2"] = a :: b :: rest) {kx ky : ℕ}
    (hx : o.xTicks = kx) (hy : o.yTicks = ky) :
    ∃ data tx h1 h2 lo hi,
      plotCsd fmt (.d1 n csd) g1 g2 o = .ok (.line n data tx ((List.range ky).map (linAt lo hi ky))
        ("(" ++ a ++ ";" ++ b ++ ") [" ++ o.unit ++ "]") (o.sensorLabel.getD "") o.title) ∧
      ShowsLine csd g1 g2 h1 h2 data ∧
      TicksName (fun x => pairText fmt (scaleAt h1.1 h1.2 n x) (scaleAt h2.1 h2.2 n x)) n kx tx ∧
      ((∃ i, csd i = lo) ∧ (∃ i, csd i = hi) ∧ ∀ i, lo ≤ csd i ∧ csd i ≤ hi) ∧
      (o.sort = true → h1.1 ≤ h1.2) ∧ (o.sort = false → data = csd ∧ h1 = g1 ∧ h2 = g2) := by
  have hp : plotCsd fmt (.d1 n csd) g1 g2 o = plot1d fmt n csd g1 g2 o.title ("(" ++ a ++ ";" ++ b ++ ") [" ++ o.unit ++ "]")
      (o.sensorLabel.getD "") o.sort kx ky := by
    unfold plotCsd
    simp only [hl, hx, hy]
    rfl
  obtain ⟨m, hm, ⟨i1, h1⟩, ⟨i2, h2⟩, h3⟩ := minMax_run (by omega : 1 ≤ n) fun i => csd (shownPix o.sort g1 i)
  rw [hp, plot1d_run _ _ _ _ _ _ _ _ _ _ hm]
  refine ⟨_, _, shownLim o.sort g1, shownWith o.sort g1 g2, m.1, m.2, rfl, ⟨shownPix o.sort g1, fun i =>
    ⟨rfl, shown_volt _ _ hn _, shown_volt_with _ _ _ hn _⟩⟩, ?_, ⟨⟨_, h1⟩, ⟨_, h2⟩, fun i => ?_⟩, ?_, ?_⟩
  · refine ticks_name _ hn ?_
    simp only [scale_linAt _ _ hn, lineTicks]
  · have := h3 ((shownPix o.sort g1).symm i)
    simpa using this
  · intro h
    rw [h]
    exact shownLim_sorted _
  · intro h
    rw [h]
    unfold shownPix shownWith
    rw [if_neg (by simp), if_neg (by simp)]
    exact ⟨rfl, shownLim_unsorted _, rfl⟩

/-- **C82 (direction of lines)**: with sorting, the figure does not depend on the direction in which a line with changing
voltage of gate 1 was measured. -/
theorem C82_line_direction (fmt : ℝ → String) {n : ℕ} (hn : 1 ≤ n) (csd : Fin n → ℝ) (g1 g2 : ℝ × ℝ) (o : PlotOpts)
    (hs : o.sort = true) {kx ky : ℕ} (hx : o.xTicks = kx) (hy : o.yTicks = ky) (hg : g1.1 ≠ g1.2) :
    plotCsd fmt (.d1 n fun i => csd i.rev) (g1.2, g1.1) (g2.2, g2.1) o = plotCsd fmt (.d1 n csd) g1 g2 o := by
  obtain ⟨m, hm, -⟩ := minMax_run hn fun i => csd (shownPix true g1 i)
  have e := shownLim_rev hg
  have e' := fun i => shownPix_rev hg (n := n) i
  have e'' := shownWith_rev hg g2
  unfold revLim at e e' e''
  have hm' : minMax (fun i => (fun i => csd i.rev) (shownPix true (g1.2, g1.1) i)) = .ok m := by
    simp only [e']
    exact hm
  have key : ∀ xl yl, plot1d fmt n (fun i => csd i.rev) (g1.2, g1.1) (g2.2, g2.1) o.title xl yl true kx ky =
      plot1d fmt n csd g1 g2 o.title xl yl true kx ky := by
    intro xl yl
    rw [plot1d_run fmt csd g1 g2 o.title xl yl true kx ky hm,
      plot1d_run fmt (fun i => csd i.rev) (g1.2, g1.1) (g2.2, g2.1) o.title xl yl true kx ky hm', e, e'']
    simp only [e']
  unfold plotCsd
  simp only [hs, hx, hy, key]

/-- **C82 (lines of gate 2)**: a line at a fixed voltage of gate 1 is shown in the direction in which it was measured, also
with sorting. -/
theorem C82_line_gate2 (fmt : ℝ → String) {n : ℕ} (csd : Fin n → ℝ) (v : ℝ) (g2 : ℝ × ℝ) (o : PlotOpts) :
    plotCsd fmt (.d1 n csd) (v, v) g2 o = plotCsd fmt (.d1 n csd) (v, v) g2 { o with sort := false } := by
  unfold plotCsd plot1d
  simp only [gt_iff_lt, lt_irrefl, and_false]

/-- **C82 (errors)**: too few labels, a negative number of ticks and an empty line are rejected; data with neither one nor two
axes is not drawn. -/
theorem C82_errors (fmt : ℝ → String) (g1 g2 : ℝ × ℝ) (o : PlotOpts) :
    (∀ x, plotCsd fmt (.d0 x) g1 g2 o = .ok .empty) ∧
    (∀ l, o.gateLabels = some l → l.length < 2 → ∀ csd : Scan ℝ, (∀ x, csd ≠ .d0 x) →
      plotCsd fmt csd g1 g2 o = .error .indexError) ∧
    (∀ csd : Scan ℝ, (∀ x, csd ≠ .d0 x) → 2 ≤ (o.gateLabels.getD ["g1", "g2"]).length → (o.xTicks < 0 ∨ o.yTicks < 0) →
      plotCsd fmt csd g1 g2 o = .error .valueError) ∧
    (∀ f, 2 ≤ (o.gateLabels.getD ["g1", "g2"]).length → plotCsd fmt (.d1 0 f) g1 g2 o = .error .valueError) := by
  have lin : ∀ {k : ℤ} (a b : ℝ), k < 0 → linList a b k = .error .valueError := by
    intro k a b h
    unfold linList
    rw [if_pos h]
  have lin' : ∀ {k : ℤ} (a b : ℝ), ¬ k < 0 → ∃ l, linList a b k = .ok l := by
    intro k a b h
    unfold linList
    rw [if_neg h]
    exact ⟨_, rfl⟩
  refine ⟨fun x => rfl, ?_, ?_, ?_⟩
  · intro l hl h2 csd h0
    unfold plotCsd
    rw [hl]
    simp only [Option.getD_some]
    rcases l with _ | ⟨a, _ | ⟨b, l⟩⟩
    · cases csd with
      | d0 x => exact absurd rfl (h0 x)
      | d1 => rfl
      | d2 => rfl
    · cases csd with
      | d0 x => exact absurd rfl (h0 x)
      | d1 => rfl
      | d2 => rfl
    · simp at h2
  · intro csd h0 hl hk
    generalize hL : o.gateLabels.getD ["g1", "g2"] = l at hl
    obtain ⟨a, b, l, rfl⟩ : ∃ a b l', l = a :: b :: l' := by
      rcases l with _ | ⟨a, _ | ⟨b, l⟩⟩
      · simp at hl
      · simp at hl
      · exact ⟨a, b, l, rfl⟩
    unfold plotCsd
    simp only [hL, gateLabel, List.getElem?_cons_zero, List.getElem?_cons_succ]
    cases csd with
    | d0 x => exact absurd rfl (h0 x)
    | d1 n f =>
      simp only [bind, Except.bind, plot1d]
      by_cases hx : o.xTicks < 0
      · simp only [lin _ _ hx]
      · have hy := hk.resolve_left hx
        generalize (if o.sort = true ∧ g1.1 > g1.2 then fun i => f i.rev else f) = f'
        obtain ⟨l1, e1⟩ := lin' (if o.sort = true ∧ g1.1 > g1.2 then revLim g1 else g1).1
          (if o.sort = true ∧ g1.1 > g1.2 then revLim g1 else g1).2 hx
        obtain ⟨l2, e2⟩ := lin' (if o.sort = true ∧ g1.1 > g1.2 then revLim g2 else g2).1
          (if o.sort = true ∧ g1.1 > g1.2 then revLim g2 else g2).2 hx
        obtain ⟨l3, e3⟩ := lin' 0 ((n : ℝ) - 1) hx
        rw [e1, e2, e3]
        unfold minMax
        by_cases hn : n = 0
        · rw [dif_pos hn]
        · rw [dif_neg hn]
          simp only [lin _ _ hy]
    | d2 r c f =>
      simp only [bind, Except.bind, plot2d]
      by_cases hx : o.xTicks < 0
      · simp only [lin _ _ hx]
      · have hy := hk.resolve_left hx
        obtain ⟨l1, e1⟩ := lin' (if o.sort = true ∧ g1.1 > g1.2 then revLim g1 else g1).1
          (if o.sort = true ∧ g1.1 > g1.2 then revLim g1 else g1).2 hx
        obtain ⟨l3, e3⟩ := lin' 0 ((c : ℝ) - 1) hx
        rw [e1, e3]
        simp only [lin _ _ hy]
  · intro f hl
    generalize hL : o.gateLabels.getD ["g1", "g2"] = l at hl
    obtain ⟨a, b, l, rfl⟩ : ∃ a b l', l = a :: b :: l' := by
      rcases l with _ | ⟨a, _ | ⟨b, l⟩⟩
      · simp at hl
      · simp at hl
      · exact ⟨a, b, l, rfl⟩
    unfold plotCsd
    simp only [hL, gateLabel, List.getElem?_cons_zero, List.getElem?_cons_succ]
    simp only [bind, Except.bind, plot1d]
    by_cases hx : o.xTicks < 0
    · simp only [lin _ _ hx]
    · obtain ⟨l1, e1⟩ := lin' (if o.sort = true ∧ g1.1 > g1.2 then revLim g1 else g1).1
        (if o.sort = true ∧ g1.1 > g1.2 then revLim g1 else g1).2 hx
      obtain ⟨l2, e2⟩ := lin' (if o.sort = true ∧ g1.1 > g1.2 then revLim g2 else g2).1
        (if o.sort = true ∧ g1.1 > g1.2 then revLim g2 else g2).2 hx
      obtain ⟨l3, e3⟩ := lin' 0 (((0 : ℕ) : ℝ) - 1) hx
      rw [e1, e2, e3]
      rfl

/-! ### Examples -/

/-- An image of 2 x 3 pixels measured downwards along gate 1: the default options meet the hypotheses. -/
example : ∃ data aspect tx ty xl yl cb title,
    plotCsd (fun _ => "v") (.d2 2 3 fun i j => (i : ℝ) + 10 * j) (0.2, 0.1) (0, 1) {} = .ok (.image 2 3 data aspect tx ty xl yl cb title) ∧
    tx.length = 5 := by
  obtain ⟨data, aspect, tx, ty, h1, h2, h, -, ht, -⟩ := C82_image (fun _ => "v") (le_refl 2) (by norm_num : 2 ≤ 3)
    (fun i j => (i : ℝ) + 10 * j) (0.2, 0.1) (0, 1) {} (a := "g1") (b := "g2") (rest := []) rfl (kx := 5) (ky := 5) rfl rfl
  exact ⟨_, _, _, _, _, _, _, _, h, ht.1⟩

/-- The first drawn column of this image is the last measured one. -/
example (fmt : ℝ → String) (csd : Fin 2 → Fin 3 → ℝ) (data : Fin 2 → Fin 3 → ℝ) (aspect tx ty xl yl cb title)
    (h : plotCsd fmt (.d2 2 3 csd) (0.2, 0.1) (0, 1) {} = .ok (.image 2 3 data aspect tx ty xl yl cb title)) :
    data 0 0 = csd 0 2 := by
  have : plotCsd fmt (.d2 2 3 csd) (0.2, 0.1) (0, 1) {} = plot2d fmt 2 3 csd (0.2, 0.1) (0, 1) none (some "Sensor signal [a.u.]")
    ("g1" ++ " [" ++ "V" ++ "]") ("g2" ++ " [" ++ "V" ++ "]") true ((5 : ℕ) : ℤ) ((5 : ℕ) : ℤ) := rfl
  rw [this, plot2d_run] at h
  simp only [Except.ok.injEq, Figure.image.injEq, heq_eq_eq, true_and] at h
  rw [← h.1]
  unfold shownPix
  rw [if_neg (by norm_num), if_pos (by norm_num)]
  rfl

example : (∃ f, plotCsd (fun _ => "v") (.d1 4 fun i => (i : ℝ)) (0.2, 0.1) (0, 1) {} = .ok f) :=
  let ⟨_, _, _, _, _, _, h, _⟩ := C82_line (fun _ => "v") (by norm_num : 2 ≤ 4) (fun i => (i : ℝ)) (0.2, 0.1) (0, 1) {}
    (a := "g1") (b := "g2") (rest := []) rfl (kx := 5) (ky := 5) rfl rfl
  ⟨_, h⟩

example : plotCsd (fun _ => "v") (.d1 4 fun i => (i : ℝ)) (0, 1) (0, 1) { xTicks := -1 } = .error .valueError :=
  (C82_errors _ _ _ _).2.2.1 _ (by simp) (by simp) (by simp)

end SimCATS
