import Verif.Model.Sensor

/-! `plot_csd`: what is handed to matplotlib.

The calls of matplotlib are collected in a `Figure` (trusted base: `imshow` with `origin="lower"` draws entry `(i, j)` around
the point `x = j`, `y = i` with pixels of height/width `aspect`; `plot` draws entry `i` at `x = i`; `xticks` and `yticks` put
the given labels at the given positions).  The text `"%.3f" % x.round(3)` of a number is a parameter `fmt`.

Not modelled: fonts, resolution, the layout, the file written for `save_path`, exceptions of matplotlib (e.g. for an aspect
that is zero or infinite because one of the ranges is a single voltage). -/

namespace SimCATS

/-- What is drawn: nothing, an image, or a line.
Auxiliary definition, used for simcats/support_functions/_plotting.py:125-147, 188-204. -/
inductive Figure
  | empty
  | image (r c : ℕ) (data : Fin r → Fin c → ℝ) (aspect : ℝ) (xTicks yTicks : List (ℝ × String)) (xLabel yLabel : String)
      (colorbar title : Option String)
  | line (n : ℕ) (data : Fin n → ℝ) (xTicks : List (ℝ × String)) (yTicks : List ℝ) (xLabel yLabel : String)
      (title : Option String)

/-- The optional arguments of `plot_csd` with effect on the figure.
Models simcats/support_functions/_plotting.py:16-23. -/
structure PlotOpts where
  title : Option String := none
  sensorLabel : Option String := some "Sensor signal [a.u.]"
  gateLabels : Option (List String) := none
  unit : String := "V"
  sort : Bool := true
  xTicks : ℤ := 5
  yTicks : ℤ := 5

/-- `np.linspace(a, b, k)` as list, `ValueError` for a negative number.
Library function, used in simcats/support_functions/_plotting.py:130-135, 191-196. -/
noncomputable def linList (a b : ℝ) (k : ℤ) : Py (List ℝ) :=
  if k < 0 then .error .valueError else .ok ((List.range k.toNat).map (linAt a b k.toNat))

/-- `limits[::-1]`.
Models simcats/support_functions/_plotting.py:119-123, 184-186. -/
def revLim (g : ℝ × ℝ) : ℝ × ℝ := (g.2, g.1)

/-- `_plot_csd_2d`.
Models simcats/support_functions/_plotting.py:116-147.
Simplification: division by zero in the aspect is zero here. -/
noncomputable def plot2d (fmt : ℝ → String) (r c : ℕ) (csd : Fin r → Fin c → ℝ) (g1 g2 : ℝ × ℝ) (title cb : Option String)
    (xLabel yLabel : String) (sort : Bool) (kx ky : ℤ) : Py Figure :=
  open Classical in
  let s2 := sort = true ∧ g2.1 > g2.2
  let csd := if s2 then fun i j => csd i.rev j else csd
  let g2 := if s2 then revLim g2 else g2
  let s1 := sort = true ∧ g1.1 > g1.2
  let csd := if s1 then fun i j => csd i j.rev else csd
  let g1 := if s1 then revLim g1 else g1
  let xExtent := max g1.1 g1.2 - min g1.1 g1.2
  let yExtent := max g2.1 g2.2 - min g2.1 g2.2
  let aspect := (yExtent / r) / (xExtent / c)
  do
    let xp ← linList 0 ((c : ℝ) - 1) kx
    let xv ← linList g1.1 g1.2 kx
    let yp ← linList 0 ((r : ℝ) - 1) ky
    let yv ← linList g2.1 g2.2 ky
    pure (.image r c csd aspect (xp.zip (xv.map fmt)) (yp.zip (yv.map fmt)) xLabel yLabel cb title)

/-- `np.min` and `np.max` of an array, `ValueError` if it is empty.
Library function, used in simcats/support_functions/_plotting.py:196. -/
noncomputable def minMax {n : ℕ} (f : Fin n → ℝ) : Py (ℝ × ℝ) :=
  if h : n = 0 then .error .valueError
  else .ok (Finset.univ.inf' ⟨⟨0, Nat.pos_of_ne_zero h⟩, Finset.mem_univ _⟩ f,
    Finset.univ.sup' ⟨⟨0, Nat.pos_of_ne_zero h⟩, Finset.mem_univ _⟩ f)

/-- `_plot_csd_1d`.
Models simcats/support_functions/_plotting.py:182-204. -/
noncomputable def plot1d (fmt : ℝ → String) (n : ℕ) (csd : Fin n → ℝ) (g1 g2 : ℝ × ℝ) (title : Option String)
    (xLabel yLabel : String) (sort : Bool) (kx ky : ℤ) : Py Figure :=
  open Classical in
  let s := sort = true ∧ g1.1 > g1.2
  let csd := if s then fun i => csd i.rev else csd
  let g1' := if s then revLim g1 else g1
  let g2' := if s then revLim g2 else g2
  do
    let v1 ← linList g1'.1 g1'.2 kx
    let v2 ← linList g2'.1 g2'.2 kx
    let xp ← linList 0 ((n : ℝ) - 1) kx
    let m ← minMax csd
    let yp ← linList m.1 m.2 ky
    pure (.line n csd (xp.zip (List.zipWith (fun a b => "(" ++ fmt a ++ ";" ++ fmt b ++ ")") v1 v2)) yp xLabel yLabel title)

/-- `gate_labels[i]`.
Models simcats/support_functions/_plotting.py:49-77. -/
def gateLabel (l : List String) (i : ℕ) : Py String :=
  match l[i]? with
  | some s => .ok s
  | none => .error .indexError

/-- `plot_csd`.  `sensor_label` may be `None` for images (no colorbar); a line has then no label.
Models simcats/support_functions/_plotting.py:49-77. -/
noncomputable def plotCsd (fmt : ℝ → String) (csd : Scan ℝ) (g1 g2 : ℝ × ℝ) (o : PlotOpts) : Py Figure := do
  let labels := o.gateLabels.getD ["g1", "g2"]
  match csd with
  | .d1 n f => do
    let a ← gateLabel labels 0
    let b ← gateLabel labels 1
    plot1d fmt n f g1 g2 o.title ("(" ++ a ++ ";" ++ b ++ ") [" ++ o.unit ++ "]") (o.sensorLabel.getD "") o.sort o.xTicks o.yTicks
  | .d2 r c f => do
    let a ← gateLabel labels 0
    let b ← gateLabel labels 1
    plot2d fmt r c f g1 g2 o.title o.sensorLabel (a ++ " [" ++ o.unit ++ "]") (b ++ " [" ++ o.unit ++ "]") o.sort o.xTicks o.yTicks
  | .d0 _ => pure .empty

end SimCATS
