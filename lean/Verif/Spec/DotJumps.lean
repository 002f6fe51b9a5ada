import Verif.Model.Simulation
import Verif.Props.Sensor

/-!
Specification of dot jumps.
-/

namespace SimCATS.Spec

/-- In a lane (row or column) of `n` pixels, pixel `c` holds the original value `jump c` pixels earlier, clamped at pixel 0;
if this value is NaN (`none`), it keeps its own value. -/
def Shifted {α : Type} (n : ℕ) (orig : ℕ → Option α) (jump : ℕ → ℕ) (res : ℕ → Option α) : Prop :=
  ∀ c < n, res c = if orig (c - jump c) = none then orig c else orig (c - jump c)

/-- `gen` samples the fields `F` (occupations) and `L` (lead transitions) on the equidistant pixel grid of each requested
scan, for 2D scans with at least 2 pixels per axis and all 1D scans, and has no effect on the state. -/
structure SampledBy {σ : Type} (gen : Gen σ) (F : ℝ → ℝ → ℝ × ℝ) (L : ℝ → ℝ → ℕ) : Prop where
  two : ∀ (v1 v2 : ℝ × ℝ) (c r : ℕ) (s : σ), 2 ≤ c → 2 ≤ r → gen v1 v2 (.arr [(c : ℤ), (r : ℤ)]) s =
    (.ok (.d2 r c fun i j => F (sweepVolt v1 c j) (sweepVolt v2 r i), .d2 r c fun i j => L (sweepVolt v1 c j) (sweepVolt v2 r i)), s)
  one : ∀ (v1 v2 : ℝ × ℝ) (n : ℕ) (s : σ), gen v1 v2 (.int n) s =
    (.ok (.d1 n fun i => F (sweepVolt v1 n i) (sweepVolt v2 n i), .d1 n fun i => L (sweepVolt v1 n i) (sweepVolt v2 n i)), s)

/-- The 2D scan that samples `F` and `L`. -/
noncomputable def grid2 (F : ℝ → ℝ → ℝ × ℝ) (L : ℝ → ℝ → ℕ) (v1 v2 : ℝ × ℝ) (r c : ℕ) : CsdData :=
  (.d2 r c fun i j => F (sweepVolt v1 c j) (sweepVolt v2 r i), .d2 r c fun i j => L (sweepVolt v1 c j) (sweepVolt v2 r i))

/-- The 1D scan that samples `F` and `L`. -/
noncomputable def grid1 (F : ℝ → ℝ → ℝ × ℝ) (L : ℝ → ℝ → ℕ) (v1 v2 : ℝ × ℝ) (n : ℕ) : CsdData :=
  (.d1 n fun i => F (sweepVolt v1 n i) (sweepVolt v2 n i), .d1 n fun i => L (sweepVolt v1 n i) (sweepVolt v2 n i))

/-- Voltage of pixel `k` of the pixel grid of an axis, continued to negative pixels. -/
noncomputable def gridVolt (g : ℝ × ℝ) (n : ℕ) (k : ℤ) : ℝ := g.1 + k * ((g.2 - g.1) / ((n : ℝ) - 1))

/-- The image with the descending axes reversed, so that both axes ascend. -/
noncomputable def mirror {r c : ℕ} {α : Type} (g1 g2 : ℝ × ℝ) (f : Fin r → Fin c → α) : Fin r → Fin c → α :=
  open Classical in
  fun i j => f (if g2.2 < g2.1 then i.rev else i) (if g1.2 < g1.1 then j.rev else j)

/-- The limits in ascending order. -/
noncomputable def ascending (g : ℝ × ℝ) : ℝ × ℝ := (min g.1 g.2, max g.1 g.2)

/-- A 2D distortion `D` acts on a scan with limits `g1`, `g2` in the same way as on the mirrored scan with ascending limits. -/
def MirrorLaw {σ : Type} (D : OccDist σ) (g1 g2 : ℝ × ℝ) : Prop :=
  ∀ (r c : ℕ) (occ : Fin r → Fin c → ℝ × ℝ) (lead : Fin r → Fin c → ℕ) (gen : Gen σ) (freeze : Bool) (s s' : σ)
    (occ' : Fin r → Fin c → ℝ × ℝ) (lead' : Fin r → Fin c → ℕ),
    D (.d2 r c (mirror g1 g2 occ), .d2 r c (mirror g1 g2 lead)) (ascending g1) (ascending g2) gen freeze s =
      (.ok (.d2 r c occ', .d2 r c lead'), s') →
    D (.d2 r c occ, .d2 r c lead) g1 g2 gen freeze s = (.ok (.d2 r c (mirror g1 g2 occ'), .d2 r c (mirror g1 g2 lead')), s')

/-- A call without effect on the state whose result does not depend on it. -/
def StateFree {σ α : Type} (x : M σ α) : Prop := ∃ r, ∀ s, x s = (r, s)

end SimCATS.Spec
