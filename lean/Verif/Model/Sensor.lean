import Verif.Model.Peaks
import Verif.Model.IdealCsd

/-!
Models of simcats/sensor/_sensor_generic.py and simcats/support_functions/_reset_offset_mu_sens.py.
-/

namespace SimCATS

/-- A numpy array over the pixels of a scan: a 1D scan of `n` pixels, a 2D scan with `r` rows (gate 2) and `c` columns
(gate 1), or (degenerate) a single number.
Auxiliary definition, used for the arrays of simcats/sensor/_sensor_generic.py:164-216. -/
inductive Scan (α : Type)
  | d0 (x : α)
  | d1 (n : ℕ) (f : Fin n → α)
  | d2 (r c : ℕ) (f : Fin r → Fin c → α)

/-- `.shape` of the array (the trailing axis of length 2 of occupations is part of the entry type).
Auxiliary definition, used for the arrays of simcats/sensor/_sensor_generic.py:164-216. -/
def Scan.shape {α : Type} : Scan α → List ℕ
  | .d0 _ => []
  | .d1 n _ => [n]
  | .d2 r c _ => [r, c]

/-- Elementwise function (numpy broadcasting of a scalar function).
Auxiliary definition, used for the arrays of simcats/sensor/_sensor_generic.py:164-216. -/
def Scan.map {α β : Type} (g : α → β) : Scan α → Scan β
  | .d0 x => .d0 (g x)
  | .d1 n f => .d1 n fun i => g (f i)
  | .d2 r c f => .d2 r c fun i j => g (f i j)

/-- Scalar product of two vectors of length two (`.dot`).
Library function, used in simcats/sensor/_sensor_generic.py:215. -/
def dot2 (a b : ℝ × ℝ) : ℝ := a.1 * b.1 + a.2 * b.2

/-- State of a `SensorGeneric`.
Models simcats/sensor/_sensor_generic.py:20-43 (constructor) and the properties. -/
structure SensorGeneric where
  peaks : Option (List Peak)
  alphaDot : ℝ × ℝ
  alphaGate : ℝ × ℝ
  offset : ℝ

/-- `sensor_potential(occupations, volt_limits_g1, volt_limits_g2)`.  Occupations that are neither 2- nor 3-dimensional
leave `voltages` unbound.  For an empty scan the list of voltages has no entries, and `np.array([]).dot` with the two
lever arms raises `ValueError` (shapes not aligned).
Models simcats/sensor/_sensor_generic.py:201-216. -/
noncomputable def SensorGeneric.potential (s : SensorGeneric) (occ : Scan (ℝ × ℝ)) (g1 g2 : ℝ × ℝ) : Py (Scan ℝ) :=
  match occ with
  | .d0 _ => .error .unboundLocalError
  | .d1 n f => if n = 0 then .error .valueError else .ok (.d1 n fun i =>
      dot2 (f i) s.alphaDot + dot2 (linspace g1.1 g1.2 n i, linspace g2.1 g2.2 n i) s.alphaGate + s.offset)
  | .d2 r c f => if r = 0 ∨ c = 0 then .error .valueError else .ok (.d2 r c fun i j =>
      dot2 (f i j) s.alphaDot + dot2 (linspace g1.1 g1.2 c j, linspace g2.1 g2.2 r i) s.alphaGate + s.offset)

/-- `np.sum([p.sensor_function(mu) for p in peaks], axis=0)` at one potential.
Models simcats/sensor/_sensor_generic.py:179. -/
noncomputable def sumPeaks (ps : List Peak) (mu : ℝ) : ℝ := (ps.map fun p => p.eval mu).sum

/-- `sensor_response(mu_sens)`; the sum over an empty list of peaks is the number 0 (numpy), not an array.
Models simcats/sensor/_sensor_generic.py:176-179. -/
noncomputable def SensorGeneric.response (s : SensorGeneric) (mu : Scan ℝ) : Scan ℝ :=
  match s.peaks with
  | none => mu
  | some [] => .d0 0
  | some ps => mu.map (sumPeaks ps)

/-- Occupations and lead transitions as returned by a CSD generator.
Auxiliary definition, used for simcats/ideal_csd/_ideal_csd_interface.py:19 (the result of `get_csd_data`). -/
abbrev CsdData := Scan (ℝ × ℝ) × Scan ℕ

/-- The data returned by `ideal_csd_geometric` as arrays.
Auxiliary definition, used for simcats/ideal_csd/_ideal_csd_interface.py:19 (the result of `get_csd_data`). -/
def IdealOut.data : IdealOut → CsdData
  | .d1 n occ lead => (.d1 n occ, .d1 n lead)
  | .d2 r c occ lead => (.d2 r c occ, .d2 r c lead)

/-- `reset_offset_mu_sens(sim, target, sweep_range_g1, sweep_range_g2)` for a simulation with a `SensorGeneric`;
`csd` is the CSD generator of the simulation at resolution 2.
Models simcats/support_functions/_reset_offset_mu_sens.py:38-43. -/
noncomputable def resetOffset (s : SensorGeneric) (csd : ℝ × ℝ → ℝ × ℝ → Py (Scan (ℝ × ℝ))) (target : ℝ)
    (g1 g2 : ℝ × ℝ) : Py SensorGeneric :=
  match csd g1 g2 with
  | .error e => .error e
  | .ok occ =>
    match s.potential occ g1 g2 with
    | .error e => .error e
    | .ok (.d1 (_ + 1) f) => .ok { s with offset := target - (f 0 - s.offset) }
    -- a 2D generator result would make `potentials[0]` an array, which the offset setter rejects
    | .ok _ => .error .valueError

end SimCATS
