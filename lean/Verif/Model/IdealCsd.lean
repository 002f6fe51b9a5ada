import Verif.Model.LeadMask

/-!
Model of simcats/ideal_csd/geometric/_ideal_csd_geometric.py.
-/

namespace SimCATS

/-- The argument `resolution`: a Python `int` or an array of ints.
Models simcats/ideal_csd/geometric/_ideal_csd_geometric.py:82-83 (the types of the argument). -/
inductive Resolution
  | int (n : ℤ)
  | arr (ns : List ℤ)

/-- `if isinstance(resolution, int): resolution = np.array([resolution])`.
Models simcats/ideal_csd/geometric/_ideal_csd_geometric.py:82-83. -/
def Resolution.entries : Resolution → List ℤ
  | .int n => [n]
  | .arr ns => ns

/-- `volt_limits[0] == volt_limits[1]`; arrays with fewer than two entries raise `IndexError`.
Models simcats/ideal_csd/geometric/_ideal_csd_geometric.py:86-125 (the comparisons of the limits). -/
noncomputable def fixedVolt (v : List ℝ) : Py Bool :=
  match v with
  | a :: b :: _ => .ok (open Classical in decide (a = b))
  | _ => .error .indexError

/-- `len(resolution) == 2 and (g1[0] == g1[1] or g2[0] == g2[1])`.
Models simcats/ideal_csd/geometric/_ideal_csd_geometric.py:86 and 107-111. -/
noncomputable def fixed2d (v1 v2 : List ℝ) (res : List ℤ) : Py Bool :=
  if res.length ≠ 2 then .ok false
  else match fixedVolt v1 with
    | .error e => .error e
    | .ok true => .ok true
    | .ok false => fixedVolt v2

/-- The argument checks in the order of the code.
Models simcats/ideal_csd/geometric/_ideal_csd_geometric.py:86-125. -/
noncomputable def idealCheck (v1 v2 : List ℝ) (res : List ℤ) : Py Unit :=
  match fixed2d v1 v2 res with
  | .error e => .error e
  | .ok true => .error .valueError
  | .ok false =>
    if ¬ (v1.length = 2 ∧ v2.length = 2) then .error .valueError
    else if res.length > 2 then .error .valueError
    else match fixed2d v1 v2 res with
      | .error e => .error e
      | .ok true => .error .valueError
      | .ok false =>
        match res with
        | [a, b] => if a ≤ 1 ∨ b ≤ 1 then .error .valueError else .ok ()
        | _ => .ok ()

/-- Result of `ideal_csd_geometric`: occupations and lead transition mask of a 1D or 2D scan.
Models simcats/ideal_csd/geometric/_ideal_csd_geometric.py:187. -/
inductive IdealOut
  | d1 (n : ℕ) (occ : Fin n → ℝ × ℝ) (lead : Fin n → ℕ)
  /-- `r` rows (gate 2) and `c` columns (gate 1) -/
  | d2 (r c : ℕ) (occ : Fin r → Fin c → ℝ × ℝ) (lead : Fin r → Fin c → ℕ)

/-- Pixel voltages (gate 1, gate 2) of a 1D scan.
Models simcats/ideal_csd/geometric/_get_electron_occupation.py:146-150, 188. -/
noncomputable def pts1d (g1 g2 : ℝ × ℝ) (n : ℕ) : Fin n → ℝ × ℝ :=
  fun i => (linspace g1.1 g1.2 n i, linspace g2.1 g2.2 n i)

/-- Pixel voltages (gate 1, gate 2) of a 2D scan, indexed by (row, column).
Models simcats/ideal_csd/geometric/_get_electron_occupation.py:146-148, 171. -/
noncomputable def pts2d (g1 g2 : ℝ × ℝ) (r c : ℕ) : Fin r × Fin c → ℝ × ℝ :=
  fun ij => (linspace g1.1 g1.2 c ij.2, linspace g2.1 g2.2 r ij.1)

/-- The branch `len(resolution) == 1`.
Models simcats/ideal_csd/geometric/_ideal_csd_geometric.py:137-150. -/
noncomputable def ideal1d (cfg : IdealCfg) (g1 g2 : ℝ × ℝ) (n : ℕ) : Py (( Fin n → ℝ × ℝ) × (Fin n → ℕ)) :=
  match occupation1d cfg n (pts1d g1 g2 n) with
  | .error e => .error e
  | .ok occ =>
    let total : ℕ → ℝ := fun i => if h : i < n then (occ ⟨i, h⟩).1 + (occ ⟨i, h⟩).2 else 0
    .ok (occ, fun i => leadMask1d n total i)

/-- `np.sort` of two voltage limits.
Library function, used in simcats/ideal_csd/geometric/_ideal_csd_geometric.py:159-160, 169-170. -/
noncomputable def sortLim (g : ℝ × ℝ) : ℝ × ℝ := (min g.1 g.2, max g.1 g.2)

/-- Image `[::-1, :]` if `flip`.
Models simcats/ideal_csd/geometric/_ideal_csd_geometric.py:180-185. -/
def flipRows {r c : ℕ} {α : Type} (flip : Prop) [Decidable flip] (a : Fin r → Fin c → α) : Fin r → Fin c → α :=
  if flip then fun i j => a i.rev j else a

/-- Image `[:, ::-1]` if `flip`.
Models simcats/ideal_csd/geometric/_ideal_csd_geometric.py:180-185. -/
def flipCols {r c : ℕ} {α : Type} (flip : Prop) [Decidable flip] (a : Fin r → Fin c → α) : Fin r → Fin c → α :=
  if flip then fun i j => a i j.rev else a

/-- A representative pixel for every pixel of an image with `r` rows and `c` columns, depending on the lead
transition mask: the first pixel of the same connected region, as computed with diplib.
Library function (diplib), used in simcats/ideal_csd/geometric/_get_electron_occupation.py:161-167. -/
abbrev Labelling := (r c : ℕ) → (Fin r × Fin c → ℕ) → Fin r × Fin c → Fin r × Fin c

/-- The branch `len(resolution) == 2`.
Models simcats/ideal_csd/geometric/_ideal_csd_geometric.py:151-185. -/
noncomputable def ideal2d (cfg : IdealCfg) (lab : Labelling) (g1 g2 : ℝ × ℝ) (r c : ℕ) :
    Py ((Fin r → Fin c → ℝ × ℝ) × (Fin r → Fin c → ℕ)) :=
  match leadMask2d cfg (sortLim g1) (sortLim g2) c r with
  | .error e => .error e
  | .ok img =>
    let lead : Fin r × Fin c → ℕ := fun ij => img ((ij.1 : ℤ), (ij.2 : ℤ))
    match occupation2d cfg (pts2d (sortLim g1) (sortLim g2) r c) lead (lab r c lead) with
    | .error e => .error e
    | .ok occ =>
      .ok (flipCols (g1.1 > g1.2) (flipRows (g2.1 > g2.2) fun i j => occ (i, j)),
        flipCols (g1.1 > g1.2) (flipRows (g2.1 > g2.2) fun i j => lead (i, j)))

/-- `ideal_csd_geometric(tct_params, volt_limits_g1, volt_limits_g2, resolution, ...)`.
A negative 1D resolution fails in `np.zeros` (ValueError); an empty resolution leaves the result unassigned
(`UnboundLocalError`).
Models simcats/ideal_csd/geometric/_ideal_csd_geometric.py:82-187. -/
noncomputable def idealCsd (cfg : IdealCfg) (lab : Labelling) (v1 v2 : List ℝ) (res : Resolution) : Py IdealOut :=
  match idealCheck v1 v2 res.entries with
  | .error e => .error e
  | .ok () =>
    match v1, v2, res.entries with
    | [a1, b1], [a2, b2], [n] =>
      if n < 0 then .error .valueError
      else match ideal1d cfg (a1, b1) (a2, b2) n.toNat with
        | .error e => .error e
        | .ok (occ, lead) => .ok (.d1 n.toNat occ lead)
    | [a1, b1], [a2, b2], [c, r] =>
      match ideal2d cfg lab (a1, b1) (a2, b2) r.toNat c.toNat with
      | .error e => .error e
      | .ok (occ, lead) => .ok (.d2 r.toNat c.toNat occ lead)
    | _, _, _ => .error .unboundLocalError

end SimCATS
