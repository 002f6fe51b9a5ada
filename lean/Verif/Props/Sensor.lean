import Verif.Model.Sensor
import Verif.Props.IdealCsd

/-! Properties C21 and C22: potential of the generic sensor and resetting its offset. -/

namespace SimCATS

/-- Voltage of pixel `i` of an axis swept from `g.1` to `g.2` with `n` pixels: equidistant, first pixel at `g.1`, last
pixel at `g.2` (a single pixel is at `g.1`). -/
noncomputable def sweepVolt (g : ℝ × ℝ) (n i : ℕ) : ℝ :=
  if n ≤ 1 then g.1 else g.1 + (g.2 - g.1) * ((i : ℝ) / ((n : ℝ) - 1))

theorem linspace_sweep (g : ℝ × ℝ) (n : ℕ) (i : Fin n) : linspace g.1 g.2 n i = sweepVolt g n i := by
  unfold linspace linAt sweepVolt
  split_ifs with h
  · have : n = 1 := by have := i.2; omega
    subst this
    simp
  · ring

/-- The voltages of a sweep start and end exactly at the requested values. -/
theorem C21_sweep_ends (g : ℝ × ℝ) (n : ℕ) (hn : 2 ≤ n) : sweepVolt g n 0 = g.1 ∧ sweepVolt g n (n - 1) = g.2 := by
  have : (2 : ℝ) ≤ n := by exact_mod_cast hn
  unfold sweepVolt
  rw [if_neg (by omega), if_neg (by omega), Nat.cast_sub (by omega), Nat.cast_one, div_self (by linarith)]
  simp

example := C21_sweep_ends (1, 3) 5 (by norm_num)

/-- C21 (2D): pixel (i, j) gets offset + alpha_dot . occupation + alpha_gate . (v1, v2), where v1 is the voltage of gate 1
at column j and v2 that of gate 2 at row i. -/
theorem C21_potential_2d (s : SensorGeneric) (r c : ℕ) (hr : r ≠ 0) (hc : c ≠ 0) (occ : Fin r → Fin c → ℝ × ℝ)
    (g1 g2 : ℝ × ℝ) :
    ∃ mu : Fin r → Fin c → ℝ, s.potential (.d2 r c occ) g1 g2 = .ok (.d2 r c mu) ∧ ∀ i j, mu i j =
      s.offset + (s.alphaDot.1 * (occ i j).1 + s.alphaDot.2 * (occ i j).2) +
        (s.alphaGate.1 * sweepVolt g1 c j + s.alphaGate.2 * sweepVolt g2 r i) := by
  refine ⟨_, if_neg (by simp [hr, hc]), fun i j => ?_⟩
  rw [linspace_sweep, linspace_sweep, dot2, dot2]
  ring

/-- C21 (1D): both gates are swept simultaneously. -/
theorem C21_potential_1d (s : SensorGeneric) (n : ℕ) (hn : n ≠ 0) (occ : Fin n → ℝ × ℝ) (g1 g2 : ℝ × ℝ) :
    ∃ mu : Fin n → ℝ, s.potential (.d1 n occ) g1 g2 = .ok (.d1 n mu) ∧ ∀ i, mu i =
      s.offset + (s.alphaDot.1 * (occ i).1 + s.alphaDot.2 * (occ i).2) +
        (s.alphaGate.1 * sweepVolt g1 n i + s.alphaGate.2 * sweepVolt g2 n i) := by
  refine ⟨_, if_neg (by simp [hn]), fun i => ?_⟩
  rw [linspace_sweep, linspace_sweep, dot2, dot2]
  ring

/-- A scan without pixels has no potential. -/
theorem C21_empty (s : SensorGeneric) (occ : Fin 0 → ℝ × ℝ) (g1 g2 : ℝ × ℝ) :
    s.potential (.d1 0 occ) g1 g2 = .error .valueError := rfl

/-- C21: adding occupations adds their lever arm contribution, whatever the voltages. -/
theorem C21_additive (s : SensorGeneric) (r c : ℕ) (occ d : Fin r → Fin c → ℝ × ℝ) (g1 g2 : ℝ × ℝ)
    (mu mu' : Fin r → Fin c → ℝ) (h : s.potential (.d2 r c occ) g1 g2 = .ok (.d2 r c mu))
    (h' : s.potential (.d2 r c fun i j => occ i j + d i j) g1 g2 = .ok (.d2 r c mu')) (i : Fin r) (j : Fin c) :
    mu' i j = mu i j + (s.alphaDot.1 * (d i j).1 + s.alphaDot.2 * (d i j).2) := by
  have hr : r ≠ 0 := by have := i.2; omega
  have hc : c ≠ 0 := by have := j.2; omega
  obtain ⟨m, e, hm⟩ := C21_potential_2d s r c hr hc occ g1 g2
  obtain ⟨m', e', hm'⟩ := C21_potential_2d s r c hr hc (fun i j => occ i j + d i j) g1 g2
  rw [h] at e
  rw [h'] at e'
  cases e
  cases e'
  rw [hm, hm']
  simp only [Prod.fst_add, Prod.snd_add]
  ring

theorem sweepVolt_swap (g : ℝ × ℝ) {n : ℕ} (hn : 2 ≤ n) (i : Fin n) : sweepVolt g.swap n i = sweepVolt g n i.rev := by
  have h1 : ((n : ℝ) - 1) ≠ 0 := by
    have : (2 : ℝ) ≤ n := by exact_mod_cast hn
    linarith
  have hk : i.1 + 1 ≤ n := i.2
  unfold sweepVolt
  rw [if_neg (by omega), if_neg (by omega), Fin.val_rev, Nat.cast_sub hk]
  push_cast
  simp only [Prod.fst_swap, Prod.snd_swap]
  field_simp
  ring

/-- C21: reversing the sweep of gate 1 together with the columns of the occupations mirrors the potential; the same for
gate 2 and the rows. -/
theorem C21_mirror (s : SensorGeneric) (r c : ℕ) (hr : 2 ≤ r) (hc : 2 ≤ c) (occ : Fin r → Fin c → ℝ × ℝ) (g1 g2 : ℝ × ℝ)
    (mu : Fin r → Fin c → ℝ) (h : s.potential (.d2 r c occ) g1 g2 = .ok (.d2 r c mu)) :
    s.potential (.d2 r c fun i j => occ i j.rev) g1.swap g2 = .ok (.d2 r c fun i j => mu i j.rev) ∧
    s.potential (.d2 r c fun i j => occ i.rev j) g1 g2.swap = .ok (.d2 r c fun i j => mu i.rev j) := by
  obtain ⟨m, e, hm⟩ := C21_potential_2d s r c (by omega) (by omega) occ g1 g2
  rw [h] at e
  cases e
  constructor
  · obtain ⟨m', e', hm'⟩ := C21_potential_2d s r c (by omega) (by omega) (fun i j => occ i j.rev) g1.swap g2
    rw [e']
    congr 2
    funext i j
    rw [hm', hm, sweepVolt_swap _ hc]
  · obtain ⟨m', e', hm'⟩ := C21_potential_2d s r c (by omega) (by omega) (fun i j => occ i.rev j) g1 g2.swap
    rw [e']
    congr 2
    funext i j
    rw [hm', hm, sweepVolt_swap _ hr]

/-- Non-vacuity / concrete value. -/
example : ∃ mu : Fin 2 → Fin 3 → ℝ, (⟨none, (-1, -2), (1, 2), 10⟩ : SensorGeneric).potential
    (.d2 2 3 fun _ _ => (1, 1)) (0, 4) (5, 7) = .ok (.d2 2 3 mu) ∧ mu 1 2 = 10 - 3 + (4 + 14) := by
  obtain ⟨mu, h, hm⟩ := C21_potential_2d ⟨none, (-1, -2), (1, 2), 10⟩ 2 3 (by norm_num) (by norm_num) (fun _ _ => (1, 1)) (0, 4) (5, 7)
  refine ⟨mu, h, ?_⟩
  rw [hm]
  norm_num [sweepVolt]

/-! ### C22 -/

/-- Potential of the first pixel of a scan. -/
noncomputable def firstPixel : Scan ℝ → Option ℝ
  | .d0 _ => none
  | .d1 n f => if h : 0 < n then some (f ⟨0, h⟩) else none
  | .d2 r c f => if h : 0 < r ∧ 0 < c then some (f ⟨0, h.1⟩ ⟨0, h.2⟩) else none

theorem resetOffset_eq {s s' : SensorGeneric} {csd : ℝ × ℝ → ℝ × ℝ → Py (Scan (ℝ × ℝ))} {target : ℝ} {g1 g2 : ℝ × ℝ}
    (h : resetOffset s csd target g1 g2 = .ok s') :
    ∃ n, ∃ occ : Fin (n + 1) → ℝ × ℝ, csd g1 g2 = .ok (.d1 (n + 1) occ) ∧
      s' = { s with offset := target - (dot2 (occ 0) s.alphaDot + dot2 (g1.1, g2.1) s.alphaGate) } := by
  unfold resetOffset at h
  split at h
  · cases h
  rename_i occ hocc
  split at h
  · cases h
  · rename_i n f hf
    cases h
    cases occ with
    | d0 x => simp [SensorGeneric.potential] at hf
    | d2 r c o =>
      simp only [SensorGeneric.potential] at hf
      split at hf <;> simp at hf
    | d1 m o =>
      simp only [SensorGeneric.potential] at hf
      split at hf
      · cases hf
      simp only [Except.ok.injEq, Scan.d1.injEq] at hf
      obtain ⟨rfl, hf⟩ := hf
      refine ⟨n, o, hocc, ?_⟩
      have := congrFun (eq_of_heq hf) 0
      rw [← this]
      simp [linspace, linAt]
  · cases h

/-- C22: after `reset_offset_mu_sens` the potential of the first pixel of every 1D scan (any length, any end voltages)
that starts at the given voltages with the occupation found there is the requested one. -/
theorem C22_reset_1d (s s' : SensorGeneric) (csd : ℝ × ℝ → ℝ × ℝ → Py (Scan (ℝ × ℝ))) (target : ℝ) (g1 g2 : ℝ × ℝ)
    (h : resetOffset s csd target g1 g2 = .ok s') (n m : ℕ) (occ : Fin (m + 1) → ℝ × ℝ)
    (hocc : csd g1 g2 = .ok (.d1 (m + 1) occ)) (e1 e2 : ℝ) (meas : Fin (n + 1) → ℝ × ℝ) (hfirst : meas 0 = occ 0) :
    ∃ mu, s'.potential (.d1 (n + 1) meas) (g1.1, e1) (g2.1, e2) = .ok mu ∧ firstPixel mu = some target := by
  obtain ⟨k, o, h1, rfl⟩ := resetOffset_eq h
  rw [hocc] at h1
  simp only [Except.ok.injEq, Scan.d1.injEq] at h1
  obtain ⟨hk, ho⟩ := h1
  obtain rfl : m = k := by omega
  rw [heq_eq_eq] at ho
  subst ho
  simp only [SensorGeneric.potential]
  rw [if_neg (by omega)]
  refine ⟨_, rfl, ?_⟩
  simp [firstPixel, hfirst, linspace, linAt]

example (s' : SensorGeneric) (h : resetOffset ⟨none, (-1, -2), (1, 2), 10⟩ (fun _ _ => .ok (.d1 2 fun _ => (1, 0))) 7 (3, 4) (5, 6) = .ok s') :=
  C22_reset_1d _ s' _ 7 (3, 4) (5, 6) h 9 1 (fun _ => (1, 0)) rfl 8 9 (fun i => (1 + (i : ℝ), (i : ℝ))) (by simp)

/-- C22: the same for 2D scans whose first pixel has the occupation found by the reset (without this: `C22_refuted`). -/
theorem C22_reset_2d_partial (s s' : SensorGeneric) (csd : ℝ × ℝ → ℝ × ℝ → Py (Scan (ℝ × ℝ))) (target : ℝ) (g1 g2 : ℝ × ℝ)
    (h : resetOffset s csd target g1 g2 = .ok s') (r c m : ℕ) (occ : Fin (m + 1) → ℝ × ℝ)
    (hocc : csd g1 g2 = .ok (.d1 (m + 1) occ)) (e1 e2 : ℝ) (meas : Fin (r + 1) → Fin (c + 1) → ℝ × ℝ)
    (hfirst : meas 0 0 = occ 0) :
    ∃ mu, s'.potential (.d2 (r + 1) (c + 1) meas) (g1.1, e1) (g2.1, e2) = .ok mu ∧ firstPixel mu = some target := by
  obtain ⟨k, o, h1, rfl⟩ := resetOffset_eq h
  rw [hocc] at h1
  simp only [Except.ok.injEq, Scan.d1.injEq] at h1
  obtain ⟨hk, ho⟩ := h1
  obtain rfl : m = k := by omega
  rw [heq_eq_eq] at ho
  subst ho
  simp only [SensorGeneric.potential]
  rw [if_neg (by omega)]
  refine ⟨_, rfl, ?_⟩
  simp [firstPixel, hfirst, linspace, linAt]

example (s' : SensorGeneric) (h : resetOffset ⟨none, (-1, -2), (1, 2), 10⟩ (fun _ _ => .ok (.d1 2 fun _ => (1, 0))) 7 (3, 4) (5, 6) = .ok s') :=
  C22_reset_2d_partial _ s' _ 7 (3, 4) (5, 6) h 9 4 1 (fun _ => (1, 0)) rfl 8 9 (fun i j => (1 + (i : ℝ), (j : ℝ))) (by simp)

/-- C22: a second reset with the same arguments changes nothing, and only the offset is changed by a reset. -/
theorem C22_idempotent (s s' : SensorGeneric) (csd : ℝ × ℝ → ℝ × ℝ → Py (Scan (ℝ × ℝ))) (target : ℝ) (g1 g2 : ℝ × ℝ)
    (h : resetOffset s csd target g1 g2 = .ok s') :
    resetOffset s' csd target g1 g2 = .ok s' ∧ s'.peaks = s.peaks ∧ s'.alphaDot = s.alphaDot ∧
      s'.alphaGate = s.alphaGate := by
  obtain ⟨n, occ, h1, rfl⟩ := resetOffset_eq h
  refine ⟨?_, rfl, rfl, rfl⟩
  unfold resetOffset
  rw [h1]
  simp only [SensorGeneric.potential]
  rw [if_neg (by simp)]
  simp only [linspace, linAt]
  congr 2
  simp

/-- The CSD generator of a simulation with a geometric ideal CSD at resolution 2, as used by `reset_offset_mu_sens`. -/
noncomputable def idealAt2 (cfg : IdealCfg) (lab : Labelling) (g1 g2 : ℝ × ℝ) : Py (Scan (ℝ × ℝ)) :=
  match idealCsd cfg lab [g1.1, g1.2] [g2.1, g2.2] (.int 2) with
  | .ok out => .ok out.data.1
  | .error e => .error e

theorem occupation1d_pixel (cfg : IdealCfg) (ok : CfgOk cfg) {n m : ℕ} {v : Fin n → ℝ × ℝ} {w : Fin m → ℝ × ℝ}
    {o : Fin n → ℝ × ℝ} {q : Fin m → ℝ × ℝ} (h1 : occupation1d cfg n v = .ok o) (h2 : occupation1d cfg m w = .ok q)
    (i : Fin n) (j : Fin m) (hv : v i = w j) : o i = q j := by
  obtain ⟨curves, hc⟩ := C05_curves_exist cfg ok
  obtain ⟨gf, hgf⟩ := gammaFactor_ok ok.cdf cfg.gf
  have key : ∀ {k : ℕ} {u : Fin k → ℝ × ℝ} {p : Fin k → ℝ × ℝ}, occupation1d cfg k u = .ok p → ∀ i,
      regionOcc (allAnchors cfg.params 1 cfg.rotation) cfg.cdf gf
        (if Spec.region curves (tctCoord cfg (u i)) = curves.length then 0
          else 0 + Spec.region curves (tctCoord cfg (u i))) (u i) = .ok (p i) := by
    intro k u p hp i
    unfold occupation1d at hp
    rw [hgf] at hp
    simp only at hp
    have hm := regionLoop1d_eq (fun i => tctCoord cfg (u i)) (fun _ => 0) hc
    simp only [tctCoord, zero_add] at hm
    rw [hm] at hp
    simp only at hp
    simpa only [tctCoord, zero_add] using occupationsOfMask_ok.1 hp i
  have a := key h1 i
  have b := key h2 j
  rw [hv, b] at a
  exact (Except.ok.inj a).symm

/-- C22 with the geometric ideal CSD: after the reset, the undistorted potential of the first pixel of every 1D scan that
starts at the given voltages is the requested one. -/
theorem C22_reset_geometric (cfg : IdealCfg) (ok : CfgOk cfg) (lab : Labelling) (s s' : SensorGeneric) (target : ℝ)
    (g1 g2 : ℝ × ℝ) (h : resetOffset s (idealAt2 cfg lab) target g1 g2 = .ok s') (n : ℕ) (e1 e2 : ℝ)
    (occ : Fin (n + 1) → ℝ × ℝ) (lead : Fin (n + 1) → ℕ) (hm : ideal1d cfg (g1.1, e1) (g2.1, e2) (n + 1) = .ok (occ, lead)) :
    ∃ mu, s'.potential (.d1 (n + 1) occ) (g1.1, e1) (g2.1, e2) = .ok mu ∧ firstPixel mu = some target := by
  obtain ⟨k, o, h1, -⟩ := resetOffset_eq h
  refine C22_reset_1d s s' (idealAt2 cfg lab) target g1 g2 h n k o h1 e1 e2 occ ?_
  have i1 : ∀ {a b m p}, ideal1d cfg a b m = .ok p → occupation1d cfg m (pts1d a b m) = .ok p.1 := by
    intro a b m p hp
    unfold ideal1d at hp
    split at hp
    · cases hp
    · rename_i q hq
      cases hp
      exact hq
  have hocc := i1 hm
  unfold idealAt2 at h1
  split at h1
  · rename_i out hout
    unfold idealCsd at hout
    simp only [Resolution.entries, idealCheck_1d] at hout
    rw [if_neg (by norm_num)] at hout
    split at hout
    · cases hout
    · rename_i occ2 lead2 h2
      cases hout
      have h2' := i1 h2
      simp only [IdealOut.data, Except.ok.injEq, Scan.d1.injEq] at h1
      obtain ⟨hk, ho⟩ := h1
      have hk' : k = 1 := by
        have : Int.toNat 2 = 2 := rfl
        omega
      subst hk'
      have ho' : occ2 = o := eq_of_heq ho
      subst ho'
      refine occupation1d_pixel cfg ok hocc h2' 0 (0 : Fin 2) ?_
      simp [pts1d, linspace, linAt]
  · cases h1

/-- Non-vacuity: resetting a sensor with a constant CSD. -/
example : resetOffset ⟨none, (-1, -2), (1, 2), 10⟩ (fun _ _ => .ok (.d1 2 fun _ => (1, 0))) 7 (3, 4) (5, 6) =
    .ok ⟨none, (-1, -2), (1, 2), 7 - (-1 + 13)⟩ := by
  norm_num [resetOffset, SensorGeneric.potential, dot2, linspace, linAt]

end SimCATS
