import Verif.Spec.ScanPipeline
import Verif.Props.ScanSignal

/-! Lemmas for the signal path of a sensor scan. -/

namespace SimCATS

open Spec

theorem zip_ok {α β : Type} {a : Scan α} {b : Scan β} {c : Scan (α × β)} (h : a.zip b = .ok c) :
    a = c.map Prod.fst ∧ b = c.map Prod.snd := by
  cases a with
  | d0 x => cases b <;> simp only [Scan.zip, Except.ok.injEq, reduceCtorEq] at h; subst h; exact ⟨rfl, rfl⟩
  | d1 n f =>
    cases b with
    | d1 m g =>
      simp only [Scan.zip] at h
      split_ifs at h with hn
      subst hn
      cases h
      exact ⟨rfl, rfl⟩
    | d0 x => simp [Scan.zip] at h
    | d2 r c f => simp [Scan.zip] at h
  | d2 r k f =>
    cases b with
    | d2 r' k' g =>
      simp only [Scan.zip] at h
      split_ifs at h with hn
      obtain ⟨rfl, rfl⟩ := hn
      cases h
      exact ⟨rfl, rfl⟩
    | d0 x => simp [Scan.zip] at h
    | d1 n f => simp [Scan.zip] at h

theorem fromRows_iff {rows : List (Scan ℝ)} {mu : Scan (Fin 3 → ℝ)} : fromRows rows = .ok mu ↔ rows = channels mu := by
  constructor
  · intro h
    rcases rows with _ | ⟨a, _ | ⟨b, _ | ⟨c, _ | ⟨d, l⟩⟩⟩⟩
    · simp [fromRows] at h
    · simp [fromRows] at h
    · simp [fromRows] at h
    · simp only [fromRows] at h
      cases h1 : a.zip b with
      | error e => rw [h1] at h; simp at h
      | ok ab =>
        rw [h1] at h
        dsimp only at h
        cases h2 : ab.zip c with
        | error e => rw [h2] at h; simp at h
        | ok abc =>
          rw [h2] at h
          cases h
          obtain ⟨ha, hb⟩ := zip_ok h1
          obtain ⟨hc, hd⟩ := zip_ok h2
          subst hc hd
          subst ha hb
          cases abc <;> rfl
    · simp [fromRows] at h
  · rintro rfl
    exact fromRows_potRows mu

theorem distortScanPot_iff {τ : Type} {g1 g2 : ℝ × ℝ} {ds : Option (List (SigDist (Option ScanState × τ)))}
    {mu mu' : Scan (Fin 3 → ℝ)} {s t : Option ScanState × τ} :
    distortScanPot g1 g2 ds mu s = (.ok mu', t) ↔ AppliedEach g1 g2 (ds.getD []) (channels mu) s (channels mu') t := by
  cases ds with
  | none =>
    rw [Option.getD_none, ← applyRows_iff]
    simp only [distortScanPot, applyRows, M.pure_run, Prod.mk.injEq, Except.ok.injEq]
    refine and_congr_left fun _ => ⟨fun h => by rw [h], fun h => ?_⟩
    have := fromRows_iff.2 h
    rw [show channels mu = potRows mu from rfl, fromRows_potRows] at this
    exact Except.ok.inj this
  | some ds =>
    rw [Option.getD_some, ← applyRows_iff]
    simp only [distortScanPot, M.bind_ok, ofPy_run, Prod.mk.injEq]
    constructor
    · rintro ⟨rows, u, h1, h2, rfl⟩
      rw [fromRows_iff] at h2
      rw [← h2]
      exact h1
    · intro h
      exact ⟨_, t, h, fromRows_iff.2 rfl, rfl⟩

theorem potential_fst (s : ScanSensor) (occ : Scan (ℝ × ℝ)) (g1 g2 s1 s2 : VoltArg) (st st' : Option ScanState) :
    (s.potential occ g1 g2 s1 s2 st).1 = (s.potential occ g1 g2 s1 s2 st').1 := by
  unfold ScanSensor.potential
  cases occ <;> simp only
  · split_ifs <;> rfl
  · split_ifs <;> rfl

theorem pixelwise_each {σ : Type} (g1 g2 : ℝ × ℝ) (f : ℝ → ℝ) (ps : List (Scan ℝ)) (s : σ) :
    EachSignal g1 g2 (pixelwise f) ps s (ps.map fun p => p.map f) s := by
  induction ps using List.reverseRecOn with
  | nil => exact .none _
  | append_singleton ps p ih =>
    rw [List.map_append, List.map_singleton]
    exact .last ih rfl

theorem pixelwise_applied {σ : Type} (g1 g2 : ℝ × ℝ) (fs : List (ℝ → ℝ)) (x : Scan ℝ) (s : σ) :
    Applied g1 g2 (fs.map pixelwise) x s (x.map (oneByOne fs)) s :=
  C69_pointwise g1 g2 fs x s

theorem pixelwise_appliedEach {σ : Type} (g1 g2 : ℝ × ℝ) (fs : List (ℝ → ℝ)) (ps : List (Scan ℝ)) (s : σ) :
    AppliedEach g1 g2 (fs.map pixelwise) ps s (ps.map fun p => p.map (oneByOne fs)) s := by
  induction fs using List.reverseRecOn with
  | nil =>
    have : (ps.map fun p => p.map (oneByOne [])) = ps := by
      conv_rhs => rw [← List.map_id ps]
      refine List.map_congr_left fun p _ => ?_
      cases p <;> rfl
    rw [this]
    exact .none _ _
  | append_singleton fs f ih =>
    rw [List.map_append, List.map_singleton]
    refine .last ih ?_
    have h := pixelwise_each g1 g2 f (ps.map fun p => p.map (oneByOne fs)) s
    rw [List.map_map] at h
    have e : (ps.map fun p => p.map (oneByOne (fs ++ [f]))) =
        ps.map ((fun p => p.map f) ∘ fun p => p.map (oneByOne fs)) := by
      refine List.map_congr_left fun p _ => ?_
      cases p <;> simp [oneByOne, Scan.map]
    rw [e]
    exact h

theorem applied_unique {σ : Type} {g1 g2 : ℝ × ℝ} {ds : List (SigDist σ)} {x y y' : Scan ℝ} {s t t' : σ}
    (h : Applied g1 g2 ds x s y t) (h' : Applied g1 g2 ds x s y' t') : y = y' ∧ t = t' := by
  rw [← applySig_iff] at h h'
  rw [h] at h'
  cases h'
  exact ⟨rfl, rfl⟩

theorem appliedEach_unique {σ : Type} {g1 g2 : ℝ × ℝ} {ds : List (SigDist σ)} {x y y' : List (Scan ℝ)} {s t t' : σ}
    (h : AppliedEach g1 g2 ds x s y t) (h' : AppliedEach g1 g2 ds x s y' t') : y = y' ∧ t = t' := by
  rw [← applyRows_iff] at h h'
  rw [h] at h'
  cases h'
  exact ⟨rfl, rfl⟩

theorem channels_inj {mu mu' : Scan (Fin 3 → ℝ)} (h : channels mu = channels mu') : mu = mu' := by
  have h1 := fromRows_iff.2 h
  rw [show channels mu = potRows mu from rfl, fromRows_potRows] at h1
  exact Except.ok.inj h1

theorem signalOf_series (s : ScanSensor) (m : Fin 3 → ℝ) :
    series (s.plainResponse (m 0)) (s.barrier1.value (m 1)) (s.barrier2.value (m 2)) = signalOf s m := by
  rw [series_inSeries, plain_signal]
  rfl

/-- The undistorted potential of a sensor scan. -/
theorem scan_potential {σ : Type} {sens : ScanSensor} {gen : Option (Gen σ)} {rq : ScanRequest} {s s' : σ} {occ : Scan (ℝ × ℝ)}
    {w1 w2 : ℝ × ℝ} {st t : Option ScanState} {mu : Scan (Fin 3 → ℝ)} (hres : rq.res.entries.length ≤ 2)
    (e1 : scanOcc gen rq s = (.ok occ, s')) (e2 : sens.potential occ rq.g1 rq.g2 (.arr w1) (.arr w2) st = (.ok mu, t)) :
    ∃ o, ScanOccupation gen rq.g1 rq.g2 s o ∧
      ((∃ n : ℕ, (rq.res = .int n ∨ rq.res = .arr [(n : ℤ)]) ∧ mu = .d1 n fun i k => potentialAt sens k o
        (argVoltage rq.g1 1 0, argVoltage rq.g2 1 0) (argVoltage (.arr w1) n i, argVoltage (.arr w2) n i)) ∨
      ∃ r c : ℕ, rq.res = .arr [(c : ℤ), (r : ℤ)] ∧ mu = .d2 r c fun i j k => potentialAt sens k o
        (argVoltage rq.g1 1 0, argVoltage rq.g2 1 0) (argVoltage (.arr w1) c j, argVoltage (.arr w2) r i)) := by
  have fixedV : ∀ {a : VoltArg} (n i : ℕ), a.isArr = false → argVoltage a n i = argVoltage a 1 0 := by
    intro a n i ha
    cases a with
    | none => rfl
    | num b v => rfl
    | arr g => cases ha
  have hna : rq.g1.isArr = false ∧ rq.g2.isArr = false := by
    rw [← Bool.not_eq_true, ← Bool.not_eq_true, ← not_or]
    intro hh
    rw [C71_rejects sens occ rq.g1 rq.g2 (.arr w1) (.arr w2) hh (Or.inl rfl)] at e2
    simp at e2
  obtain ⟨o, ho, hocc⟩ := scanOcc_ok e1
  refine ⟨o, ho, ?_⟩
  rcases hocc with ⟨n, hr, rfl⟩ | ⟨c, r, l, hr, rfl⟩
  · left
    have hn : n.toNat ≠ 0 := by
      intro h0
      have := e2
      unfold ScanSensor.potential at this
      simp only at this
      split_ifs at this
      · simp at this
      · simp [ScanSensor.potentialArray, h0] at this
    have hn' : (n.toNat : ℤ) = n := by omega
    refine ⟨n.toNat, by rw [hn']; exact hr, ?_⟩
    have hp := C71_potential_1d sens n.toNat hn (fun _ => o) rq.g1 rq.g2 (.arr w1) (.arr w2) (Or.inl hna) st
    rw [e2] at hp
    simp only [Except.ok.injEq] at hp
    rw [hp]
    congr 1
    funext i
    rw [← fixedV n.toNat i hna.1, ← fixedV n.toNat i hna.2]
  · right
    have hl : l = [] := by
      rw [hr] at hres
      simp only [Resolution.entries, List.length_cons] at hres
      exact List.eq_nil_of_length_eq_zero (by omega)
    subst hl
    have hn : r.toNat ≠ 0 ∧ c.toNat ≠ 0 := by
      rw [← not_or]
      intro h0
      have := e2
      unfold ScanSensor.potential at this
      simp only at this
      split_ifs at this
      · simp at this
      · simp only [ScanSensor.potentialArray, if_pos h0] at this
        simp at this
    have hn1 : (r.toNat : ℤ) = r := by omega
    have hn2 : (c.toNat : ℤ) = c := by omega
    refine ⟨r.toNat, c.toNat, by rw [hn1, hn2]; exact hr, ?_⟩
    have hp := C71_potential_2d sens r.toNat c.toNat hn.1 hn.2 (fun _ _ => o) rq.g1 rq.g2 (.arr w1) (.arr w2) (Or.inl hna) st
    rw [e2] at hp
    simp only [Except.ok.injEq] at hp
    rw [hp]
    congr 1
    funext i j
    rw [← fixedV c.toNat j hna.1, ← fixedV r.toNat i hna.2]

end SimCATS
