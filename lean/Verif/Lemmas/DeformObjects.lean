import Verif.Spec.DeformObjects

/-! Helper lemmas for deformation objects. -/

namespace SimCATS

open Spec

theorem register_length (s : ℕ) (defs : List DefObj) (d : ℕ) : (DefWorld.register s defs d).length = defs.length := by
  unfold DefWorld.register
  split <;> simp

theorem register_foldl_length (s : ℕ) (l : List ℕ) : ∀ defs : List DefObj, (l.foldl (DefWorld.register s) defs).length = defs.length := by
  induction l with
  | nil => exact fun _ => rfl
  | cons d l ih => exact fun defs => (ih _).trans (register_length s defs d)

theorem register_get (s : ℕ) (defs : List DefObj) (d e : ℕ) (o : DefObj) (h : defs[e]? = some o) :
    (DefWorld.register s defs d)[e]? = some (if e = d then ⟨o.shape, some s⟩ else o) := by
  unfold DefWorld.register
  have hlt := (List.getElem?_eq_some_iff.1 h).1
  by_cases he : e = d
  · subst he
    rw [if_pos rfl, h]
    exact List.getElem?_set_self hlt
  · rw [if_neg he]
    split
    · rw [List.getElem?_set_ne (Ne.symm he), h]
    · exact h

theorem register_foldl_get (s : ℕ) (l : List ℕ) : ∀ (defs : List DefObj) (e : ℕ) (o : DefObj), defs[e]? = some o →
    (l.foldl (DefWorld.register s) defs)[e]? = some (if e ∈ l then ⟨o.shape, some s⟩ else o) := by
  induction l with
  | nil => intro defs e o h; simpa using h
  | cons d l ih =>
    intro defs e o h
    rw [List.foldl_cons, ih _ e _ (register_get s defs d e o h)]
    by_cases he : e = d <;> by_cases hl : e ∈ l <;> simp [he, hl] <;> simp_all

theorem mem_registered (peaks : Option (List ℝ)) (content : List (ℕ × ℕ)) (d : ℕ) :
    d ∈ registered peaks content ↔ ∃ ps i, peaks = some ps ∧ i < ps.length ∧ dictGet content i = some d := by
  cases peaks with
  | none => simp [registered]
  | some ps => simp [registered]

/-- Dictionaries only contain existing deformations. -/
def DefValid (w : DefWorld) : Prop := ∀ c ∈ w.dicts, ∀ e ∈ c, e.2 < w.defs.length

theorem DefValid.init : DefValid .init := by
  intro c hc e he
  simp only [DefWorld.init, List.mem_singleton] at hc
  subst hc
  simp at he

theorem DefValid.put {w : DefWorld} (h : DefValid w) (k idx d : ℕ) (c : List (ℕ × ℕ)) (hc : w.dicts[k]? = some c) (hd : d < w.defs.length) :
    DefValid ⟨w.defs, w.dicts.set k ((idx, d) :: c), w.sensors⟩ := by
  intro c' hc' e he
  rcases List.mem_or_eq_of_mem_set hc' with hm | rfl
  · exact h c' hm e he
  · rcases List.mem_cons.1 he with rfl | he
    · exact hd
    · exact h c (List.mem_of_getElem? hc) e he

theorem DefValid.run {w : DefWorld} (h : DefValid w) (c : DStmt) : DefValid (c.run w).2 := by
  cases c with
  | newDef d =>
    intro c hc e he
    have := h c hc e he
    simp only [DStmt.run, List.length_append, List.length_singleton]
    omega
  | newDict =>
    intro c hc e he
    simp only [DStmt.run, List.mem_append, List.mem_singleton] at hc
    rcases hc with hc | rfl
    · exact h c hc e he
    · simp at he
  | put k idx d =>
    simp only [DStmt.run]
    split_ifs
    · exact h
    · cases hc : w.dicts[k]? with
      | none => exact h
      | some c =>
        cases hd : w.defs[d]? with
        | none => exact h
        | some o => exact h.put k idx d c hc (List.getElem?_eq_some_iff.1 hd).1
  | putOf s idx d =>
    simp only [DStmt.run]
    cases hs : w.sensor s with
    | none => exact h
    | some o =>
      cases hd : w.defs[d]? with
      | none => exact h
      | some o' =>
        simp only
        cases hk : o.dict with
        | none => exact h
        | some k =>
          simp only
          cases hc : w.dicts[k]? with
          | none => exact h
          | some c => exact h.put k idx d c hc (List.getElem?_eq_some_iff.1 hd).1
  | newSensor alpha peaks dict rest =>
    simp only [DStmt.run]
    split_ifs with h0
    · exact h
    all_goals
      intro c hc e he
      simp only [register_foldl_length]
      exact h c hc e he
  | setAlpha s a =>
    simp only [DStmt.run]
    cases w.sensor s <;> exact h
  | setPeaks s p =>
    simp only [DStmt.run]
    cases w.sensor s <;> exact h
  | setDict s k =>
    simp only [DStmt.run]
    cases w.sensor s with
    | none => exact h
    | some o =>
      cases w.dicts[k]? with
      | none => exact h
      | some c =>
        simp only
        split_ifs <;> exact h

theorem DefValid.exec {l : List DStmt} : ∀ {w : DefWorld}, DefValid w → DefValid (w.exec l) := by
  induction l with
  | nil => exact fun h => h
  | cons c l ih => exact fun h => ih (h.run c)

theorem dictGet_valid {w : DefWorld} (h : DefValid w) (k : Option ℕ) (i d : ℕ) (hd : dictGet (w.content k) i = some d) : d < w.defs.length := by
  simp only [dictGet, Option.map_eq_some_iff] at hd
  obtain ⟨e, he, rfl⟩ := hd
  have hm := List.mem_of_find?_eq_some he
  unfold DefWorld.content at hm
  cases hk : k.bind fun k => w.dicts[k]? with
  | none => rw [hk] at hm; simp at hm
  | some c =>
    rw [hk] at hm
    obtain ⟨k', -, hk'⟩ := Option.bind_eq_some_iff.1 hk
    exact h c (List.mem_of_getElem? hk') e hm

/-- What one statement does to a deformation object: only constructors that get it change it. -/
theorem run_def (w : DefWorld) (c : DStmt) (d : ℕ) (o : DefObj) (h : w.defs[d]? = some o) :
    (Passed w c d → ((c.run w).2).defs[d]? = some ⟨o.shape, some w.sensors.length⟩) ∧
    (¬ Passed w c d → ((c.run w).2).defs[d]? = some o) := by
  have other : (∀ alpha peaks dict rest, c ≠ .newSensor alpha peaks dict rest) → ((c.run w).2).defs[d]? = some o →
      (Passed w c d → ((c.run w).2).defs[d]? = some ⟨o.shape, some w.sensors.length⟩) ∧
      (¬ Passed w c d → ((c.run w).2).defs[d]? = some o) := by
    intro hc ho
    refine ⟨?_, fun _ => ho⟩
    rintro ⟨alpha, ps, dict, rest, i, rfl, -⟩
    exact absurd rfl (hc _ _ _ _)
  cases c with
  | newDef d' =>
    refine other (by simp) ?_
    exact (List.getElem?_append_left (List.getElem?_eq_some_iff.1 h).1).trans h
  | newDict => exact other (by simp) h
  | put k idx d' =>
    refine other (by simp) ?_
    simp only [DStmt.run]
    split_ifs
    · exact h
    · cases w.dicts[k]? <;> cases w.defs[d']? <;> exact h
  | putOf s idx d' =>
    refine other (by simp) ?_
    simp only [DStmt.run]
    cases w.sensor s with
    | none => exact h
    | some o' =>
      cases w.defs[d']? with
      | none => exact h
      | some o'' =>
        simp only
        cases o'.dict with
        | none => exact h
        | some k =>
          simp only
          cases w.dicts[k]? <;> exact h
  | newSensor alpha peaks dict rest =>
    have hp : Passed w (.newSensor alpha peaks dict rest) d ↔ d ∈ registered peaks (w.content dict.ref) := by
      rw [mem_registered]
      constructor
      · rintro ⟨_, ps, _, _, i, hc, h1, h2⟩
        cases hc
        exact ⟨ps, i, rfl, h1, h2⟩
      · rintro ⟨ps, i, rfl, h1, h2⟩
        exact ⟨_, ps, _, _, i, rfl, h1, h2⟩
    rw [hp]
    simp only [DStmt.run]
    split_ifs with h0
    · have he : w.content dict.ref = [] := by
        unfold DefWorld.content
        rw [Option.isNone_iff_eq_none.1 h0.1]
        rfl
      have : d ∉ registered peaks (w.content dict.ref) := by
        rw [mem_registered, he]
        rintro ⟨ps, i, -, -, h2⟩
        simp [dictGet] at h2
      exact ⟨fun hm => absurd hm this, fun _ => h⟩
    all_goals
      simp only
      rw [register_foldl_get _ _ _ _ _ h]
      exact ⟨fun hm => by rw [if_pos hm], fun hm => by rw [if_neg hm]⟩
  | setAlpha s a =>
    refine other (by simp) ?_
    simp only [DStmt.run]
    cases w.sensor s <;> exact h
  | setPeaks s p =>
    refine other (by simp) ?_
    simp only [DStmt.run]
    cases w.sensor s <;> exact h
  | setDict s k =>
    refine other (by simp) ?_
    simp only [DStmt.run]
    cases w.sensor s with
    | none => exact h
    | some o' =>
      cases w.dicts[k]? with
      | none => exact h
      | some c =>
        simp only
        split_ifs <;> exact h

theorem exec_append_def (w : DefWorld) (l l' : List DStmt) : w.exec (l ++ l') = (w.exec l).exec l' := by
  simp [DefWorld.exec]

theorem never_nil (w : DefWorld) (d : ℕ) : NeverPassed w [] d := by
  intro pre c post h
  simp at h

theorem never_cons {w : DefWorld} {c : DStmt} {l : List DStmt} {d : ℕ} (h : ¬ Passed w c d) (hl : NeverPassed (c.run w).2 l d) :
    NeverPassed w (c :: l) d := by
  intro pre c' post he
  cases pre with
  | nil =>
    cases he
    exact h
  | cons p pre =>
    cases he
    exact hl pre c' post rfl

theorem exec_never {l : List DStmt} : ∀ {w : DefWorld} {d : ℕ} {o : DefObj}, w.defs[d]? = some o → NeverPassed w l d →
    (w.exec l).defs[d]? = some o := by
  induction l with
  | nil => exact fun h _ => h
  | cons c l ih =>
    intro w d o h hn
    have h1 := (run_def w c d o h).2 (hn [] c l rfl)
    refine ih h1 fun pre c' post he => ?_
    have := hn (c :: pre) c' post (by rw [he]; rfl)
    exact this

theorem exec_last {l : List DStmt} {w : DefWorld} (hv : DefValid w) {d s : ℕ} (h : LastPassed w l d s) :
    ∃ shape, (w.exec l).defs[d]? = some ⟨shape, some s⟩ := by
  obtain ⟨pre, c, post, rfl, hs, hp, hn⟩ := h
  have hv' := hv.exec (l := pre)
  obtain ⟨o, ho⟩ : ∃ o, (w.exec pre).defs[d]? = some o := by
    obtain ⟨alpha, ps, dict, rest, i, -, -, hd⟩ := hp
    exact ⟨_, List.getElem?_eq_getElem (dictGet_valid hv' _ _ _ hd)⟩
  have h1 := (run_def _ c d o ho).1 hp
  rw [hs] at h1
  refine ⟨o.shape, ?_⟩
  rw [exec_append_def]
  exact exec_never (w := (w.exec pre).exec [c]) h1 fun pre' c' post' he => hn pre' c' post' he

/-- A deformation that no constructor got has no sensor. -/
theorem exec_unset {l : List DStmt} : ∀ {w : DefWorld} {d : ℕ}, (∀ o, w.defs[d]? = some o → o.owner = none) → NeverPassed w l d →
    ∀ o, (w.exec l).defs[d]? = some o → o.owner = none := by
  induction l with
  | nil => exact fun h _ => h
  | cons c l ih =>
    intro w d h hn
    have hn' : NeverPassed (c.run w).2 l d := fun pre c' post he => hn (c :: pre) c' post (by rw [he]; rfl)
    refine ih ?_ hn'
    intro o ho
    cases hd : w.defs[d]? with
    | some o' =>
      rw [(run_def w c d o' hd).2 (hn [] c l rfl)] at ho
      exact Option.some.inj ho ▸ h o' hd
    | none =>
      have hlen : w.defs.length ≤ d := List.getElem?_eq_none_iff.1 hd
      cases c with
      | newDef d' =>
        have hmem : o ∈ [(⟨d', none⟩ : DefObj)] := by
          simp only [DStmt.run] at ho
          rw [List.getElem?_append_right hlen] at ho
          exact List.mem_of_getElem? ho
        simp only [List.mem_singleton] at hmem
        rw [hmem]
      | newDict => exact absurd ho (by simp [DStmt.run, hd])
      | put k idx d' =>
        simp only [DStmt.run] at ho
        split_ifs at ho
        · simp [hd] at ho
        · cases h1 : w.dicts[k]? <;> cases h2 : w.defs[d']? <;> simp [h1, h2, hd] at ho
      | putOf s idx d' =>
        simp only [DStmt.run] at ho
        cases h1 : w.sensor s with
        | none => simp [h1, hd] at ho
        | some o' =>
          cases h2 : w.defs[d']? with
          | none => simp [h1, h2, hd] at ho
          | some o'' =>
            simp only [h1, h2] at ho
            cases h3 : o'.dict with
            | none => simp [h3, hd] at ho
            | some k =>
              simp only [h3] at ho
              cases h4 : w.dicts[k]? <;> simp [h4, hd] at ho
      | newSensor alpha peaks dict rest =>
        simp only [DStmt.run] at ho
        split_ifs at ho
        · simp [hd] at ho
        all_goals
          have := (List.getElem?_eq_some_iff.1 ho).1
          simp only [register_foldl_length] at this
          omega
      | setAlpha s a =>
        simp only [DStmt.run] at ho
        cases h1 : w.sensor s <;> simp [h1, hd] at ho
      | setPeaks s p =>
        simp only [DStmt.run] at ho
        cases h1 : w.sensor s <;> simp [h1, hd] at ho
      | setDict s k =>
        simp only [DStmt.run] at ho
        cases h1 : w.sensor s with
        | none => simp [h1, hd] at ho
        | some o' =>
          cases h2 : w.dicts[k]? with
          | none => simp [h1, h2, hd] at ho
          | some c =>
            simp only [h1, h2] at ho
            split_ifs at ho <;> simp [hd] at ho

theorem peakLoop_ok {w : DefWorld} {content : List (ℕ × ℕ)} {dist : ℝ} (f : ℕ → ℝ → ℝ) : ∀ (ps : List ℝ) (idx : ℕ),
    (∀ i (_ : i < ps.length) mu, w.peakPos content dist (idx + i) mu = .ok (f (idx + i) mu)) →
    ∃ out, w.peakLoop content dist idx ps = .ok out ∧ out.length = ps.length ∧
      ∀ i (h : i < ps.length), out[i]? = some (f (idx + i) ps[i]) := by
  intro ps
  induction ps with
  | nil => exact fun idx _ => ⟨[], rfl, rfl, fun i h => absurd h (Nat.not_lt_zero i)⟩
  | cons mu ps ih =>
    intro idx h
    obtain ⟨out, h1, h2, h3⟩ := ih (idx + 1) fun i hi mu => by
      have := h (i + 1) (by simpa using hi) mu
      rw [show idx + 1 + i = idx + (i + 1) by omega]
      exact this
    have h0 := h 0 (by simp) mu
    rw [Nat.add_zero] at h0
    refine ⟨f idx mu :: out, ?_, by simp [h2], fun i hi => ?_⟩
    · unfold DefWorld.peakLoop
      rw [h0]
      simp only
      rw [h1]
    · cases i with
      | zero => simp
      | succ i =>
        have := h3 i (by simpa using hi)
        rw [List.getElem?_cons_succ, this, show idx + 1 + i = idx + (i + 1) by omega]
        rfl

theorem peakLoop_error {w : DefWorld} {content : List (ℕ × ℕ)} {dist : ℝ} : ∀ (ps : List ℝ) (idx : ℕ),
    (∀ i (_ : i < ps.length) mu e, w.peakPos content dist (idx + i) mu = .error e →
      e = .attributeError) →
    (∃ i, i < ps.length ∧ ∀ mu, ∃ e, w.peakPos content dist (idx + i) mu = .error e) →
    w.peakLoop content dist idx ps = .error .attributeError := by
  intro ps
  induction ps with
  | nil => rintro idx - ⟨i, h, -⟩; exact absurd h (Nat.not_lt_zero i)
  | cons mu ps ih =>
    intro idx ha he
    have h0 := ha 0 (by simp) mu
    rw [Nat.add_zero] at h0
    unfold DefWorld.peakLoop
    cases hx : w.peakPos content dist idx mu with
    | error e => rw [h0 e hx]
    | ok x =>
      simp only
      obtain ⟨i, hi, he⟩ := he
      cases i with
      | zero =>
        obtain ⟨e, he⟩ := he mu
        rw [Nat.add_zero, hx] at he
        exact nomatch he
      | succ i =>
        rw [ih (idx + 1) (fun i hi mu e h => ha (i + 1) (by simpa using hi) mu e (by
          rw [show idx + (i + 1) = idx + 1 + i by omega]; exact h)) ⟨i, by simpa using hi, fun mu => by
          obtain ⟨e, he⟩ := he mu
          exact ⟨e, by rw [show idx + 1 + i = idx + (i + 1) by omega]; exact he⟩⟩]

/-- What a statement does with a sensor that exists. -/
theorem run_sensor {w : DefWorld} {s : ℕ} {o : SensObj} (h : w.sensor s = some o) (c : DStmt) :
    ∃ o', (c.run w).2.sensor s = some o' ∧
      o'.alpha = (match c with
        | .setAlpha s' a => if s' = s then some a else o.alpha
        | _ => o.alpha) ∧
      o'.peaks = (match c with
        | .setPeaks s' p => if s' = s then p else o.peaks
        | _ => o.peaks) := by
  have hs := (Option.filter_eq_some_iff.1 h)
  have hlt : s < w.sensors.length := (List.getElem?_eq_some_iff.1 hs.1).1
  have hset : ∀ (s' : ℕ) (o1 o2 : SensObj), w.sensor s' = some o1 → o2.named = o1.named → ∀ defs dicts,
      (DefWorld.mk defs dicts (w.sensors.set s' o2)).sensor s = some (if s' = s then o2 else o) := by
    intro s' o1 o2 h1 hn defs dicts
    unfold DefWorld.sensor at *
    by_cases e : s' = s
    · subst e
      have hn1 := (Option.filter_eq_some_iff.1 h1).2
      rw [if_pos rfl]
      simp only [List.getElem?_set_self hlt, Option.filter_some, hn, hn1, if_true]
    · rw [if_neg e]
      simp only [List.getElem?_set_ne e]
      exact h
  cases c with
  | newDef d => exact ⟨o, h, rfl, rfl⟩
  | newDict => exact ⟨o, h, rfl, rfl⟩
  | put k idx d =>
    refine ⟨o, ?_, rfl, rfl⟩
    unfold DStmt.run
    dsimp only
    split
    · exact h
    · split <;> exact h
  | putOf s' idx d =>
    refine ⟨o, ?_, rfl, rfl⟩
    unfold DStmt.run
    dsimp only
    split
    · split
      · exact h
      · split <;> exact h
    · exact h
  | newSensor alpha peaks dict rest =>
    refine ⟨o, ?_, rfl, rfl⟩
    unfold DStmt.run
    dsimp only
    split
    · exact h
    · unfold DefWorld.sensor at *
      simp only [List.getElem?_append_left hlt]
      exact h
  | setAlpha s' a =>
    unfold DStmt.run
    dsimp only
    cases h1 : w.sensor s' with
    | none =>
      have e : s' ≠ s := by rintro rfl; rw [h] at h1; exact nomatch h1
      exact ⟨o, h, by rw [if_neg e], rfl⟩
    | some o1 =>
      dsimp only
      refine ⟨_, hset s' o1 ⟨some a, o1.peaks, o1.dict, o1.named⟩ h1 (by rfl) _ _, ?_, ?_⟩
      · by_cases e : s' = s
        · simp only [if_pos e]
        · simp only [if_neg e]
      · by_cases e : s' = s
        · subst e
          rw [h] at h1
          cases h1
          simp only [if_true]
        · simp only [if_neg e]
  | setPeaks s' a =>
    unfold DStmt.run
    dsimp only
    cases h1 : w.sensor s' with
    | none =>
      have e : s' ≠ s := by rintro rfl; rw [h] at h1; exact nomatch h1
      exact ⟨o, h, rfl, by rw [if_neg e]⟩
    | some o1 =>
      dsimp only
      refine ⟨_, hset s' o1 ⟨o1.alpha, a, o1.dict, o1.named⟩ h1 (by rfl) _ _, ?_, ?_⟩
      · by_cases e : s' = s
        · subst e
          rw [h] at h1
          cases h1
          simp only [if_true]
        · simp only [if_neg e]
      · by_cases e : s' = s
        · simp only [if_pos e]
        · simp only [if_neg e]
  | setDict s' k =>
    unfold DStmt.run
    dsimp only
    split
    next o1 c h1 h2 =>
      split
      · exact ⟨o, h, rfl, rfl⟩
      · refine ⟨_, hset s' o1 ⟨o1.alpha, o1.peaks, some k, o1.named⟩ h1 (by rfl) _ _, ?_⟩
        by_cases e : s' = s
        · subst e
          rw [h] at h1
          cases h1
          simp only [if_true, and_self]
        · simp only [if_neg e, and_self]
    next => exact ⟨o, h, rfl, rfl⟩

theorem exec_assigned {s : ℕ} : ∀ (l : List DStmt) (w : DefWorld) (o : SensObj) (a : ℝ × ℝ) (ps : Option (List ℝ)),
    w.sensor s = some o → o.alpha = some a → o.peaks = ps →
    ∃ o', (w.exec l).sensor s = some o' ∧ o'.alpha = some (Spec.armsAfter s a l) ∧ o'.peaks = Spec.peaksAfter s ps l := by
  intro l
  induction l with
  | nil => exact fun w o a ps h ha hp => ⟨o, h, ha, hp⟩
  | cons c l ih =>
    intro w o a ps h ha hp
    obtain ⟨o', h', ha', hp'⟩ := run_sensor h c
    rw [DefWorld.exec, List.foldl_cons]
    have key := fun a' p' (e1 : o'.alpha = some a') (e2 : o'.peaks = p') => ih (c.run w).2 o' a' p' h' e1 e2
    rw [ha] at ha'
    rw [hp] at hp'
    cases c with
    | setAlpha s' a1 => exact key (if s' = s then a1 else a) ps (by rw [ha']; dsimp only; split <;> rfl) hp'
    | setPeaks s' p1 => exact key a _ ha' hp'
    | _ => exact key a ps ha' hp'

end SimCATS
