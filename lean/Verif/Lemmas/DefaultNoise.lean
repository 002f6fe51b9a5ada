import Verif.Props.DotJumpsScan
import Verif.Spec.DefaultNoise
import Verif.Lemmas.DotJumpsCall
import Verif.Lemmas.Telegraph
import Verif.Props.DefaultConfigs
import Verif.Props.Telegraph
import Verif.Props.DotJumps

/-! Measurements with several stateful distortions. -/

namespace SimCATS

open Spec

/-! ### CSD generators that return what is requested -/

/-- The generator returns images (of the kind `P2`) and lines (of the kind `P1`) of the requested size and keeps `K`. -/
structure Serves {S : Type} (K : S → Prop) (gen : Gen S) (P2 : ℝ × ℝ → ℝ × ℝ → ℕ → ℕ → Prop) (P1 : ℝ × ℝ → ℝ × ℝ → ℕ → Prop) : Prop where
  two : ∀ g1 g2 r c s, K s → P2 g1 g2 r c →
    ∃ o l s', gen g1 g2 (.arr [(c : ℤ), (r : ℤ)]) s = (.ok (.d2 r c o, .d2 r c l), s') ∧ K s'
  one : ∀ g1 g2 n s, K s → P1 g1 g2 n → ∃ o l s', gen g1 g2 (.int n) s = (.ok (.d1 n o, .d1 n l), s') ∧ K s'

/-- The border of an image is available. -/
def BorderOk (P2 : ℝ × ℝ → ℝ × ℝ → ℕ → ℕ → Prop) (P1 : ℝ × ℝ → ℝ × ℝ → ℕ → Prop) (axis : Axis) (g1 g2 : ℝ × ℝ) (r c : ℕ) : Prop :=
  match axis with
  | .g1 => (∀ m : ℕ, 2 ≤ m → P2 (g1.1 - m * borderStep g1 c, g1.1 - borderStep g1 c) g2 r m) ∧
      P1 (g1.1 - borderStep g1 c, g1.1 - borderStep g1 c) g2 r
  | .g2 => (∀ m : ℕ, 2 ≤ m → P2 g1 (g2.1 - m * borderStep g2 r, g2.1 - borderStep g2 r) m c) ∧
      P1 g1 (g2.1 - borderStep g2 r, g2.1 - borderStep g2 r) c

theorem reshape2_row {α : Type} (n : ℕ) (f : Fin n → α) : ∃ g, reshape2 1 n (.d1 n f) = .ok g := by
  unfold reshape2
  dsimp only
  by_cases h : 1 = n ∧ n = 1
  · rw [dif_pos h]; exact ⟨_, rfl⟩
  · rw [dif_neg h, dif_pos ⟨rfl, rfl⟩]; exact ⟨_, rfl⟩

theorem reshape2_col {α : Type} (n : ℕ) (f : Fin n → α) : ∃ g, reshape2 n 1 (.d1 n f) = .ok g := by
  unfold reshape2
  dsimp only
  rw [dif_pos ⟨rfl, rfl⟩]
  exact ⟨_, rfl⟩

theorem M.bind_eq {σ α β : Type} {x : M σ α} {f : α → M σ β} {s s' : σ} {a : α} (h : x s = (.ok a, s')) : (x >>= f) s = f a s' := by
  rw [M.bind_run, h]

variable {S : Type} {K : S → Prop} {gen : Gen S} {P2 : ℝ × ℝ → ℝ × ℝ → ℕ → ℕ → Prop} {P1 : ℝ × ℝ → ℝ × ℝ → ℕ → Prop}

theorem border2d_serves (h : Serves K gen P2 P1) {axis : Axis} {g1 g2 : ℝ × ℝ} {r c : ℕ} (hb : BorderOk P2 P1 axis g1 g2 r c) (m : ℕ)
    {s : S} (hs : K s) : ∃ b s', border2d axis gen g1 g2 r c m s = (.ok b, s') ∧ K s' := by
  unfold border2d
  by_cases h0 : m = 0
  · rw [if_pos h0]
    exact ⟨_, s, rfl, hs⟩
  rw [if_neg h0]
  cases axis with
  | g1 =>
    by_cases h1 : m > 1
    · obtain ⟨o, l, s', e, hs'⟩ := h.two _ _ _ _ s hs (hb.1 m h1)
      have e' : borderCall .g1 gen g1 g2 r c m s = (.ok (.d2 r m o, .d2 r m l), s') := by
        unfold borderCall
        simp only [if_pos h1]
        exact e
      rw [M.bind_eq e']
      simp only [M.bind_run, ofPy_run, reshape2_self]
      exact ⟨_, _, rfl, hs'⟩
    · obtain rfl : m = 1 := by omega
      obtain ⟨o, l, s', e, hs'⟩ := h.one _ _ _ s hs hb.2
      have e' : borderCall .g1 gen g1 g2 r c 1 s = (.ok (.d1 r o, .d1 r l), s') := by
        unfold borderCall
        simp only [if_neg h1, Nat.cast_one, one_mul]
        exact e
      rw [M.bind_eq e']
      obtain ⟨f1, e1⟩ := reshape2_col r o
      obtain ⟨f2, e2⟩ := reshape2_col r l
      simp only [M.bind_run, ofPy_run, e1, e2]
      exact ⟨_, _, rfl, hs'⟩
  | g2 =>
    by_cases h1 : m > 1
    · obtain ⟨o, l, s', e, hs'⟩ := h.two _ _ _ _ s hs (hb.1 m h1)
      have e' : borderCall .g2 gen g1 g2 r c m s = (.ok (.d2 m c o, .d2 m c l), s') := by
        unfold borderCall
        simp only [if_pos h1]
        exact e
      rw [M.bind_eq e']
      simp only [M.bind_run, ofPy_run, reshape2_self]
      exact ⟨_, _, rfl, hs'⟩
    · obtain rfl : m = 1 := by omega
      obtain ⟨o, l, s', e, hs'⟩ := h.one _ _ _ s hs hb.2
      have e' : borderCall .g2 gen g1 g2 r c 1 s = (.ok (.d1 c o, .d1 c l), s') := by
        unfold borderCall
        simp only [if_neg h1, Nat.cast_one, one_mul]
        exact e
      rw [M.bind_eq e']
      obtain ⟨f1, e1⟩ := reshape2_row c o
      obtain ⟨f2, e2⟩ := reshape2_row c l
      simp only [M.bind_run, ofPy_run, e1, e2]
      exact ⟨_, _, rfl, hs'⟩

theorem maxJump_ok {noise : List ℕ} (h : 0 < noise.length) : ∃ m, maxJump noise = .ok m := by
  cases noise with
  | nil => simp at h
  | cons x xs => exact ⟨_, rfl⟩

theorem blockwise_ok {α : Type} (axis : Axis) (rows cols : ℕ) (scale : Option ℝ) (orig : ℕ → ℕ → Option α) (noise : List ℕ)
    (empty : ℕ → ℕ → Option α) (hl : axis.size rows cols ≤ noise.length) :
    ∃ res, dotJumpsBlockwise axis rows cols scale orig noise empty = .ok res := by
  unfold dotJumpsBlockwise
  by_cases h : scale = some 0
  · rw [if_pos h]; exact ⟨_, rfl⟩
  rw [if_neg h]
  cases axis with
  | g1 =>
    simp only [Axis.size] at hl
    simp only
    rw [if_neg (by omega)]
    exact ⟨_, rfl⟩
  | g2 =>
    simp only [Axis.size] at hl
    simp only
    rw [if_neg (by omega)]
    exact ⟨_, rfl⟩

theorem shiftImg_ok {α : Type} (axis : Axis) (rows cols m : ℕ) (scale : Option ℝ) (img : ℕ → ℕ → Option α) (noise : List ℕ)
    (hl : axis.size rows cols ≤ noise.length) : ∃ res, shiftImg axis rows cols m scale img noise = .ok res := by
  unfold shiftImg
  cases axis with
  | g1 =>
    obtain ⟨res, e⟩ := blockwise_ok .g1 rows (m + cols) scale img (List.replicate m 0 ++ noise) (fun _ _ => none)
      (by simp only [Axis.size, List.length_append, List.length_replicate] at hl ⊢; omega)
    simp only [e]
    exact ⟨_, rfl⟩
  | g2 =>
    obtain ⟨res, e⟩ := blockwise_ok .g2 (m + rows) cols scale img (List.replicate m 0 ++ noise) (fun _ _ => none)
      (by simp only [Axis.size, List.length_append, List.length_replicate] at hl ⊢; omega)
    simp only [e]
    exact ⟨_, rfl⟩

theorem apply2d_serves (h : Serves K gen P2 P1) {axis : Axis} {g1 g2 : ℝ × ℝ} {r c : ℕ} (hb : BorderOk P2 P1 axis g1 g2 r c)
    (nan : ℝ) (occ : Fin r → Fin c → ℝ × ℝ) (lead : Fin r → Fin c → ℕ) (scale : Option ℝ) {noise : List ℕ}
    (h0 : 0 < noise.length) (hl : axis.size r c ≤ noise.length) {s : S} (hs : K s) :
    ∃ out s', apply2d axis nan r c occ lead g1 g2 gen scale noise s = (.ok out, s') ∧ K s' := by
  obtain ⟨m, hm⟩ := maxJump_ok h0
  obtain ⟨b, s', e, hs'⟩ := border2d_serves h hb m hs
  obtain ⟨o1, e1⟩ := shiftImg_ok axis r c m scale (stackImg axis m (chan1 b.1) (chan1 (toImg occ))) noise hl
  obtain ⟨o2, e2⟩ := shiftImg_ok axis r c m scale (stackImg axis m (chan2 b.1) (chan2 (toImg occ))) noise hl
  obtain ⟨o3, e3⟩ := shiftImg_ok axis r c m scale (stackImg axis m b.2 (toImg lead)) noise hl
  unfold apply2d
  rw [M.bind_eq (ofPy_run _ s |>.trans (by rw [hm])), M.bind_eq e]
  simp only [M.bind_run, ofPy_run, e1, e2, e3]
  exact ⟨_, _, rfl, hs'⟩

theorem border1d_serves (h : Serves K gen P2 P1) {axis : Axis} {g1 g2 : ℝ × ℝ} {n : ℕ}
    (hb : ∀ i : ℕ, match axis with
      | .g1 => P1 (g1.1 - ((i : ℝ) + 1) * borderStep g1 n, g1.2 - ((i : ℝ) + 1) * borderStep g1 n) g2 n
      | .g2 => P1 g1 (g2.1 - ((i : ℝ) + 1) * borderStep g1 n, g2.2 - ((i : ℝ) + 1) * borderStep g1 n) n) :
    ∀ (todo i : ℕ) (o : ℕ → ℕ → Option (ℝ × ℝ)) (l : ℕ → ℕ → Option ℕ) (s : S), K s →
      ∃ b s', border1d axis gen g1 g2 n todo i o l s = (.ok b, s') ∧ K s' := by
  intro todo
  induction todo with
  | zero => intro i o l s hs; exact ⟨_, s, rfl, hs⟩
  | succ todo ih =>
    intro i o l s hs
    unfold border1d
    cases axis with
    | g1 =>
      obtain ⟨o', l', s', e, hs'⟩ := h.one _ _ _ s hs (hb i)
      dsimp only
      rw [M.bind_eq e]
      simp only [M.bind_run, ofPy_run, as1d_self]
      exact ih _ _ _ s' hs'
    | g2 =>
      obtain ⟨o', l', s', e, hs'⟩ := h.one _ _ _ s hs (hb i)
      dsimp only
      rw [M.bind_eq e]
      simp only [M.bind_run, ofPy_run, as1d_self]
      exact ih _ _ _ s' hs'

/-- The shifted lines are available. -/
def LineBorderOk (P1 : ℝ × ℝ → ℝ × ℝ → ℕ → Prop) (axis : Axis) (g1 g2 : ℝ × ℝ) (n : ℕ) : Prop :=
  ∀ i : ℕ, match axis with
    | .g1 => P1 (g1.1 - ((i : ℝ) + 1) * borderStep g1 n, g1.2 - ((i : ℝ) + 1) * borderStep g1 n) g2 n
    | .g2 => P1 g1 (g2.1 - ((i : ℝ) + 1) * borderStep g1 n, g2.2 - ((i : ℝ) + 1) * borderStep g1 n) n

theorem readDiag_ok {α : Type} {np2 : Bool} {n : ℕ} (hn : np2 = true → n ≤ 256) (axis : Axis) (m : ℕ) (img : ℕ → ℕ → Option α) :
    ∃ f, readDiag np2 axis m img n = .ok f := by
  unfold readDiag
  rw [if_neg (by rintro ⟨h1, -, h2⟩; have := hn h1; omega)]
  exact ⟨_, rfl⟩

theorem shiftDiag_long {α : Type} (axis : Axis) (n m : ℕ) (scale : Option ℝ) (img : ℕ → ℕ → Option α) (noise : List ℕ)
    (hl : n ≤ noise.length) : ∃ res, shiftDiag axis n m scale img noise = .ok res := by
  unfold shiftDiag
  cases axis
  · exact blockwise_ok .g1 n (m + n) scale img _ _ (by simp only [Axis.size, List.length_append, List.length_replicate]; omega)
  · exact blockwise_ok .g2 (m + n) n scale img _ _ (by simp only [Axis.size, List.length_append, List.length_replicate]; omega)

theorem apply1d_serves (h : Serves K gen P2 P1) {axis : Axis} {g1 g2 : ℝ × ℝ} {n : ℕ} (hb : LineBorderOk P1 axis g1 g2 n)
    {np2 : Bool} (hn : np2 = true → n ≤ 256) (nan : ℝ) (occ : Fin n → ℝ × ℝ) (lead : Fin n → ℕ) (scale : Option ℝ) {noise : List ℕ}
    (h0 : 0 < noise.length) (hl : n ≤ noise.length) {s : S} (hs : K s) :
    ∃ out s', apply1d axis np2 nan n occ lead g1 g2 gen scale noise s = (.ok out, s') ∧ K s' := by
  obtain ⟨m, hm⟩ := maxJump_ok h0
  obtain ⟨b, s', e, hs'⟩ := border1d_serves h hb m 0 (diagImg occ) (diagImg lead) s hs
  obtain ⟨s1, e1⟩ := shiftDiag_long axis n m scale (chan1 b.1) noise hl
  obtain ⟨s2, e2⟩ := shiftDiag_long axis n m scale (chan2 b.1) noise hl
  obtain ⟨s3, e3⟩ := shiftDiag_long axis n m scale b.2 noise hl
  obtain ⟨r1, f1⟩ := readDiag_ok hn axis m s1
  obtain ⟨r2, f2⟩ := readDiag_ok hn axis m s2
  obtain ⟨r3, f3⟩ := readDiag_ok (np2 := false) (n := n) (by simp) axis m s3
  unfold apply1d
  rw [M.bind_eq (ofPy_run _ s |>.trans (by rw [hm])), M.bind_eq e]
  simp only [M.bind_run, ofPy_run, e1, e2, e3, f1, f2, f3]
  exact ⟨_, _, rfl, hs'⟩

theorem M.bind_error {σ α β : Type} {x : M σ α} {f : α → M σ β} {s : σ} {e : PyErr} (h : (x s).1 = .error e) : ((x >>= f) s).1 = .error e := by
  rw [M.bind_run]
  rcases hh : x s with ⟨r, s'⟩
  rw [hh] at h
  simp only at h
  subst h
  rfl

theorem apply1d_serves_overflow (h : Serves K gen P2 P1) {axis : Axis} {g1 g2 : ℝ × ℝ} {n : ℕ} (hb : LineBorderOk P1 axis g1 g2 n)
    (hn : 256 < n) (nan : ℝ) (occ : Fin n → ℝ × ℝ) (lead : Fin n → ℕ) (scale : Option ℝ) {noise : List ℕ} {m : ℕ}
    (hm : maxJump noise = .ok m) (h0 : 0 < m) (hl : n ≤ noise.length) {s : S} (hs : K s) :
    (apply1d axis true nan n occ lead g1 g2 gen scale noise s).1 = .error .overflowError := by
  obtain ⟨b, s', e, hs'⟩ := border1d_serves h hb m 0 (diagImg occ) (diagImg lead) s hs
  obtain ⟨s1, e1⟩ := shiftDiag_long axis n m scale (chan1 b.1) noise hl
  obtain ⟨s2, e2⟩ := shiftDiag_long axis n m scale (chan2 b.1) noise hl
  unfold apply1d
  rw [M.bind_eq (ofPy_run _ s |>.trans (by rw [hm])), M.bind_eq e, M.bind_eq ((ofPy_run _ _).trans (by rw [e1])),
    M.bind_eq ((ofPy_run _ _).trans (by rw [e2]))]
  refine M.bind_error ?_
  rw [ofPy_run]
  unfold readDiag
  rw [if_pos ⟨rfl, h0, hn⟩]

/-! ### Dot jumps -/

section jumps

variable {T : Type} {K : DotState × T → Prop} {gen : Gen (DotState × T)}

theorem run2d_serves (h : Serves K gen P2 P1) (d : DotJumps T) {g1 g2 : ℝ × ℝ} {r c : ℕ}
    (hb : BorderOk P2 P1 d.axis (sortLim g1) (sortLim g2) r c) (occ : Fin r → Fin c → ℝ × ℝ) (lead : Fin r → Fin c → ℕ)
    {p : List ℕ × Option ℝ} (h0 : 0 < p.1.length) (hl : d.axis.size r c ≤ p.1.length) {s : DotState × T} (hs : K s) :
    ∃ o l s', d.run2d r c occ lead g1 g2 gen p s = (.ok (.d2 r c o, .d2 r c l), s') ∧ K s' := by
  unfold DotJumps.run2d
  obtain ⟨out, s', e, hs'⟩ := apply2d_serves h hb d.nan (flip2d g1 g2 occ) (flip2d g1 g2 lead) p.2 h0 hl hs
  rw [M.bind_eq e]
  exact ⟨_, _, s', rfl, hs'⟩

theorem run1d_serves (h : Serves K gen P2 P1) (d : DotJumps T) {g1 g2 : ℝ × ℝ} {n : ℕ}
    (hb : LineBorderOk P1 d.axis (sortLim g1) (sortLim g2) n) (hn : d.np2 = true → n ≤ 256) (occ : Fin n → ℝ × ℝ) (lead : Fin n → ℕ)
    {p : List ℕ × Option ℝ} (h0 : 0 < p.1.length) (hl : n ≤ p.1.length) {s : DotState × T} (hs : K s) :
    ∃ o l s', d.run1d n occ lead g1 g2 gen p s = (.ok (.d1 n o, .d1 n l), s') ∧ K s' := by
  unfold DotJumps.run1d
  by_cases hd : Desc g2 ∨ Desc g1
  · rw [if_pos hd]
    obtain ⟨out, s', e, hs'⟩ := apply1d_serves h hb hn d.nan (fun i => occ i.rev) (fun i => lead i.rev) p.2 h0 hl hs
    rw [M.bind_eq e]
    exact ⟨_, _, s', rfl, hs'⟩
  · rw [if_neg hd]
    obtain ⟨out, s', e, hs'⟩ := apply1d_serves h hb hn d.nan occ lead p.2 h0 hl hs
    rw [M.bind_eq e]
    exact ⟨_, _, s', rfl, hs'⟩

theorem run1d_overflow (h : Serves K gen P2 P1) (d : DotJumps T) {g1 g2 : ℝ × ℝ} {n : ℕ}
    (hb : LineBorderOk P1 d.axis (sortLim g1) (sortLim g2) n) (hnp : d.np2 = true) (hn : 256 < n) (occ : Fin n → ℝ × ℝ) (lead : Fin n → ℕ)
    {p : List ℕ × Option ℝ} {m : ℕ} (hm : maxJump p.1 = .ok m) (h0 : 0 < m) (hl : n ≤ p.1.length) {s : DotState × T} (hs : K s) :
    (d.run1d n occ lead g1 g2 gen p s).1 = .error .overflowError := by
  unfold DotJumps.run1d
  rw [hnp]
  by_cases hd : Desc g2 ∨ Desc g1
  · rw [if_pos hd]
    exact M.bind_error (apply1d_serves_overflow h hb hn d.nan (fun i => occ i.rev) (fun i => lead i.rev) p.2 hm h0 hl hs)
  · rw [if_neg hd]
    exact M.bind_error (apply1d_serves_overflow h hb hn d.nan occ lead p.2 hm h0 hl hs)

/-- An error of the generator for the border of one pixel. -/
theorem run2d_error (d : DotJumps T) (ha : d.axis = .g1) {g1 g2 : ℝ × ℝ} {r c : ℕ} (occ : Fin r → Fin c → ℝ × ℝ) (lead : Fin r → Fin c → ℕ)
    {p : List ℕ × Option ℝ} (hm : maxJump p.1 = .ok 1) {s : DotState × T} {e : PyErr}
    (hg : (gen ((sortLim g1).1 - borderStep (sortLim g1) c, (sortLim g1).1 - borderStep (sortLim g1) c) (sortLim g2) (.int r) s).1 = .error e) :
    (d.run2d r c occ lead g1 g2 gen p s).1 = .error e := by
  unfold DotJumps.run2d apply2d
  refine M.bind_error ?_
  rw [M.bind_eq (ofPy_run _ s |>.trans (by rw [hm]))]
  refine M.bind_error ?_
  unfold border2d
  rw [if_neg one_ne_zero]
  refine M.bind_error ?_
  rw [ha]
  unfold borderCall
  simp only [gt_iff_lt, lt_self_iff_false, if_false, Nat.cast_one, one_mul]
  exact hg

end jumps


/-! ### Draws change only the generators -/

variable {τ : Type}

/-- The call changes only the random number generators. -/
def GensOnly {α : Type} (x : M (NoiseState τ) α) : Prop := ∀ s, ∃ t, (x s).2 = { s with gens := t }

theorem GensOnly.pure {α : Type} (a : α) : GensOnly (τ := τ) (pure a) := fun s => ⟨s.gens, rfl⟩

theorem GensOnly.onGens {α : Type} (x : M τ α) : GensOnly (SimCATS.onGens x) := by
  intro s
  unfold SimCATS.onGens
  rcases x s.gens with ⟨r, t⟩
  exact ⟨t, rfl⟩

theorem GensOnly.bind {α β : Type} {x : M (NoiseState τ) α} {f : α → M (NoiseState τ) β} (hx : GensOnly x) (hf : ∀ a, GensOnly (f a)) :
    GensOnly (x >>= f) := by
  intro s
  rw [M.bind_run]
  obtain ⟨t, ht⟩ := hx s
  rcases hh : x s with ⟨e | a, s1⟩ <;> rw [hh] at ht <;> simp only at ht ⊢ <;> subst ht
  · exact ⟨t, rfl⟩
  · obtain ⟨t', ht'⟩ := hf a { s with gens := t }
    exact ⟨t', ht'⟩

theorem GensOnly.burst {α : Type} [Semiring α] {amp : M (NoiseState τ) α} (ha : GensOnly amp) (size : ℕ) (w : ℕ → ℕ) :
    ∀ (todo i bi : ℕ) (noise : List α), GensOnly (burstLoop amp size w todo i bi noise) := by
  intro todo
  induction todo with
  | zero => intro i bi noise; exact GensOnly.pure _
  | succ todo ih =>
    intro i bi noise
    unfold burstLoop
    by_cases h1 : 0 < w i
    · rw [if_pos h1]
      refine GensOnly.bind ha fun a => ?_
      dsimp only
      by_cases h2 : size ≤ (noise ++ List.replicate (w i) ((bi : α) * a)).length
      · rw [if_pos h2]
        exact GensOnly.pure _
      · rw [if_neg h2]
        exact ih _ _ _
    · rw [if_neg h1]
      by_cases h2 : size ≤ noise.length
      · rw [if_pos h2]
        exact GensOnly.pure _
      · rw [if_neg h2]
        exact ih _ _ _

theorem GensOnly.jumps (rng : Rng τ) (size : ℕ) (scale lam : ℝ) : GensOnly (generateJumps rng.onGens size scale lam) := by
  unfold generateJumps
  split_ifs
  · exact GensOnly.pure _
  · exact GensOnly.bind (GensOnly.onGens _) fun w => GensOnly.bind (GensOnly.burst (GensOnly.onGens _) _ _ _ _ _ _) fun _ => GensOnly.pure _

theorem onGens_eq {α : Type} {x : M τ α} {s : NoiseState τ} {r : Py α} {t : τ} (h : x s.gens = (r, t)) :
    SimCATS.onGens x s = (r, { s with gens := t }) := by
  unfold SimCATS.onGens
  rw [h]

theorem onGens_ok {α : Type} {x : M τ α} {s : NoiseState τ} (h : ∃ a t, x s.gens = (.ok a, t)) :
    ∃ a t, SimCATS.onGens x s = (.ok a, { s with gens := t }) := by
  obtain ⟨a, t, e⟩ := h
  refine ⟨a, t, ?_⟩
  unfold SimCATS.onGens
  rw [e]

theorem RngTotal.onGens {rng : Rng τ} (h : RngTotal rng) : RngTotal rng.onGens where
  valid := {
    geometric_error := by
      intro p n s hp
      change SimCATS.onGens (rng.geometric p n) s = _
      unfold SimCATS.onGens
      rw [h.valid.geometric_error p n s.gens hp]
    geometric_ok := by
      intro p n s h0 h1
      obtain ⟨w, t, e, hw⟩ := h.valid.geometric_ok p n s.gens h0 h1
      refine ⟨w, { s with gens := t }, ?_, hw⟩
      change SimCATS.onGens (rng.geometric p n) s = _
      unfold SimCATS.onGens
      rw [e] }
  binomial_ok := fun p s h0 h1 => by
    obtain ⟨a, t, e⟩ := onGens_ok (s := s) (h.binomial_ok p s.gens h0 h1)
    exact ⟨a, _, e⟩
  poisson_ok := fun p s h0 h1 => by
    obtain ⟨a, t, e⟩ := onGens_ok (s := s) (h.poisson_ok p s.gens h0 h1)
    exact ⟨a, _, e⟩
  normal_ok := fun m d s h0 => by
    obtain ⟨a, t, e⟩ := onGens_ok (s := s) (h.normal_ok m d s.gens h0)
    exact ⟨a, _, e⟩

/-! ### Dot jumps on their slot -/

theorem inner_serves {σ D : Type} (L : Slot σ D) {s₀ : σ} {gen : Gen σ} (h : Serves (· = s₀) gen P2 P1) :
    Serves (fun p : D × σ => L.put p.1 p.2 = s₀) (fun v1 v2 res => L.inner (gen v1 v2 res)) P2 P1 where
  two := by
    intro g1 g2 r c p hp h2
    obtain ⟨o, l, s', e, hs'⟩ := h.two g1 g2 r c (L.put p.1 p.2) hp h2
    refine ⟨o, l, (L.get s', s'), ?_, by rw [L.put_get]; exact hs'⟩
    unfold Slot.inner
    rw [e]
  one := by
    intro g1 g2 n p hp h2
    obtain ⟨o, l, s', e, hs'⟩ := h.one g1 g2 n (L.put p.1 p.2) hp h2
    refine ⟨o, l, (L.get s', s'), ?_, by rw [L.put_get]; exact hs'⟩
    unfold Slot.inner
    rw [e]

theorem run_of {σ D α : Type} (L : Slot σ D) {x : M (D × σ) α} {s s₀ : σ} {r : Py α} {p : D × σ} (h : x (L.get s, s) = (r, p))
    (hp : L.put p.1 p.2 = s₀) : L.run x s = (r, s₀) := by
  unfold Slot.run
  rw [h, ← hp]

theorem inner_fst {σ D α : Type} (L : Slot σ D) {x : M σ α} {p : D × σ} {r : Py α} (h : (x (L.put p.1 p.2)).1 = r) : (L.inner x p).1 = r := by
  unfold Slot.inner
  exact h

/-- An error while new dot jumps act on an image. -/
theorem fresh_error2d {T : Type} (d : DotJumps T) {r c : ℕ} {o : Fin r → Fin c → ℝ × ℝ} {l : Fin r → Fin c → ℕ} {g1 g2 : ℝ × ℝ}
    {gen : Gen (DotState × T)} {q : DotState} {s s1 : T} {p : List ℕ × Option ℝ} {s' : DotState × T} {e : PyErr}
    (hb : d.rng.binomial d.ratio s = (.ok true, s1))
    (hn : d.noise g1 g2 (.d2 r c o) (d.axis.size r c) false ({ q with activated := some true }, s1) = (.ok p, s'))
    (hr : (d.run2d r c o l g1 g2 gen p s').1 = .error e) :
    (d.noiseFunction (.d2 r c o, .d2 r c l) g1 g2 gen false (q, s)).1 = .error e := by
  unfold DotJumps.noiseFunction
  rw [M.bind_eq (getOwn_run _)]
  simp only [Bool.false_eq_true, if_false]
  rw [M.bind_eq (onRest_eq hb _), M.bind_eq (setOwn_run _ _ _)]
  simp only [Bool.true_eq_false, if_false]
  unfold DotJumps.active
  simp only
  rw [M.bind_eq ((ofPy_run _ _).trans (by rw [reshape2_self])), M.bind_eq hn]
  exact hr

/-- The state of dot jumps whose noise fits to `n` pixels. -/
def JumpOk (n : ℕ) (d : DotState) : Prop := d.activated = some true → ∃ noise, d.prev = some noise ∧ noise.length = n

theorem frozen_off {T : Type} (d : DotJumps T) (data : CsdData) (g1 g2 : ℝ × ℝ) (gen : Gen (DotState × T)) {s : DotState × T}
    (h : s.1.activated ≠ some true) : d.noiseFunction data g1 g2 gen true s = (.ok data, s) := by
  unfold DotJumps.noiseFunction
  rw [M.bind_eq (getOwn_run s)]
  simp only [if_true]
  rw [if_neg h]
  rfl

/-- A generator of distorted data with frozen dot jumps. -/
theorem frozen_serves {σ : Type} (L : Slot σ DotState) (d : DotJumps σ) {s₀ : σ} {gen : Gen σ} (h : Serves (· = s₀) gen P2 P1) {n : ℕ}
    (hn : 0 < n) (hj : JumpOk n (L.get s₀)) {Q2 : ℝ × ℝ → ℝ × ℝ → ℕ → ℕ → Prop} {Q1 : ℝ × ℝ → ℝ × ℝ → ℕ → Prop}
    (h2 : ∀ g1 g2 r c, Q2 g1 g2 r c → P2 g1 g2 r c ∧ BorderOk P2 P1 d.axis (sortLim g1) (sortLim g2) r c ∧ d.axis.size r c = n)
    (h1 : ∀ g1 g2 m, Q1 g1 g2 m → P1 g1 g2 m ∧ LineBorderOk P1 d.axis (sortLim g1) (sortLim g2) m ∧ m = n ∧ (d.np2 = true → m ≤ 256)) :
    Serves (· = s₀) (withNoise gen (OccDist.on L d.noiseFunction)) Q2 Q1 where
  two := by
    rintro g1 g2 r c s rfl hq
    obtain ⟨p2, pb, hl⟩ := h2 g1 g2 r c hq
    obtain ⟨o, l, s', e, hs'⟩ := h.two g1 g2 r c s rfl p2
    subst hs'
    unfold withNoise
    rw [M.bind_eq e]
    by_cases ha : (L.get s').activated = some true
    · obtain ⟨noise, hp, hl'⟩ := hj ha
      have hst : L.get s' = ⟨some true, some noise⟩ := by
        rcases hg : L.get s' with ⟨a, b⟩
        rw [hg] at ha hp
        simp only at ha hp
        rw [ha, hp]
      have hi := inner_serves L h
      obtain ⟨o', l', p', e', hp'⟩ := run2d_serves hi d pb o l (p := (noise, none)) (by simp only; omega) (by simp only; omega)
        (s := (⟨some true, some noise⟩, s')) (by simp only; rw [← hst, L.put_get])
      refine ⟨o', l', s', run_of L ?_ hp', rfl⟩
      rw [hst, frozen_2d, e']
    · exact ⟨o, l, s', run_of L (frozen_off d _ _ _ _ ha) (L.put_get _), rfl⟩
  one := by
    rintro g1 g2 m s rfl hq
    obtain ⟨p2, pb, hl, h256⟩ := h1 g1 g2 m hq
    obtain ⟨o, l, s', e, hs'⟩ := h.one g1 g2 m s rfl p2
    subst hs'
    unfold withNoise
    rw [M.bind_eq e]
    by_cases ha : (L.get s').activated = some true
    · obtain ⟨noise, hp, hl'⟩ := hj ha
      have hst : L.get s' = ⟨some true, some noise⟩ := by
        rcases hg : L.get s' with ⟨a, b⟩
        rw [hg] at ha hp
        simp only at ha hp
        rw [ha, hp]
      have hi := inner_serves L h
      obtain ⟨o', l', p', e', hp'⟩ := run1d_serves hi d pb h256 o l (p := (noise, none)) (by simp only; omega) (by simp only; omega)
        (s := (⟨some true, some noise⟩, s')) (by simp only; rw [← hst, L.put_get])
      refine ⟨o', l', s', run_of L ?_ hp', rfl⟩
      rw [hst, frozen_1d, e']
    · exact ⟨o, l, s', run_of L (frozen_off d _ _ _ _ ha) (L.put_get _), rfl⟩

/-- Dot jumps as used in the default configuration: fixed parameters. -/
structure PlainJumps (rng : Rng τ) (d : DotJumps (NoiseState τ)) (scale lam : ℝ) : Prop where
  scale : d.scale = pure scale
  lam : d.lam = pure lam
  draws : d.rng = rng.onGens
  total : RngTotal rng
  ratio : 0 ≤ d.ratio ∧ d.ratio ≤ 1

theorem noise_draw {rng : Rng τ} {d : DotJumps (NoiseState τ)} {scale lam k : ℝ} (hd : PlainJumps rng d scale lam) {g1 g2 : ℝ × ℝ}
    {occ : Scan (ℝ × ℝ)} (hk : jumpFactor d.axis g1 g2 occ = some k) (h0 : 0 ≤ lam * k) (h1 : lam * k ≤ 2 ^ 62) (size : ℕ) (ds : DotState)
    (s : NoiseState τ) : ∃ noise sc t, d.noise g1 g2 occ size false (ds, s) =
      (.ok (noise, some sc), (⟨some true, some noise⟩, { s with gens := t })) ∧ noise.length = size ∧ 1 ≤ sc ∧
      ∃ la s', generateJumps d.rng size sc la s = (.ok noise, s') := by
  unfold DotJumps.noise
  simp only [Bool.false_eq_true, if_false, hd.scale, hd.lam]
  rw [M.bind_eq (onRest_eq (M.pure_run _ _) ds), M.bind_eq (onRest_eq (M.pure_run _ _) ds), hk]
  cases hp : pixelParams (some k) scale lam with
  | none => simp [pixelParams] at hp
  | some q =>
    obtain ⟨sc, la⟩ := q
    have hla : la = lam * k := by
      unfold pixelParams at hp
      simp only [Option.map_some, Option.some.injEq, Prod.mk.injEq] at hp
      exact hp.2.symm
    have hsc := pixelParams_pos hp
    have ht := RngTotal.onGens hd.total
    obtain ⟨noise, s', e⟩ := C33_jumps_total d.rng (by rw [hd.draws]; exact ht.valid) size sc la (fun s => by
      rw [hd.draws]
      exact ht.poisson_ok la s (by rw [hla]; exact h0) (by rw [hla]; exact h1)) hsc s
    have hl := (C33_jumps d.rng (by rw [hd.draws]; exact ht.valid) size sc la (by linarith) s s' noise e).1
    obtain ⟨t, ht'⟩ := GensOnly.jumps rng size sc la s
    rw [← hd.draws, e] at ht'
    simp only at ht' ⊢
    rw [M.bind_eq (onRest_eq e ds), M.bind_eq (setOwn_run _ _ _), ht']
    exact ⟨noise, sc, t, rfl, hl, hsc, la, s', e⟩

/-- The state of dot jumps after a call in state `s`. -/
def JumpDrawn (d : DotJumps (NoiseState τ)) (s : NoiseState τ) (n : ℕ) (d' : DotState) : Prop :=
  (∃ t, d.rng.binomial d.ratio s = (.ok false, t) ∧ d'.activated = some false) ∨
  ∃ t noise sc la s1 s1', d.rng.binomial d.ratio s = (.ok true, t) ∧ d' = ⟨some true, some noise⟩ ∧ noise.length = n ∧ 1 ≤ sc ∧
    generateJumps d.rng n sc la s1 = (.ok noise, s1')

theorem JumpDrawn.ok {d : DotJumps (NoiseState τ)} {s : NoiseState τ} {n : ℕ} {d' : DotState} (h : JumpDrawn d s n d') : JumpOk n d' := by
  rcases h with ⟨t, -, h⟩ | ⟨t, noise, sc, la, s1, s1', -, rfl, hl, -⟩
  · intro h'
    rw [h] at h'
    simp at h'
  · exact fun _ => ⟨noise, rfl, hl⟩

/-- A call of dot jumps in a measurement. -/
theorem jumps_call2d (L : Slot (NoiseState τ) DotState) {rng : Rng τ} {d : DotJumps (NoiseState τ)} {scale lam k : ℝ}
    (hd : PlainJumps rng d scale lam) {g1 g2 : ℝ × ℝ} {r c : ℕ} (o : Fin r → Fin c → ℝ × ℝ) (l : Fin r → Fin c → ℕ)
    (hk : jumpFactor d.axis g1 g2 (.d2 r c o) = some k) (h0 : 0 ≤ lam * k) (h1 : lam * k ≤ 2 ^ 62) (hsz : 0 < d.axis.size r c)
    (s : NoiseState τ) {gen : Gen (NoiseState τ)}
    (hg : ∀ d' t, Serves (· = L.put d' { s with gens := t }) gen P2 P1) (hb : BorderOk P2 P1 d.axis (sortLim g1) (sortLim g2) r c) :
    ∃ o' l' d' t, OccDist.on L d.noiseFunction (.d2 r c o, .d2 r c l) g1 g2 gen false s =
      (.ok (.d2 r c o', .d2 r c l'), L.put d' { s with gens := t }) ∧ JumpDrawn d s (d.axis.size r c) d' := by
  obtain ⟨b, t, e⟩ := onGens_ok (s := s) (hd.total.binomial_ok d.ratio s.gens hd.ratio.1 hd.ratio.2)
  have e' : d.rng.binomial d.ratio s = (.ok b, { s with gens := t }) := by
    rw [hd.draws]
    exact e
  unfold OccDist.on
  cases b with
  | false =>
    refine ⟨o, l, ⟨some false, (L.get s).prev⟩, t, run_of L (p := (⟨some false, (L.get s).prev⟩, { s with gens := t })) ?_ rfl,
      .inl ⟨_, e', rfl⟩⟩
    unfold DotJumps.noiseFunction
    rw [M.bind_eq (getOwn_run _)]
    simp only [Bool.false_eq_true, if_false]
    rw [M.bind_eq (onRest_eq e' _), M.bind_eq (setOwn_run _ _ _)]
    rfl
  | true =>
    obtain ⟨noise, sc, t', en, hl, hsc, la, s1', eg⟩ := noise_draw hd hk h0 h1 (d.axis.size r c) { L.get s with activated := some true } { s with gens := t }
    have hi := inner_serves L (hg ⟨some true, some noise⟩ t')
    obtain ⟨o', l', p', er, hp'⟩ := run2d_serves hi d hb o l (p := (noise, some sc)) (by simp only; omega) (by simp only; omega)
      (s := (⟨some true, some noise⟩, { s with gens := t' })) rfl
    refine ⟨o', l', _, t', run_of L ?_ hp', .inr ⟨_, noise, sc, la, _, s1', e', rfl, hl, hsc, eg⟩⟩
    unfold DotJumps.noiseFunction
    rw [M.bind_eq (getOwn_run _)]
    simp only [Bool.false_eq_true, if_false]
    rw [M.bind_eq (onRest_eq e' _), M.bind_eq (setOwn_run _ _ _)]
    simp only [Bool.true_eq_false, if_false]
    unfold DotJumps.active
    simp only
    rw [M.bind_eq ((ofPy_run _ _).trans (by rw [reshape2_self])), M.bind_eq en]
    exact er

theorem jumps_call1d (L : Slot (NoiseState τ) DotState) {rng : Rng τ} {d : DotJumps (NoiseState τ)} {scale lam k : ℝ}
    (hd : PlainJumps rng d scale lam) {g1 g2 : ℝ × ℝ} {n : ℕ} (o : Fin n → ℝ × ℝ) (l : Fin n → ℕ)
    (hk : jumpFactor d.axis g1 g2 (.d1 n o) = some k) (h0 : 0 ≤ lam * k) (h1 : lam * k ≤ 2 ^ 62) (hn : 0 < n)
    (h256 : d.np2 = true → n ≤ 256) (s : NoiseState τ) {gen : Gen (NoiseState τ)}
    (hg : ∀ d' t, Serves (· = L.put d' { s with gens := t }) gen P2 P1) (hb : LineBorderOk P1 d.axis (sortLim g1) (sortLim g2) n) :
    ∃ o' l' d' t, OccDist.on L d.noiseFunction (.d1 n o, .d1 n l) g1 g2 gen false s =
      (.ok (.d1 n o', .d1 n l'), L.put d' { s with gens := t }) ∧ JumpDrawn d s n d' := by
  obtain ⟨b, t, e⟩ := onGens_ok (s := s) (hd.total.binomial_ok d.ratio s.gens hd.ratio.1 hd.ratio.2)
  have e' : d.rng.binomial d.ratio s = (.ok b, { s with gens := t }) := by
    rw [hd.draws]
    exact e
  unfold OccDist.on
  cases b with
  | false =>
    refine ⟨o, l, ⟨some false, (L.get s).prev⟩, t, run_of L (p := (⟨some false, (L.get s).prev⟩, { s with gens := t })) ?_ rfl,
      .inl ⟨_, e', rfl⟩⟩
    unfold DotJumps.noiseFunction
    rw [M.bind_eq (getOwn_run _)]
    simp only [Bool.false_eq_true, if_false]
    rw [M.bind_eq (onRest_eq e' _), M.bind_eq (setOwn_run _ _ _)]
    rfl
  | true =>
    obtain ⟨noise, sc, t', en, hl, hsc, la, s1', eg⟩ := noise_draw hd hk h0 h1 n { L.get s with activated := some true } { s with gens := t }
    have hi := inner_serves L (hg ⟨some true, some noise⟩ t')
    obtain ⟨o', l', p', er, hp'⟩ := run1d_serves hi d hb h256 o l (p := (noise, some sc)) (by simp only; omega) (by simp only; omega)
      (s := (⟨some true, some noise⟩, { s with gens := t' })) rfl
    refine ⟨o', l', _, t', run_of L ?_ hp', .inr ⟨_, noise, sc, la, _, s1', e', rfl, hl, hsc, eg⟩⟩
    unfold DotJumps.noiseFunction
    rw [M.bind_eq (getOwn_run _)]
    simp only [Bool.false_eq_true, if_false]
    rw [M.bind_eq (onRest_eq e' _), M.bind_eq (setOwn_run _ _ _)]
    simp only [Bool.true_eq_false, if_false]
    unfold DotJumps.active
    simp only
    rw [M.bind_eq ((ofPy_run _ _).trans (by rw [as1d_self])), M.bind_eq en]
    exact er


/-! ### Voltage ranges -/

/-- An image with voltages up to `t1` and `t2` and pixels whose sides satisfy `Q`. -/
structure FineBelow (t1 t2 : ℝ) (Q : ℝ → ℝ → Prop) (g1 g2 : ℝ × ℝ) (r c : ℕ) : Prop where
  u1 : g1.1 ≤ t1 ∧ g1.2 ≤ t1
  u2 : g2.1 ≤ t2 ∧ g2.2 ≤ t2
  n1 : g1.1 ≠ g1.2
  n2 : g2.1 ≠ g2.2
  hr : 2 ≤ r
  hc : 2 ≤ c
  step : Q (|g1.2 - g1.1| / ((c : ℝ) - 1)) (|g2.2 - g2.1| / ((r : ℝ) - 1))

/-- A 1D scan with voltages up to `t1` and `t2`. -/
structure LineBelow (t1 t2 : ℝ) (g1 g2 : ℝ × ℝ) (n : ℕ) : Prop where
  u1 : g1.1 ≤ t1 ∧ g1.2 ≤ t1
  u2 : g2.1 ≤ t2 ∧ g2.2 ≤ t2
  hn : 1 ≤ n
  sweep : g1.1 ≠ g1.2 ∨ g2.1 ≠ g2.2

/-- Smaller pixels are allowed as well. -/
def Downward (Q : ℝ → ℝ → Prop) : Prop := ∀ a b a' b', a' ≤ a → b' ≤ b → Q a b → Q a' b'

/-- The pixels of the default configuration. -/
def smallPixel (a b : ℝ) : Prop := a + b ≤ 0.0088

theorem smallPixel_down : Downward smallPixel := by
  intro a b a' b' h1 h2 h
  unfold smallPixel at h ⊢
  linarith

/-- An image with small pixels below the last transition of the default configuration. -/
abbrev Fine := FineBelow (-0.087) (-0.047) smallPixel

/-- A 1D scan below the last transition of the default configuration. -/
abbrev Line := LineBelow (-0.087) (-0.047)

variable {t1 t2 : ℝ} {Q : ℝ → ℝ → Prop}

theorem sortLim_le {g : ℝ × ℝ} {u : ℝ} (h : g.1 ≤ u ∧ g.2 ≤ u) : (sortLim g).1 ≤ u ∧ (sortLim g).2 ≤ u := by
  unfold sortLim
  exact ⟨(min_le_left _ _).trans h.1, max_le h.1 h.2⟩

theorem sortLim_ne {g : ℝ × ℝ} (h : g.1 ≠ g.2) : (sortLim g).1 ≠ (sortLim g).2 := (sortLim_lt h).ne

theorem sortLim_ext (g : ℝ × ℝ) : |(sortLim g).2 - (sortLim g).1| = |g.2 - g.1| := by
  unfold sortLim
  simp only
  rw [max_sub_min_eq_abs, abs_abs]

theorem FineBelow.sort {g1 g2 : ℝ × ℝ} {r c : ℕ} (h : FineBelow t1 t2 Q g1 g2 r c) : FineBelow t1 t2 Q (sortLim g1) (sortLim g2) r c :=
  ⟨sortLim_le h.u1, sortLim_le h.u2, sortLim_ne h.n1, sortLim_ne h.n2, h.hr, h.hc, by rw [sortLim_ext, sortLim_ext]; exact h.step⟩

theorem LineBelow.sort {g1 g2 : ℝ × ℝ} {n : ℕ} (h : LineBelow t1 t2 g1 g2 n) : LineBelow t1 t2 (sortLim g1) (sortLim g2) n :=
  ⟨sortLim_le h.u1, sortLim_le h.u2, h.hn, h.sweep.imp sortLim_ne sortLim_ne⟩

theorem border_ext {a b : ℝ} (h : a < b) {n m : ℕ} (hn : 2 ≤ n) (hm : 2 ≤ m) :
    a - m * borderStep (a, b) n ≠ a - borderStep (a, b) n ∧ 0 < borderStep (a, b) n ∧
    |a - borderStep (a, b) n - (a - m * borderStep (a, b) n)| / ((m : ℝ) - 1) ≤ |b - a| / ((n : ℝ) - 1) := by
  have hn' : (2 : ℝ) ≤ n := by exact_mod_cast hn
  have hm' : (2 : ℝ) ≤ m := by exact_mod_cast hm
  have hst : 0 < borderStep (a, b) n := by
    unfold borderStep
    exact div_pos (by simpa using h) (by linarith)
  refine ⟨fun e => ?_, hst, ?_⟩
  · have : ((m : ℝ) - 1) * borderStep (a, b) n = 0 := by linarith
    rcases mul_eq_zero.mp this with h1 | h1 <;> linarith
  · rw [show a - borderStep (a, b) n - (a - m * borderStep (a, b) n) = ((m : ℝ) - 1) * borderStep (a, b) n by ring, abs_mul,
      abs_of_pos (by linarith : (0 : ℝ) < (m : ℝ) - 1), abs_of_pos hst, mul_div_cancel_left₀ _ (by linarith), abs_of_pos (by linarith)]
    unfold borderStep
    exact div_le_div_of_nonneg_left (by simp only; linarith) (by linarith) (by linarith)

theorem FineBelow.border (hQ : Downward Q) {g1 g2 : ℝ × ℝ} {r c : ℕ} (h : FineBelow t1 t2 Q g1 g2 r c) (h1 : g1.1 < g1.2) (h2 : g2.1 < g2.2)
    (axis : Axis) : BorderOk (FineBelow t1 t2 Q) (LineBelow t1 t2) axis g1 g2 r c := by
  obtain ⟨a1, b1⟩ := g1
  obtain ⟨a2, b2⟩ := g2
  obtain ⟨⟨u1, u2⟩, ⟨u3, u4⟩, n1, n2, hr, hc, hs⟩ := h
  simp only at u1 u2 u3 u4 n1 n2 hs h1 h2
  cases axis with
  | g1 =>
    have p := (border_ext h1 hc (m := 2) le_rfl).2.1
    refine ⟨fun m hm => ?_, ⟨⟨by simp only; linarith, by simp only; linarith⟩, ⟨u3, u4⟩, by omega, Or.inr n2⟩⟩
    obtain ⟨e1, -, e3⟩ := border_ext h1 hc hm
    have hm' : (2 : ℝ) ≤ m := by exact_mod_cast hm
    refine ⟨⟨?_, ?_⟩, ⟨u3, u4⟩, e1, n2, hr, hm, ?_⟩
    · simp only
      nlinarith
    · simp only
      linarith
    · exact hQ _ _ _ _ e3 le_rfl hs
  | g2 =>
    have p := (border_ext h2 hr (m := 2) le_rfl).2.1
    refine ⟨fun m hm => ?_, ⟨⟨u1, u2⟩, ⟨by simp only; linarith, by simp only; linarith⟩, by omega, Or.inl n1⟩⟩
    obtain ⟨e1, -, e3⟩ := border_ext h2 hr hm
    have hm' : (2 : ℝ) ≤ m := by exact_mod_cast hm
    refine ⟨⟨u1, u2⟩, ⟨?_, ?_⟩, n1, e1, hm, hc, ?_⟩
    · simp only
      nlinarith
    · simp only
      linarith
    · exact hQ _ _ _ _ le_rfl e3 hs

theorem LineBelow.border {g1 g2 : ℝ × ℝ} {n : ℕ} (h : LineBelow t1 t2 g1 g2 n) (h1 : g1.1 ≤ g1.2) (axis : Axis) :
    LineBorderOk (LineBelow t1 t2) axis g1 g2 n := by
  obtain ⟨⟨u1, u2⟩, ⟨u3, u4⟩, hn, hs⟩ := h
  intro i
  have p : 0 ≤ ((i : ℝ) + 1) * borderStep g1 n := by
    unfold borderStep
    have : 0 ≤ g1.2 - g1.1 := by linarith
    positivity
  cases axis with
  | g1 =>
    refine ⟨⟨by simp only; linarith, by simp only; linarith⟩, ⟨u3, u4⟩, hn, hs.imp (fun h e => h ?_) id⟩
    simp only at e
    linarith
  | g2 =>
    refine ⟨⟨u1, u2⟩, ⟨by simp only; linarith, by simp only; linarith⟩, hn, hs.imp id (fun h e => h ?_)⟩
    simp only at e
    linarith

theorem sortLim_le' (g : ℝ × ℝ) : (sortLim g).1 ≤ (sortLim g).2 := by
  unfold sortLim
  exact (min_le_left _ _).trans (le_max_left _ _)

theorem pxPerVolt_ne {g : ℝ × ℝ} (h : g.1 ≠ g.2) (n : ℕ) : pxPerVolt n g = some (n / |g.2 - g.1|) := by
  unfold pxPerVolt
  rw [max_sub_min_eq_abs, if_neg (by rw [abs_eq_zero, sub_eq_zero]; exact fun e => h e.symm)]

/-! ### The ideal data and the blurring -/

theorem ideal_serves {σ : Type} (lab : Labelling) (s₀ : σ) : Serves (· = s₀) (idealGen defaultIdeal lab) Fine Line where
  two := by
    rintro g1 g2 r c s rfl h
    obtain ⟨o, ho⟩ := default_fine lab (l1 := min g1.1 g1.2) (l2 := min g2.1 g2.2) (a1 := g1.1) (b1 := g1.2) (a2 := g2.1) (b2 := g2.2)
      ⟨⟨min_le_left _ _, h.u1.1⟩, min_le_right _ _, h.u1.2⟩ ⟨⟨min_le_left _ _, h.u2.1⟩, min_le_right _ _, h.u2.2⟩ h.n1 h.n2 h.hr h.hc h.step
    have hi := idealCsd_2d defaultIdeal lab h.n1 h.n2 h.hr h.hc
    rw [show ideal2d defaultIdeal lab g1 g2 r c = .ok o from ho] at hi
    refine ⟨o.1, o.2, s, ?_, rfl⟩
    unfold idealGen
    rw [hi]
    rfl
  one := by
    rintro g1 g2 n s rfl h
    obtain ⟨o, ho⟩ := default_line (l1 := min g1.1 g1.2) (l2 := min g2.1 g2.2) (a1 := g1.1) (b1 := g1.2) (a2 := g2.1) (b2 := g2.2)
      ⟨⟨min_le_left _ _, h.u1.1⟩, min_le_right _ _, h.u1.2⟩ ⟨⟨min_le_left _ _, h.u2.1⟩, min_le_right _ _, h.u2.2⟩ n
    have hi : idealCsd defaultIdeal lab [g1.1, g1.2] [g2.1, g2.2] (.int n) = .ok (.d1 n o.1 o.2) := by
      unfold idealCsd
      simp only [Resolution.entries, idealCheck_1d]
      rw [if_neg (by have := h.hn; omega)]
      simp only [Int.toNat_natCast, Prod.mk.eta] at ho ⊢
      rw [ho]
    refine ⟨o.1, o.2, s, ?_, rfl⟩
    unfold idealGen
    rw [hi]
    rfl

theorem blur_apply2d {T : Type} (d : Blur T) {g1 g2 : ℝ × ℝ} (h : g1.1 ≠ g1.2) {r c : ℕ} (o : Fin r → Fin c → ℝ × ℝ) (l : Fin r → Fin c → ℕ)
    (σ : ℝ) : ∃ o', d.apply (.d2 r c o, .d2 r c l) g1 g2 σ = .ok (.d2 r c o', .d2 r c l) := by
  unfold Blur.apply
  by_cases h0 : 0 < σ
  · rw [if_pos h0]
    simp only [blurFactor, pxPerVolt_ne h]
    exact ⟨_, rfl⟩
  · rw [if_neg h0]
    exact ⟨_, rfl⟩

theorem blur_apply1d {T : Type} (d : Blur T) {g1 g2 : ℝ × ℝ} (h : g1.1 ≠ g1.2 ∨ g2.1 ≠ g2.2) {n : ℕ} (o : Fin n → ℝ × ℝ) (l : Fin n → ℕ)
    (σ : ℝ) : ∃ o', d.apply (.d1 n o, .d1 n l) g1 g2 σ = .ok (.d1 n o', .d1 n l) := by
  unfold Blur.apply
  by_cases h0 : 0 < σ
  · rw [if_pos h0]
    have : ∃ k, blurFactor g1 g2 (.d1 n o) = some k := by
      unfold blurFactor
      simp only
      by_cases h1 : g1.1 = g1.2
      · rw [if_pos h1, pxPerVolt_ne (h.resolve_left (not_not.mpr h1))]
        exact ⟨_, rfl⟩
      · rw [if_neg h1]
        by_cases h2 : g2.1 = g2.2
        · rw [if_pos h2, pxPerVolt_ne h1]
          exact ⟨_, rfl⟩
        · rw [if_neg h2, pxPerVolt_ne h1, pxPerVolt_ne h2]
          exact ⟨_, rfl⟩
    obtain ⟨k, hk⟩ := this
    simp only [hk]
    exact ⟨_, rfl⟩
  · rw [if_neg h0]
    exact ⟨_, rfl⟩

theorem blur_frozen {T : Type} (d : Blur T) (data : CsdData) (g1 g2 : ℝ × ℝ) (gen : Gen (Option ℝ × T)) (σ : ℝ) (t : T) :
    d.noiseFunction data g1 g2 gen true (some σ, t) = (d.apply data g1 g2 σ, (some σ, t)) := by
  unfold Blur.noiseFunction Blur.sample
  simp only [if_true]
  rw [M.bind_eq (getOwn_run _), M.bind_eq (setOwn_run _ _ _)]
  rfl

theorem blur_fresh {B : Blur (NoiseState τ)} {s : NoiseState τ} {v : ℝ} {t : τ} (h : B.sigma s = (.ok v, { s with gens := t }))
    {data data' : CsdData} {g1 g2 : ℝ × ℝ} (ha : B.apply data g1 g2 v = .ok data') (gen : Gen (NoiseState τ)) :
    OccDist.on (blurSlot τ) B.noiseFunction data g1 g2 gen false s = (.ok data', { s with blur := some v, gens := t }) := by
  refine run_of (blurSlot τ) (p := (some v, { s with gens := t })) ?_ rfl
  unfold Blur.noiseFunction Blur.sample
  simp only [Bool.false_eq_true, if_false]
  rw [bind_assoc, M.bind_eq (onRest_eq h _), M.bind_eq (M.pure_run _ _), M.bind_eq (setOwn_run _ _ _)]
  simp only
  rw [ofPy_run, ha]

theorem blur_serves {s₀ : NoiseState τ} (hs : s₀.blur ≠ none) {gen : Gen (NoiseState τ)}
    (h : Serves (· = s₀) gen (FineBelow t1 t2 Q) (LineBelow t1 t2)) (B : Blur (NoiseState τ)) :
    Serves (· = s₀) (withNoise gen (OccDist.on (blurSlot τ) B.noiseFunction)) (FineBelow t1 t2 Q) (LineBelow t1 t2) where
  two := by
    rintro g1 g2 r c s rfl hf
    obtain ⟨o, l, s', e, hs'⟩ := h.two g1 g2 r c s rfl hf
    subst hs'
    obtain ⟨σ, hσ⟩ := Option.ne_none_iff_exists'.mp hs
    obtain ⟨o', ho'⟩ := blur_apply2d B (g2 := g2) hf.n1 o l σ
    refine ⟨o', l, s', ?_, rfl⟩
    unfold withNoise
    rw [M.bind_eq e]
    refine run_of (blurSlot τ) (p := (s'.blur, s')) ?_ rfl
    change B.noiseFunction _ g1 g2 (fun v1 v2 res => (blurSlot τ).inner (gen v1 v2 res)) true (s'.blur, s') = _
    rw [hσ, blur_frozen, ho']
  one := by
    rintro g1 g2 n s rfl hf
    obtain ⟨o, l, s', e, hs'⟩ := h.one g1 g2 n s rfl hf
    subst hs'
    obtain ⟨σ, hσ⟩ := Option.ne_none_iff_exists'.mp hs
    obtain ⟨o', ho'⟩ := blur_apply1d B hf.sweep o l σ
    refine ⟨o', l, s', ?_, rfl⟩
    unfold withNoise
    rw [M.bind_eq e]
    refine run_of (blurSlot τ) (p := (s'.blur, s')) ?_ rfl
    change B.noiseFunction _ g1 g2 (fun v1 v2 res => (blurSlot τ).inner (gen v1 v2 res)) true (s'.blur, s') = _
    rw [hσ, blur_frozen, ho']

/-! ### Distortions of the sensor signal -/

/-- Two scans have the same shape. -/
inductive SameShape {α β : Type} : Scan α → Scan β → Prop
  | d1 (n : ℕ) (f : Fin n → α) (g : Fin n → β) : SameShape (.d1 n f) (.d1 n g)
  | d2 (r c : ℕ) (f : Fin r → Fin c → α) (g : Fin r → Fin c → β) : SameShape (.d2 r c f) (.d2 r c g)

theorem addNoise_shape {x y : Scan ℝ} {noise : List ℝ} (h : addNoise x noise = .ok y) (hx : ∀ v, x ≠ .d0 v) : SameShape x y := by
  unfold addNoise at h
  split_ifs at h
  cases x with
  | d0 v => exact absurd rfl (hx v)
  | d1 n f => cases h; exact .d1 n f _
  | d2 r c f => cases h; exact .d2 r c f _

theorem telegraph_shape {T : Type} {rng : Rng T} {x y : Scan ℝ} {scale : Option ℝ} {std height : ℝ} {s s' : T}
    (h : telegraphNoise rng x scale std height s = (.ok y, s')) (hx : ∀ v, x ≠ .d0 v) : SameShape x y := by
  unfold telegraphNoise at h
  cases scale with
  | none => exact nomatch h
  | some sc =>
    simp only at h
    by_cases h0 : sc = 0
    · rw [if_pos h0] at h
      cases h
      cases x with
      | d0 v => exact absurd rfl (hx v)
      | d1 n f => exact .d1 n f _
      | d2 r c f => exact .d2 r c f _
    · rw [if_neg h0] at h
      obtain ⟨w, t1, -, h⟩ := M.bind_ok.mp h
      obtain ⟨noise, t2, -, h⟩ := M.bind_ok.mp h
      rw [ofPy_run] at h
      cases hh : addNoise x (noise.take x.size) with
      | error e => rw [hh] at h; exact nomatch h
      | ok y' =>
        rw [hh] at h
        cases h
        exact addNoise_shape hh hx

theorem SameShape.refl {x : Scan ℝ} (hx : ∀ v, x ≠ .d0 v) : SameShape x x := by
  cases x with
  | d0 v => exact absurd rfl (hx v)
  | d1 n f => exact .d1 n f _
  | d2 r c f => exact .d2 r c f _

/-- Telegraph noise as used in the default configuration. -/
theorem rtn_call (L : Slot (NoiseState τ) (Option Bool)) {rng : Rng τ} (hr : RngTotal rng) {sc sd he ratio k : ℝ} (hd : 0 ≤ sd)
    (h0 : 0 ≤ ratio) (h1 : ratio ≤ 1) {x : Scan ℝ} (hx : ∀ v, x ≠ .d0 v) {g1 g2 : ℝ × ℝ} (hk : rtnFactor g1 g2 x = some k)
    (hpx : 1 ≤ sc * k) (s : NoiseState τ) :
    ∃ y s', SigDist.on L (Rtn.noiseFunction ⟨pure sc, pure sd, pure he, ratio, rng.onGens⟩) x g1 g2 s = (.ok y, s') ∧ SameShape x y := by
  have ht := RngTotal.onGens hr
  obtain ⟨b, s1, e⟩ := ht.binomial_ok ratio s h0 h1
  unfold SigDist.on
  cases b with
  | false => exact ⟨x, _, run_of L (C34_rtn_inactive _ x g1 g2 (L.get s) s s1 e) rfl, SameShape.refl hx⟩
  | true =>
    have hc := C36_rtn_call (⟨pure sc, pure sd, pure he, ratio, rng.onGens⟩ : Rtn (NoiseState τ)) x g1 g2 (L.get s) s s1 s1 s1 s1 sc sd he
      e rfl rfl rfl
    obtain ⟨y, s', hy⟩ := C33_total rng.onGens ht.valid x (sc * k) sd he (fun s => ht.normal_ok he sd s hd) hpx s1
    refine ⟨y, _, run_of L (p := (some true, s')) (hc.trans ?_) rfl, telegraph_shape hy hx⟩
    rw [hk, Option.map_some]
    simp only [hy]

theorem white_call (L : Slot (NoiseState τ) (Option ℝ)) {sigma : M τ ℝ} {noise : ℝ → ℕ → M τ (List ℝ)}
    (h1 : ∀ s, ∃ v s', sigma s = (.ok v, s')) (h2 : ∀ v n s, ∃ l s', noise v n s = (.ok l, s') ∧ l.length = n) {x : Scan ℝ}
    (hx : ∀ v, x ≠ .d0 v) (g1 g2 : ℝ × ℝ) (s : NoiseState τ) :
    ∃ y s', SigDist.on L (WhiteNoise.noiseFunction ⟨onGens sigma, fun v n => onGens (noise v n)⟩) x g1 g2 s = (.ok y, s') ∧
      SameShape x y := by
  obtain ⟨v, t, e⟩ := onGens_ok (h1 s.gens)
  obtain ⟨l, t', e', hl⟩ := h2 v x.size t
  have e2 : onGens (noise v x.size) { s with gens := t } = (.ok l, { s with gens := t' }) := by
    unfold onGens
    simp only
    rw [e']
  obtain ⟨y, hy⟩ := addNoise_total x l hl
  refine ⟨y, _, run_of L (p := (some v, { s with gens := t' })) ?_ rfl, addNoise_shape hy hx⟩
  unfold WhiteNoise.noiseFunction
  rw [M.bind_eq (onRest_eq e _), M.bind_eq (setOwn_run _ _ _), M.bind_eq (onRest_eq e2 _), ofPy_run, hy]

theorem plain_jumps0 {env : NoiseEnv τ} (h : EnvTotal env) : PlainJumps env.jumps0 (defaultJumps0 env) (100 * 0.03 / 100) (6 * 0.03 / 100) :=
  ⟨rfl, rfl, rfl, h.jumps0, by unfold defaultJumps0; norm_num⟩

theorem plain_jumps1 {env : NoiseEnv τ} (h : EnvTotal env) : PlainJumps env.jumps1 (defaultJumps1 env) (100 * 0.03 / 100) (6 * 0.03 / 100) :=
  ⟨rfl, rfl, rfl, h.jumps1, by unfold defaultJumps1; norm_num⟩

theorem lam_bound {n : ℕ} {e : ℝ} (he : 0 < |e|) (h : (n : ℝ) ≤ 1e20 * |e|) :
    0 ≤ 6 * 0.03 / 100 * ((n : ℝ) / |e|) ∧ 6 * 0.03 / 100 * ((n : ℝ) / |e|) ≤ 2 ^ 62 := by
  have h1 : 0 ≤ (n : ℝ) / |e| := by positivity
  have h2 : (n : ℝ) / |e| ≤ 1e20 := by rwa [div_le_iff₀ he]
  norm_num at h2 ⊢
  constructor <;> linarith

/-- A blurring and two dot jumps as used in the configurations. -/
structure PlainOcc (B : Blur (NoiseState τ)) (j0 j1 : DotJumps (NoiseState τ)) : Prop where
  blur : ∀ s, ∃ v t, B.sigma s = (.ok v, { s with gens := t })
  jumps0 : ∃ rng scale, PlainJumps rng j0 scale (6 * 0.03 / 100)
  jumps1 : ∃ rng scale, PlainJumps rng j1 scale (6 * 0.03 / 100)
  axis0 : j0.axis = .g2
  axis1 : j1.axis = .g1
  np2 : j1.np2 = j0.np2

/-- The occupation distortions of a configuration for an image. -/
theorem plain_occ2d (hQ : Downward Q) {gen : Gen (NoiseState τ)}
    (hgen : ∀ s, Serves (· = s) gen (FineBelow t1 t2 Q) (LineBelow t1 t2)) {B : Blur (NoiseState τ)} {j0 j1 : DotJumps (NoiseState τ)}
    (hp : PlainOcc B j0 j1) {g1 g2 : ℝ × ℝ} {r c : ℕ} (hf : FineBelow t1 t2 Q g1 g2 r c)
    (hr : (r : ℝ) ≤ 1e20 * |g1.2 - g1.1|) (hc : (c : ℝ) ≤ 1e20 * |g2.2 - g2.1|) (h256 : j0.np2 = true → r ≤ 256)
    (o : Fin r → Fin c → ℝ × ℝ) (l : Fin r → Fin c → ℕ) (s : NoiseState τ) :
    ∃ o' l' gen' s', applyOcc g1 g2 [OccDist.on (blurSlot τ) B.noiseFunction, OccDist.on (jumps0Slot τ) j0.noiseFunction,
      OccDist.on (jumps1Slot τ) j1.noiseFunction] gen (.d2 r c o, .d2 r c l) s = (.ok ((.d2 r c o', .d2 r c l'), gen'), s') := by
  have p1 : 0 < |g1.2 - g1.1| := abs_pos.mpr (sub_ne_zero.mpr hf.n1.symm)
  have p2 : 0 < |g2.2 - g2.1| := abs_pos.mpr (sub_ne_zero.mpr hf.n2.symm)
  have b1 := lam_bound p1 hr
  have b2 := lam_bound p2 hc
  have hr2 := hf.hr
  have hc2 := hf.hc
  have border : ∀ axis, BorderOk (FineBelow t1 t2 Q) (LineBelow t1 t2) axis (sortLim g1) (sortLim g2) r c := fun axis =>
    hf.sort.border hQ (sortLim_lt hf.n1) (sortLim_lt hf.n2) axis
  obtain ⟨rng0, sc0, hj0⟩ := hp.jumps0
  obtain ⟨rng1, sc1, hj1⟩ := hp.jumps1
  -- blurring
  obtain ⟨v, tv, hv⟩ := hp.blur s
  obtain ⟨o1, ho1⟩ := blur_apply2d B (g2 := g2) hf.n1 o l v
  have e1 := blur_fresh hv ho1 gen
  -- jumps along gate 2
  have g1s : ∀ s' : NoiseState τ, s'.blur ≠ none →
      Serves (· = s') (withNoise gen (OccDist.on (blurSlot τ) B.noiseFunction)) (FineBelow t1 t2 Q) (LineBelow t1 t2) :=
    fun s' h => blur_serves h (hgen s') B
  obtain ⟨o2, l2, d0, t0, e2, hj⟩ := jumps_call2d (jumps0Slot τ) hj0 (g1 := g1) (g2 := g2) o1 l
    (by rw [hp.axis0]; exact pxPerVolt_ne hf.n2 c) b2.1 b2.2
    (by rw [hp.axis0]; exact (by omega : 0 < r)) { s with blur := some v, gens := tv } (fun d' t => g1s _ (by simp [jumps0Slot])) (border _)
  rw [hp.axis0] at hj
  -- jumps along gate 1
  have g2s : ∀ s' : NoiseState τ, s'.blur ≠ none → JumpOk r s'.jumps0 →
      Serves (· = s') (withNoise (withNoise gen (OccDist.on (blurSlot τ) B.noiseFunction)) (OccDist.on (jumps0Slot τ) j0.noiseFunction))
        (fun g1 g2 r' c' => FineBelow t1 t2 Q g1 g2 r' c' ∧ r' = r) (fun g1 g2 n => LineBelow t1 t2 g1 g2 n ∧ n = r) := by
    intro s' h h'
    refine frozen_serves (jumps0Slot τ) j0 (g1s s' h) (n := r) (by omega) h' ?_ ?_
    · rintro g1 g2 r' c' ⟨hf', rfl⟩
      exact ⟨hf', hf'.sort.border hQ (sortLim_lt hf'.n1) (sortLim_lt hf'.n2) _, by rw [hp.axis0]; rfl⟩
    · rintro g1 g2 n ⟨hl', rfl⟩
      exact ⟨hl', hl'.sort.border (sortLim_le' _) _, rfl, h256⟩
  have bo := border .g1
  obtain ⟨o3, l3, d1, t1', e3, -⟩ := jumps_call2d (jumps1Slot τ) hj1 (g1 := g1) (g2 := g2) o2 l2
    (by rw [hp.axis1]; exact pxPerVolt_ne hf.n1 r) b1.1 b1.2
    (by rw [hp.axis1]; exact (by omega : 0 < c)) ((jumps0Slot τ).put d0 { s with blur := some v, gens := t0 })
    (fun d' t => g2s _ (by simp [jumps0Slot, jumps1Slot]) hj.ok)
    (by rw [hp.axis1]; exact ⟨fun m hm => ⟨bo.1 m hm, rfl⟩, bo.2, rfl⟩)
  refine ⟨o3, l3, ?_, ?_, ?_⟩
  rotate_left 2
  · unfold applyOcc
    rw [M.bind_eq e1]
    unfold applyOcc
    rw [M.bind_eq e2]
    unfold applyOcc
    rw [M.bind_eq e3]
    rfl

/-- The occupation distortions of a configuration for a 1D scan of both gates. -/
theorem plain_occ1d {gen : Gen (NoiseState τ)} (hgen : ∀ s, Serves (· = s) gen (FineBelow t1 t2 Q) (LineBelow t1 t2))
    {B : Blur (NoiseState τ)} {j0 j1 : DotJumps (NoiseState τ)} (hp : PlainOcc B j0 j1) {g1 g2 : ℝ × ℝ} {n : ℕ} (hf : LineBelow t1 t2 g1 g2 n)
    (n1 : g1.1 ≠ g1.2) (n2 : g2.1 ≠ g2.2) (hr : (n : ℝ) ≤ 1e20 * |g1.2 - g1.1|) (hc : (n : ℝ) ≤ 1e20 * |g2.2 - g2.1|)
    (h256 : j0.np2 = true → n ≤ 256) (o : Fin n → ℝ × ℝ) (l : Fin n → ℕ) (s : NoiseState τ) :
    ∃ o' l' gen' s', applyOcc g1 g2 [OccDist.on (blurSlot τ) B.noiseFunction, OccDist.on (jumps0Slot τ) j0.noiseFunction,
      OccDist.on (jumps1Slot τ) j1.noiseFunction] gen (.d1 n o, .d1 n l) s = (.ok ((.d1 n o', .d1 n l'), gen'), s') := by
  have p1 : 0 < |g1.2 - g1.1| := abs_pos.mpr (sub_ne_zero.mpr n1.symm)
  have p2 : 0 < |g2.2 - g2.1| := abs_pos.mpr (sub_ne_zero.mpr n2.symm)
  have b1 := lam_bound p1 hr
  have b2 := lam_bound p2 hc
  have hn := hf.hn
  obtain ⟨rng0, sc0, hj0⟩ := hp.jumps0
  obtain ⟨rng1, sc1, hj1⟩ := hp.jumps1
  -- blurring
  obtain ⟨v, tv, hv⟩ := hp.blur s
  obtain ⟨o1, ho1⟩ := blur_apply1d B hf.sweep o l v
  have e1 := blur_fresh hv ho1 gen
  -- jumps along gate 2
  have g1s : ∀ s' : NoiseState τ, s'.blur ≠ none →
      Serves (· = s') (withNoise gen (OccDist.on (blurSlot τ) B.noiseFunction)) (FineBelow t1 t2 Q) (LineBelow t1 t2) :=
    fun s' h => blur_serves h (hgen s') B
  obtain ⟨o2, l2, d0, t0, e2, hj⟩ := jumps_call1d (jumps0Slot τ) hj0 (g1 := g1) (g2 := g2) o1 l
    (by rw [hp.axis0]; exact pxPerVolt_ne n2 n) b2.1 b2.2 (by omega) h256
    { s with blur := some v, gens := tv } (fun d' t => g1s _ (by simp [jumps0Slot])) (hf.sort.border (sortLim_le' _) _)
  -- jumps along gate 1
  have g2s : ∀ s' : NoiseState τ, s'.blur ≠ none → JumpOk n s'.jumps0 →
      Serves (· = s') (withNoise (withNoise gen (OccDist.on (blurSlot τ) B.noiseFunction)) (OccDist.on (jumps0Slot τ) j0.noiseFunction))
        (fun _ _ _ _ => False) (fun g1 g2 m => LineBelow t1 t2 g1 g2 m ∧ m = n) := by
    intro s' h h'
    refine frozen_serves (jumps0Slot τ) j0 (g1s s' h) (n := n) (by omega) h' ?_ ?_
    · rintro g1 g2 r' c' ⟨⟩
    · rintro g1 g2 m ⟨hl', rfl⟩
      exact ⟨hl', hl'.sort.border (sortLim_le' _) _, rfl, h256⟩
  obtain ⟨o3, l3, d1, t1', e3, -⟩ := jumps_call1d (jumps1Slot τ) hj1 (g1 := g1) (g2 := g2) o2 l2
    (by rw [hp.axis1]; exact pxPerVolt_ne n1 n) b1.1 b1.2 (by omega) (by rw [hp.np2]; exact h256)
    ((jumps0Slot τ).put d0 { s with blur := some v, gens := t0 })
    (fun d' t => g2s _ (by simp [jumps0Slot, jumps1Slot]) hj.ok)
    (by
      have := hf.sort.border (sortLim_le' _) j1.axis
      rw [hp.axis1] at this ⊢
      exact fun i => ⟨this i, rfl⟩)
  refine ⟨o3, l3, ?_, ?_, ?_⟩
  rotate_left 2
  · unfold applyOcc
    rw [M.bind_eq e1]
    unfold applyOcc
    rw [M.bind_eq e2]
    unfold applyOcc
    rw [M.bind_eq e3]
    rfl

theorem default_plain {env : NoiseEnv τ} (henv : EnvTotal env) :
    PlainOcc (gaussBlur (pure (0.75 * 0.03 / 100))) (defaultJumps0 env) (defaultJumps1 env) where
  blur := fun s => ⟨_, s.gens, rfl⟩
  jumps0 := ⟨_, _, plain_jumps0 henv⟩
  jumps1 := ⟨_, _, plain_jumps1 henv⟩
  axis0 := rfl
  axis1 := rfl
  np2 := rfl

/-- The occupation distortions of the default configuration for an image. -/
theorem noisy_occ2d {env : NoiseEnv τ} (henv : EnvTotal env) (lab : Labelling) {g1 g2 : ℝ × ℝ} {r c : ℕ} (hf : Fine g1 g2 r c)
    (hr : (r : ℝ) ≤ 1e20 * |g1.2 - g1.1|) (hc : (c : ℝ) ≤ 1e20 * |g2.2 - g2.1|) (h256 : env.np2 = true → r ≤ 256)
    (o : Fin r → Fin c → ℝ × ℝ) (l : Fin r → Fin c → ℕ) (s : NoiseState τ) :
    ∃ o' l' gen s', applyOcc g1 g2 [defaultBlur, OccDist.on (jumps0Slot τ) (defaultJumps0 env).noiseFunction,
      OccDist.on (jumps1Slot τ) (defaultJumps1 env).noiseFunction] (idealGen defaultIdeal lab) (.d2 r c o, .d2 r c l) s =
      (.ok ((.d2 r c o', .d2 r c l'), gen), s') :=
  plain_occ2d smallPixel_down (ideal_serves lab) (default_plain henv) hf hr hc h256 o l s

/-- The distortions of the sensor signal of the default configuration. -/
theorem noisy_pot {env : NoiseEnv τ} (henv : EnvTotal env) {g1 g2 : ℝ × ℝ} {x : Scan ℝ} (hx : ∀ v, x ≠ .d0 v) {k : ℝ}
    (hk : ∀ y : Scan ℝ, SameShape x y → rtnFactor g1 g2 y = some k) (hpx : 1 ≤ 0.0223701 * k) (s : NoiseState τ) :
    ∃ y s', applySig g1 g2 [SigDist.on (pinkSlot τ) (defaultPink env).noiseFunction,
      SigDist.on (potRtnSlot τ) (defaultPotRtn env).noiseFunction] x s = (.ok y, s') ∧ SameShape x y := by
  obtain ⟨x1, s1, e1, h1⟩ := white_call (pinkSlot τ) henv.pinkSigma henv.pinkNoise hx g1 g2 s
  have hx1 : ∀ v, x1 ≠ .d0 v := by
    intro v e
    cases h1 <;> cases e
  obtain ⟨x2, s2, e2, h2⟩ := rtn_call (potRtnSlot τ) henv.pot (sc := 74.56704 * 0.03 / 100) (sd := 3.491734e-05) (he := 2.53855325e-05)
    (ratio := 1 / 6) (by norm_num) (by norm_num) (by norm_num) hx1 (hk x1 h1) (by norm_num at hpx ⊢; linarith) s1
  refine ⟨x2, s2, ?_, ?_⟩
  · unfold applySig
    rw [M.bind_eq (x := SigDist.on (pinkSlot τ) (defaultPink env).noiseFunction x g1 g2) e1]
    unfold applySig
    rw [M.bind_eq (x := SigDist.on (potRtnSlot τ) (defaultPotRtn env).noiseFunction x1 g1 g2) e2]
    rfl
  · cases h1 <;> cases h2
    · exact .d1 _ _ _
    · exact .d2 _ _ _ _

theorem noisy_resp {env : NoiseEnv τ} (henv : EnvTotal env) {g1 g2 : ℝ × ℝ} {x : Scan ℝ} (hx : ∀ v, x ≠ .d0 v) {k : ℝ}
    (hk : rtnFactor g1 g2 x = some k) (hpx : 1 ≤ 0.0223701 * k) (s : NoiseState τ) :
    ∃ y s', applySig g1 g2 [SigDist.on (respRtnSlot τ) (defaultRespRtn env).noiseFunction,
      SigDist.on (whiteSlot τ) (defaultWhite env).noiseFunction] x s = (.ok y, s') ∧ SameShape x y := by
  obtain ⟨x1, s1, e1, h1⟩ := rtn_call (respRtnSlot τ) henv.resp (sc := 10000 * 0.03 / 100) (sd := 0.047453767599999995)
    (he := 0.0152373696) (ratio := 0.03) (by norm_num) (by norm_num) (by norm_num) hx hk (by norm_num at hpx ⊢; linarith) s
  have hx1 : ∀ v, x1 ≠ .d0 v := by
    intro v e
    cases h1 <;> cases e
  obtain ⟨x2, s2, e2, h2⟩ := white_call (whiteSlot τ) henv.whiteSigma henv.whiteNoise hx1 g1 g2 s1
  refine ⟨x2, s2, ?_, ?_⟩
  · unfold applySig
    rw [M.bind_eq (x := SigDist.on (respRtnSlot τ) (defaultRespRtn env).noiseFunction x g1 g2) e1]
    unfold applySig
    rw [M.bind_eq (x := SigDist.on (whiteSlot τ) (defaultWhite env).noiseFunction x1 g1 g2) e2]
    rfl
  · cases h1 <;> cases h2
    · exact .d1 _ _ _
    · exact .d2 _ _ _ _


theorem generic_pot2d (s : SensorGeneric) {g1 g2 : ℝ × ℝ} {r c : ℕ} (hr : 2 ≤ r) (hc : 2 ≤ c) (o : Fin r → Fin c → ℝ × ℝ) :
    ∃ f, s.potential (.d2 r c o) g1 g2 = .ok (.d2 r c f) := by
  unfold SensorGeneric.potential
  exact ⟨_, if_neg (by omega)⟩

theorem generic_pot1d (s : SensorGeneric) {g1 g2 : ℝ × ℝ} {n : ℕ} (hn : 1 ≤ n) (o : Fin n → ℝ × ℝ) :
    ∃ f, s.potential (.d1 n o) g1 g2 = .ok (.d1 n f) := by
  unfold SensorGeneric.potential
  exact ⟨_, if_neg (by omega)⟩

theorem generic_resp (s : SensorGeneric) (hp : s.peaks ≠ some []) {x : Scan ℝ} (hx : ∀ v, x ≠ .d0 v) : SameShape x (s.response x) := by
  unfold SensorGeneric.response
  split
  · exact SameShape.refl hx
  · rename_i e; exact absurd e hp
  · cases x with
    | d0 v => exact absurd rfl (hx v)
    | d1 n f => exact .d1 n f _
    | d2 r c f => exact .d2 r c f _

theorem noisy_check (env : NoiseEnv τ) (lab : Labelling) {a1 b1 a2 b2 : ℝ} (w1 : Within (-0.2) (-0.087) a1 b1)
    (w2 : Within (-0.2) (-0.047) a2 b2) {s1 s2 : Option ℝ} (hs : s1.isNone = s2.isNone) {res : Resolution}
    (hres : resCheck (a1, b1) (a2, b2) res = .ok ()) (st : NoiseState τ) :
    measure (noisySim env lab) ⟨[a1, b1], [a2, b2], s1, s2, res⟩ st =
      measureRun (noisySim env lab) (idealGen defaultIdeal lab) ⟨[a1, b1], [a2, b2], s1, s2, res⟩ (a1, b1) (a2, b2) st := by
  have h := default_check (σ := NoiseState τ) lab w1 w2 hs hres
  unfold measure
  rw [show (noisySim env lab).gen = some (idealGen defaultIdeal lab) from rfl]
  simp only [Option.isSome_some]
  rw [show (noisySim env lab).lim = (defaultSim (σ := NoiseState τ) lab).lim from rfl, h]


/-- The part of a measurement after the occupation distortions. -/
theorem noisy_run {env : NoiseEnv τ} (henv : EnvTotal env) (lab : Labelling) {rq : Request} {g1 g2 : ℝ × ℝ} {st s1 s2 : NoiseState τ}
    {data data' : CsdData} {gen' : Gen (NoiseState τ)} (hgen : idealGen defaultIdeal lab g1 g2 rq.res st = (.ok data, s1))
    (hocc : applyOcc g1 g2 [defaultBlur, OccDist.on (jumps0Slot τ) (defaultJumps0 env).noiseFunction,
      OccDist.on (jumps1Slot τ) (defaultJumps1 env).noiseFunction] (idealGen defaultIdeal lab) data s1 = (.ok (data', gen'), s2))
    {x : Scan ℝ} (hpot : defaultSensor.potential data'.1 g1 g2 = .ok x) (hx : ∀ v, x ≠ .d0 v) (hrank : sameRank data'.1 x = true) {k : ℝ}
    (hk : ∀ y : Scan ℝ, SameShape x y → rtnFactor g1 g2 y = some k) (hpx : 1 ≤ 0.0223701 * k) :
    ∃ csd st', measureRun (noisySim env lab) (idealGen defaultIdeal lab) rq g1 g2 st = (.ok (csd, data'.1, data'.2), st') ∧
      SameShape x csd := by
  obtain ⟨y, s3, e3, hy⟩ := noisy_pot henv hx hk hpx s2
  have hy0 : ∀ v, y ≠ .d0 v := by
    intro v e
    cases hy <;> cases e
  have hz := generic_resp defaultSensor (by simp [defaultSensor]) hy0
  generalize hzz : defaultSensor.response y = z at hz
  have hxz : SameShape x z := by
    cases hy <;> cases hz
    · exact .d1 _ _ _
    · exact .d2 _ _ _ _
  have hz0 : ∀ v, z ≠ .d0 v := by
    intro v e
    cases hz <;> cases e
  obtain ⟨csd, s4, e4, hcsd⟩ := noisy_resp henv hz0 (hk z hxz) hpx s3
  refine ⟨csd, s4, ?_, ?_⟩
  · unfold measureRun
    rw [M.bind_eq hgen, show (noisySim env lab).occD.getD [] = [defaultBlur, OccDist.on (jumps0Slot τ) (defaultJumps0 env).noiseFunction,
      OccDist.on (jumps1Slot τ) (defaultJumps1 env).noiseFunction] from rfl, M.bind_eq hocc]
    have q1 : (noisySim env lab).sensor.potential data'.1 g1 g2
        (if (noisySim env lab).sensor.scan = true then some (rq.s1, rq.s2) else none) s2 = (.ok (.single x), s2) := by
      change (match defaultSensor.potential data'.1 g1 g2 with | .ok p => pure (.single p) | .error e => M.raise e : M (NoiseState τ) Pot) s2 = _
      rw [hpot]
      rfl
    have q2 : distortPotential g1 g2 data'.1 (noisySim env lab).potD (.single x) s2 = (.ok (.single y), s3) := by
      unfold distortPotential
      rw [show (noisySim env lab).potD = some [SigDist.on (pinkSlot τ) (defaultPink env).noiseFunction,
        SigDist.on (potRtnSlot τ) (defaultPotRtn env).noiseFunction] from rfl]
      simp only
      rw [if_pos hrank, M.bind_eq e3]
      rfl
    have q3 : (noisySim env lab).sensor.response (.single y) s3 = (.ok z, s3) := by
      rw [← hzz]
      rfl
    have q4 : distortResponse g1 g2 (noisySim env lab).respD z s3 = (.ok csd, s4) := e4
    rw [M.bind_eq q1, M.bind_eq q2, M.bind_eq q3, M.bind_eq q4]
    rfl
  · cases hxz <;> cases hcsd
    · exact .d1 _ _ _
    · exact .d2 _ _ _ _

/-- Images with small pixels have enough pixels for the telegraph noise. -/
theorem FineBelow.rtn (hQ : ∀ a b, 0 ≤ a → 0 ≤ b → Q a b → a ≤ 0.014 ∧ b ≤ 0.014) {g1 g2 : ℝ × ℝ} {r c : ℕ} (h : FineBelow t1 t2 Q g1 g2 r c) :
    ∃ k, (∀ f : Fin r → Fin c → ℝ, rtnFactor g1 g2 (.d2 r c f) = some k) ∧ 1 ≤ 0.0223701 * k := by
  have p1 : 0 < |g1.2 - g1.1| := abs_pos.mpr (sub_ne_zero.mpr h.n1.symm)
  have p2 : 0 < |g2.2 - g2.1| := abs_pos.mpr (sub_ne_zero.mpr h.n2.symm)
  refine ⟨max (r / |g1.2 - g1.1|) (c / |g2.2 - g2.1|), fun f => ?_, ?_⟩
  · unfold rtnFactor
    dsimp only
    rw [if_neg h.n1, if_neg h.n2, pxPerVolt_ne h.n1, pxPerVolt_ne h.n2]
    rfl
  · have hr : (2 : ℝ) ≤ r := by exact_mod_cast h.hr
    have hc : (2 : ℝ) ≤ c := by exact_mod_cast h.hc
    have q1 : 0 ≤ |g1.2 - g1.1| / ((c : ℝ) - 1) := div_nonneg p1.le (by linarith)
    have q2 : 0 ≤ |g2.2 - g2.1| / ((r : ℝ) - 1) := div_nonneg p2.le (by linarith)
    obtain ⟨e1, e2⟩ := hQ _ _ q1 q2 h.step
    rw [div_le_iff₀ (by linarith)] at e1 e2
    rcases le_total (c : ℝ) r with hcr | hcr
    · have : 60 ≤ (r : ℝ) / |g1.2 - g1.1| := by
        rw [le_div_iff₀ p1]
        norm_num at e1
        linarith
      have := this.trans (le_max_left _ ((c : ℝ) / |g2.2 - g2.1|))
      generalize max ((r : ℝ) / |g1.2 - g1.1|) ((c : ℝ) / |g2.2 - g2.1|) = m at this
      norm_num at this ⊢
      linarith
    · have : 60 ≤ (c : ℝ) / |g2.2 - g2.1| := by
        rw [le_div_iff₀ p2]
        norm_num at e2
        linarith
      have := this.trans (le_max_right ((r : ℝ) / |g1.2 - g1.1|) _)
      generalize max ((r : ℝ) / |g1.2 - g1.1|) ((c : ℝ) / |g2.2 - g2.1|) = m at this
      norm_num at this ⊢
      linarith

theorem smallPixel_sides (a b : ℝ) (ha : 0 ≤ a) (hb : 0 ≤ b) (h : smallPixel a b) : a ≤ 0.014 ∧ b ≤ 0.014 := by
  unfold smallPixel at h
  norm_num at h ⊢
  constructor <;> linarith

/-- Random numbers without randomness: `b p` tells if events of probability `p` happen, blocks have width 1, noise is 0. -/
noncomputable def plainEnv (b : ℝ → Bool) (np2 : Bool) : NoiseEnv Unit where
  jumps0 := { plainRng with binomial := fun p => pure (b p) }
  jumps1 := { plainRng with binomial := fun p => pure (b p) }
  pot := { plainRng with binomial := fun p => pure (b p) }
  resp := { plainRng with binomial := fun p => pure (b p) }
  pinkSigma := pure 0
  whiteSigma := pure 0
  pinkNoise := fun _ n => pure (List.replicate n 0)
  whiteNoise := fun _ n => pure (List.replicate n 0)
  np2 := np2
  nan := 0

theorem plainRng_total (b : ℝ → Bool) : RngTotal { plainRng with binomial := fun p => pure (b p) } where
  valid := ⟨plainRng_valid.geometric_error, plainRng_valid.geometric_ok⟩
  binomial_ok := fun _ _ _ _ => ⟨_, _, rfl⟩
  poisson_ok := fun _ _ _ _ => ⟨_, _, rfl⟩
  normal_ok := fun _ _ _ _ => ⟨_, _, rfl⟩

theorem plainEnv_total (b : ℝ → Bool) (np2 : Bool) : EnvTotal (plainEnv b np2) where
  jumps0 := plainRng_total b
  jumps1 := plainRng_total b
  pot := plainRng_total b
  resp := plainRng_total b
  pinkSigma := fun _ => ⟨_, _, rfl⟩
  whiteSigma := fun _ => ⟨_, _, rfl⟩
  pinkNoise := fun _ n _ => ⟨_, _, rfl, List.length_replicate⟩
  whiteNoise := fun _ n _ => ⟨_, _, rfl, List.length_replicate⟩

/-- The occupation distortions of the default configuration for a 1D scan of both gates. -/
theorem noisy_occ1d {env : NoiseEnv τ} (henv : EnvTotal env) (lab : Labelling) {g1 g2 : ℝ × ℝ} {n : ℕ} (hf : Line g1 g2 n)
    (n1 : g1.1 ≠ g1.2) (n2 : g2.1 ≠ g2.2) (hr : (n : ℝ) ≤ 1e20 * |g1.2 - g1.1|) (hc : (n : ℝ) ≤ 1e20 * |g2.2 - g2.1|)
    (h256 : env.np2 = true → n ≤ 256) (o : Fin n → ℝ × ℝ) (l : Fin n → ℕ) (s : NoiseState τ) :
    ∃ o' l' gen s', applyOcc g1 g2 [defaultBlur, OccDist.on (jumps0Slot τ) (defaultJumps0 env).noiseFunction,
      OccDist.on (jumps1Slot τ) (defaultJumps1 env).noiseFunction] (idealGen defaultIdeal lab) (.d1 n o, .d1 n l) s =
      (.ok ((.d1 n o', .d1 n l'), gen), s') :=
  plain_occ1d (ideal_serves lab) (default_plain henv) hf n1 n2 hr hc h256 o l s

theorem line_rtn {g1 g2 : ℝ × ℝ} {n : ℕ} (hn : 1 ≤ n) (h : g1.1 ≠ g1.2) (f : Fin n → ℝ) :
    rtnFactor g1 g2 (.d1 n f) = some (n / max |g1.2 - g1.1| |g2.2 - g2.1|) := by
  have p1 : 0 < |g1.2 - g1.1| := abs_pos.mpr (sub_ne_zero.mpr h.symm)
  have := le_max_left |g1.2 - g1.1| |g2.2 - g2.1|
  unfold rtnFactor
  dsimp only
  rw [max_sub_min_eq_abs, max_sub_min_eq_abs, if_neg (by linarith)]

theorem run_fst {σ D α : Type} (L : Slot σ D) {x : M (D × σ) α} {s : σ} {r : Py α} (h : (x (L.get s, s)).1 = r) : (L.run x s).1 = r := by
  unfold Slot.run
  exact h

/-- An error of the occupation distortions is the result of the measurement. -/
theorem noisy_run_error {env : NoiseEnv τ} {lab : Labelling} {rq : Request} {g1 g2 : ℝ × ℝ} {st s1 : NoiseState τ} {data : CsdData} {e : PyErr}
    (hgen : idealGen defaultIdeal lab g1 g2 rq.res st = (.ok data, s1))
    (hocc : (applyOcc g1 g2 [defaultBlur, OccDist.on (jumps0Slot τ) (defaultJumps0 env).noiseFunction,
      OccDist.on (jumps1Slot τ) (defaultJumps1 env).noiseFunction] (idealGen defaultIdeal lab) data s1).1 = .error e) :
    (measureRun (noisySim env lab) (idealGen defaultIdeal lab) rq g1 g2 st).1 = .error e := by
  unfold measureRun
  rw [M.bind_eq hgen]
  exact M.bind_error hocc

theorem blur_line {g1 g2 : ℝ × ℝ} {n : ℕ} (h : g1.1 ≠ g1.2 ∨ g2.1 ≠ g2.2) (o : Fin n → ℝ × ℝ) (l : Fin n → ℕ) (gen : Gen (NoiseState τ))
    (s : NoiseState τ) : ∃ o1, defaultBlur (.d1 n o, .d1 n l) g1 g2 gen false s =
      (.ok (.d1 n o1, .d1 n l), { s with blur := some (0.75 * 0.03 / 100) }) := by
  obtain ⟨o1, ho1⟩ := blur_apply1d (gaussBlur (τ := NoiseState τ) (pure (0.75 * 0.03 / 100))) h o l (0.75 * 0.03 / 100)
  exact ⟨o1, blur_fresh (B := gaussBlur (pure (0.75 * 0.03 / 100))) (t := s.gens) rfl ho1 gen⟩

theorem blur_image {g1 g2 : ℝ × ℝ} {r c : ℕ} (h : g1.1 ≠ g1.2) (o : Fin r → Fin c → ℝ × ℝ) (l : Fin r → Fin c → ℕ)
    (gen : Gen (NoiseState τ)) (s : NoiseState τ) : ∃ o1, defaultBlur (.d2 r c o, .d2 r c l) g1 g2 gen false s =
      (.ok (.d2 r c o1, .d2 r c l), { s with blur := some (0.75 * 0.03 / 100) }) := by
  obtain ⟨o1, ho1⟩ := blur_apply2d (gaussBlur (τ := NoiseState τ) (pure (0.75 * 0.03 / 100))) (g2 := g2) h o l (0.75 * 0.03 / 100)
  exact ⟨o1, blur_fresh (B := gaussBlur (pure (0.75 * 0.03 / 100))) (t := s.gens) rfl ho1 gen⟩

theorem burst_prefix {T α : Type} [Semiring α] (amp : M T α) (size : ℕ) (w : ℕ → ℕ) : ∀ (todo i bi : ℕ) (noise out : List α) (s s' : T),
    burstLoop amp size w todo i bi noise s = (.ok out, s') → noise <+: out := by
  intro todo
  induction todo with
  | zero =>
    intro i bi noise out s s' h
    cases h
    exact List.prefix_rfl
  | succ todo ih =>
    intro i bi noise out s s' h
    unfold burstLoop at h
    by_cases h1 : 0 < w i
    · rw [if_pos h1] at h
      obtain ⟨a, t, -, h⟩ := M.bind_ok.mp h
      by_cases h2 : size ≤ (noise ++ List.replicate (w i) ((bi : α) * a)).length
      · rw [if_pos h2] at h
        cases h
        exact List.prefix_append _ _
      · rw [if_neg h2] at h
        exact (List.prefix_append _ _).trans (ih _ _ _ _ _ _ h)
    · rw [if_neg h1] at h
      by_cases h2 : size ≤ noise.length
      · rw [if_pos h2] at h
        cases h
        exact List.prefix_rfl
      · rw [if_neg h2] at h
        exact ih _ _ _ _ _ _ h

theorem maxJump_one {noise : List ℕ} (h1 : ∀ x ∈ noise, x ≤ 1) (h : 1 ∈ noise) : maxJump noise = .ok 1 := by
  have fold : ∀ (l : List ℕ) (x : ℕ), (∀ y ∈ l, y ≤ 1) → x ≤ 1 → (x = 1 ∨ 1 ∈ l) → l.foldl max x = 1 := by
    intro l
    induction l with
    | nil => intro x _ _ h; simpa using h
    | cons y l ih =>
      intro x hl hx h
      have hy := hl y (List.mem_cons_self ..)
      refine ih (max x y) (fun z hz => hl z (List.mem_cons_of_mem _ hz)) (max_le hx hy) ?_
      rcases h with h | h
      · left
        omega
      · rcases List.mem_cons.mp h with h | h
        · left
          omega
        · exact Or.inr h
  cases noise with
  | nil => simp at h
  | cons x l =>
    unfold maxJump
    dsimp only
    rw [fold l x (fun y hy => h1 y (List.mem_cons_of_mem _ hy)) (h1 x (List.mem_cons_self ..)) ?_]
    rcases List.mem_cons.mp h with h | h
    · exact Or.inl h.symm
    · exact Or.inr h

/-- The jumps drawn from the generator without randomness are 0, 1, 0, 1, ... -/
theorem plain_jumps {b : ℝ → Bool} {size : ℕ} (hsz : 2 ≤ size) {scale lam : ℝ} (hsc : 1 ≤ scale) {s s' : NoiseState Unit} {noise : List ℕ}
    (h : generateJumps (Rng.onGens { plainRng with binomial := fun p => pure (b p) }) size scale lam s = (.ok noise, s')) :
    maxJump noise = .ok 1 := by
  have hv := (RngTotal.onGens (plainRng_total b)).valid
  obtain ⟨hl, -, -, -, -, -, -, hp⟩ := C33_jumps _ hv size scale lam (by linarith) s s' noise h
  refine maxJump_one ?_ ?_
  · intro x hx
    obtain ⟨p, hp', rfl⟩ := List.getElem_of_mem hx
    rcases hp p hp' with h0 | ⟨a, t1, t2, ha, h1⟩
    · omega
    · have : a = 1 := by
        have : (Except.ok a, t2) = ((Except.ok 1, t1) : Py ℕ × NoiseState Unit) := ha.symm
        simp only [Prod.mk.injEq, Except.ok.injEq] at this
        exact this.1
      omega
  · have hp0 : 0 < 1 / scale := by positivity
    have hp1 : 1 / scale ≤ 1 := by
      rw [div_le_one (by linarith)]
      exact hsc
    unfold generateJumps at h
    rw [if_neg (by linarith)] at h
    obtain ⟨w, t, hw, h⟩ := M.bind_ok.mp h
    obtain ⟨o, t', ho, h⟩ := M.bind_ok.mp h
    cases h
    have hw1 : w = fun _ => 1 := by
      change onGens (plainRng.geometric (1 / scale) size) s = _ at hw
      unfold onGens plainRng at hw
      simp only [if_pos (And.intro hp0 hp1)] at hw
      cases hw
      rfl
    subst hw1
    obtain ⟨k, rfl⟩ := Nat.exists_eq_add_of_le hsz
    rw [show 2 + k = k + 1 + 1 by ring] at ho ⊢
    unfold burstLoop at ho
    rw [if_pos one_pos] at ho
    obtain ⟨a, t1, ha, ho⟩ := M.bind_ok.mp ho
    cases ha
    simp only [List.nil_append, List.replicate_one, List.length_singleton, Nat.cast_id, zero_mul, if_true] at ho
    rw [if_neg (by omega)] at ho
    unfold burstLoop at ho
    rw [if_pos one_pos] at ho
    obtain ⟨a, t1, ha, ho⟩ := M.bind_ok.mp ho
    cases ha
    simp only [List.replicate_one, Nat.cast_id, mul_one, List.cons_append, List.nil_append] at ho
    have hpre : [0, 1] <+: o := by
      by_cases h2 : k + 1 + 1 ≤ [0, 1].length
      · rw [if_pos h2] at ho
        cases ho
        exact List.prefix_rfl
      · rw [if_neg h2] at ho
        exact burst_prefix _ _ _ _ _ _ _ _ _ _ ho
    obtain ⟨tl, rfl⟩ := hpre
    simp


end SimCATS
