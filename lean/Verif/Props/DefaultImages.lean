import Verif.Lemmas.DefaultImages

/-! C68: which images of the whole voltage range the default configuration returns. -/

namespace SimCATS

open Spec

/-- C68, square images of the whole voltage range of the default configuration "GaAs_v1" (without its distortions): those with at least 29 x 29 pixels
are returned, all others raise `IndexError`. -/
theorem C68_whole_actual {σ : Type} (lab : Labelling) (n : ℕ) (hn : 2 ≤ n) (st : σ) :
    (29 ≤ n → ∃ csd occ lead, measure (defaultSim lab) ⟨[-0.2, -0.087], [-0.2, -0.047], none, none, .arr [n, n]⟩ st =
      (.ok (.d2 n n csd, .d2 n n occ, .d2 n n lead), st)) ∧
    (n ≤ 28 → measure (defaultSim lab) ⟨[-0.2, -0.087], [-0.2, -0.047], none, none, .arr [n, n]⟩ st = (.error .indexError, st)) := by
  have hck := default_check (σ := σ) lab (a1 := -0.2) (b1 := -0.087) (a2 := -0.2) (b2 := -0.047) (by unfold Within; norm_num)
    (by unfold Within; norm_num) (s1 := none) (s2 := none) rfl (res := .arr [n, n]) (by
    unfold resCheck
    simp
    norm_num
    omega)
  have key := measure_plain_2d (sim := defaultSim lab) (cfg := defaultIdeal) (s := defaultSensor) rfl rfl rfl rfl rfl
    (by simp [defaultSensor]) hn hn (g1 := (-0.2, -0.087)) (g2 := (-0.2, -0.047)) (by norm_num) (by norm_num) rfl hck st
  constructor
  · intro h
    obtain ⟨o, ho⟩ : ∃ o, ideal2d defaultIdeal lab (-0.2, -0.087) (-0.2, -0.047) n n = .ok o := by
      rcases (by omega : n = 29 ∨ n = 30 ∨ n = 31 ∨ 32 ≤ n) with rfl | rfl | rfl | h'
      · exact default_29 lab
      · exact default_30 lab
      · exact default_31 lab
      · refine default_fine lab (l1 := -0.2) (l2 := -0.2) (by unfold Within; norm_num) (by unfold Within; norm_num) (by norm_num) (by norm_num) hn hn ?_
        have h2 : (31 : ℝ) ≤ (n : ℝ) - 1 := by
          have : (32 : ℝ) ≤ n := by exact_mod_cast h'
          linarith
        rw [← add_div, div_le_iff₀ (by linarith)]
        norm_num [abs_of_pos]
        linarith
    obtain ⟨csd, hm⟩ := key.1 o ho
    exact ⟨csd, o.1, o.2, hm⟩
  · intro h
    refine key.2 _ ?_
    rcases (by omega : n ≤ 26 ∨ n = 27 ∨ n = 28) with h' | rfl | rfl
    · exact default_coarse lab hn h'
    · exact default_27 lab
    · exact default_28 lab

/-- Both cases occur. -/
example (lab : Labelling) : (∃ r, measure (defaultSim lab) ⟨[-0.2, -0.087], [-0.2, -0.047], none, none, .arr [(29 : ℕ), (29 : ℕ)]⟩ () = (.ok r, ())) ∧
    measure (defaultSim lab) ⟨[-0.2, -0.087], [-0.2, -0.047], none, none, .arr [(28 : ℕ), (28 : ℕ)]⟩ () = (.error .indexError, ()) := by
  obtain ⟨csd, occ, lead, h⟩ := (C68_whole_actual lab 29 (by norm_num) ()).1 le_rfl
  exact ⟨⟨_, h⟩, (C68_whole_actual lab 28 (by norm_num) ()).2 le_rfl⟩

end SimCATS
