import Verif.Lemmas.ImageDecision
import Verif.Props.DefaultImages
import Verif.Props.GeometrySampler

/-! C06, C62 and C68: exactly which images are returned. -/

namespace SimCATS

open Spec

/-- C06, images of any valid configuration whose voltages are all below its last transition `f`: the image raises `IndexError` if one of the
points at which it samples this transition lies in the image or less than half a pixel outside, and is returned otherwise. -/
theorem C06_image_actual (cfg : IdealCfg) (ok : CfgOk cfg) (pre : List (ℝ → ℝ)) (f : ℝ → ℝ) (hf : IsCurves cfg.lut 1 cfg.params (pre ++ [f]))
    (lab : Labelling) (g1 g2 : ℝ × ℝ) (h1 : g1.1 ≠ g1.2) (h2 : g2.1 ≠ g2.2) (r c : ℕ) (hr : 2 ≤ r) (hc : 2 ≤ c)
    (hb : ∀ v : ℝ × ℝ, v.1 ∈ Set.uIcc g1.1 g1.2 → v.2 ∈ Set.uIcc g2.1 g2.2 → (tctCoord cfg v).2 < f (tctCoord cfg v).1) :
    (SamplesInside cfg.rotation f g1 g2 r c → idealCsd cfg lab [g1.1, g1.2] [g2.1, g2.2] (.arr [c, r]) = .error .indexError) ∧
    (¬ SamplesInside cfg.rotation f g1 g2 r c →
      ∃ occ lead, idealCsd cfg lab [g1.1, g1.2] [g2.1, g2.2] (.arr [c, r]) = .ok (.d2 r c occ lead)) := by
  have key := ideal2d_iff ok rfl hf lab h1 h2 hr hc fun P a b c d => hb P ⟨a, b⟩ ⟨c, d⟩
  rw [idealCsd_2d cfg lab h1 h2 hr hc]
  refine ⟨fun h => by rw [key.1 h], fun h => ?_⟩
  obtain ⟨o, ho⟩ := key.2 h
  rw [ho]
  exact ⟨_, _, rfl⟩

/-- C62, all images of a sampled configuration inside of its voltage range: exactly those that sample a point of the last transition `f` raise an
error. -/
theorem C62_image_actual {τ : Type} (rng : CfgRng τ) (hv : rng.Valid) (lab lab' : Labelling) (s s' : τ) (cfg : IdealCfg)
    (h : sampleIdealCSD rng lab s (.ok cfg, s')) (pre : List (ℝ → ℝ)) (f : ℝ → ℝ) (hf : IsCurves cfg.lut 1 cfg.params (pre ++ [f]))
    (g1 g2 : ℝ × ℝ) (hl : ∀ x ∈ [g1.1, g1.2, g2.1, g2.2], -0.2 ≤ x ∧ x ≤ -0.06) (h1 : g1.1 ≠ g1.2) (h2 : g2.1 ≠ g2.2) (r c : ℕ)
    (hr : 2 ≤ r) (hc : 2 ≤ c) :
    (SamplesInside cfg.rotation f g1 g2 r c → idealCsd cfg lab' [g1.1, g1.2] [g2.1, g2.2] (.arr [c, r]) = .error .indexError) ∧
    (¬ SamplesInside cfg.rotation f g1 g2 r c →
      ∃ occ lead, idealCsd cfg lab' [g1.1, g1.2] [g2.1, g2.2] (.arr [c, r]) = .ok (.d2 r c occ lead)) := by
  obtain ⟨_, _, e, p, v, k, ⟨t1, t2, ⟨o, ho⟩, t4⟩, rfl⟩ := sampleIdealCSD_tested hv lab s _ h
  cases e
  refine C06_image_actual _ (t1.cfgOk (k + 1)) pre f hf lab' g1 g2 h1 h2 r c hr hc fun P hP1 hP2 => ?_
  obtain ⟨pre', f', hcv, hnear⟩ := ladder_last t1 hf
  obtain ⟨-, rfl⟩ := List.append_inj' hcv rfl |>.imp id fun e => (List.cons.inj e).1
  have l1 : InLimits g1 := ⟨hl g1.1 (by simp), hl g1.2 (by simp)⟩
  have l2 : InLimits g2 := ⟨hl g2.1 (by simp), hl g2.2 (by simp)⟩
  rw [tctCoord_sampled]
  obtain ⟨c1, c2⟩ := kap_box (l1.sort.1.trans hP1.1) (hP1.2.trans l1.sort.2) (l2.sort.1.trans hP2.1) (hP2.2.trans l2.sort.2)
  exact test_above t1 lab ho rfl hf hnear _ _ c1 c2

/-- C68, all images of the default configuration "GaAs_v1" (without its distortions) inside of its voltage limits, in all sweep directions: exactly
those that sample a point of the last transition `f` raise an error. -/
theorem C68_image_actual {σ : Type} (lab : Labelling) (pre : List (ℝ → ℝ)) (f : ℝ → ℝ)
    (hf : IsCurves defaultIdeal.lut 1 defaultIdeal.params (pre ++ [f])) (a1 b1 a2 b2 : ℝ) (w1 : Within (-0.2) (-0.087) a1 b1)
    (w2 : Within (-0.2) (-0.047) a2 b2) (n1 : a1 ≠ b1) (n2 : a2 ≠ b2) (r c : ℕ) (hr : 2 ≤ r) (hc : 2 ≤ c) (s1 s2 : Option ℝ)
    (hs : s1.isNone = s2.isNone) (st : σ) :
    (SamplesInside defaultIdeal.rotation f (a1, b1) (a2, b2) r c →
      measure (defaultSim lab) ⟨[a1, b1], [a2, b2], s1, s2, .arr [c, r]⟩ st = (.error .indexError, st)) ∧
    (¬ SamplesInside defaultIdeal.rotation f (a1, b1) (a2, b2) r c → ∃ csd occ lead,
      measure (defaultSim lab) ⟨[a1, b1], [a2, b2], s1, s2, .arr [c, r]⟩ st = (.ok (.d2 r c csd, .d2 r c occ, .d2 r c lead), st)) := by
  obtain ⟨pre', f', hcv, hbound⟩ := default_last hf
  obtain ⟨-, rfl⟩ := List.append_inj' hcv rfl |>.imp id fun e => (List.cons.inj e).1
  have key := ideal2d_iff default_cfgOk rfl hf lab (g1 := (a1, b1)) (g2 := (a2, b2)) n1 n2 hr hc fun P _ h2 _ h4 =>
    default_below (fun x => (hbound x).2) (h2.trans w1.sort.2) (h4.trans w2.sort.2)
  have hck := default_check (σ := σ) lab w1 w2 hs (res := .arr [c, r]) (by
    unfold resCheck
    simp [n1, n2]
    omega)
  have hm := measure_plain_2d (sim := defaultSim lab) (cfg := defaultIdeal) (s := defaultSensor) rfl rfl rfl rfl rfl
    (by simp [defaultSensor]) hr hc (g1 := (a1, b1)) (g2 := (a2, b2)) n1 n2 rfl hck st
  refine ⟨fun h => hm.2 _ (key.1 h), fun h => ?_⟩
  obtain ⟨o, ho⟩ := key.2 h
  obtain ⟨csd, e⟩ := hm.1 o ho
  exact ⟨csd, o.1, o.2, e⟩

/-- Both cases occur for the default configuration: with 28 x 28 pixels a point of the last transition is sampled, with 29 x 29 pixels none. -/
example (pre : List (ℝ → ℝ)) (f : ℝ → ℝ) (hf : IsCurves defaultIdeal.lut 1 defaultIdeal.params (pre ++ [f])) :
    SamplesInside defaultIdeal.rotation f (-0.2, -0.087) (-0.2, -0.047) 28 28 ∧
      ¬ SamplesInside defaultIdeal.rotation f (-0.2, -0.087) (-0.2, -0.047) 29 29 := by
  have key := fun n (hn : 2 ≤ n) => C68_image_actual (σ := Unit) (fun _ _ _ x => x) pre f hf (-0.2) (-0.087) (-0.2) (-0.047)
    (by unfold Within; norm_num) (by unfold Within; norm_num) (by norm_num) (by norm_num) n n hn hn none none rfl ()
  constructor
  · by_contra h
    obtain ⟨csd, occ, lead, e⟩ := (key 28 (by norm_num)).2 h
    rw [(C68_whole_actual (σ := Unit) (fun _ _ _ x => x) 28 (by norm_num) ()).2 (by norm_num)] at e
    exact nomatch e
  · intro h
    have e := (key 29 (by norm_num)).1 h
    obtain ⟨csd, occ, lead, e'⟩ := (C68_whole_actual (σ := Unit) (fun _ _ _ x => x) 29 (by norm_num) ()).1 le_rfl
    rw [e'] at e
    exact nomatch e

/-- The default configuration has a last transition. -/
example : ∃ pre f, IsCurves defaultIdeal.lut 1 defaultIdeal.params (pre ++ [f]) := by
  obtain ⟨curves, hcs⟩ := C05_curves_exist _ default_cfgOk
  obtain ⟨pre, f, rfl, -⟩ := default_last hcs
  exact ⟨pre, f, hcs⟩

/-- A sampled configuration: 2 x 2 pixels over the whole range sample the last transition, 13 x 13 pixels do not. -/
example (lab : Labelling) (cfg : IdealCfg) (h : sampleIdealCSD midRng lab () (.ok cfg, ())) (pre : List (ℝ → ℝ)) (f : ℝ → ℝ)
    (hf : IsCurves cfg.lut 1 cfg.params (pre ++ [f])) : SamplesInside cfg.rotation f (-0.2, -0.06) (-0.2, -0.06) 2 2 ∧
      ¬ SamplesInside cfg.rotation f (-0.2, -0.06) (-0.2, -0.06) 13 13 := by
  have key := fun n (hn : 2 ≤ n) => C62_image_actual midRng midRng_valid lab lab () () cfg h pre f hf (-0.2, -0.06) (-0.2, -0.06)
    (by simp only [List.mem_cons, List.not_mem_nil, or_false]; rintro x (rfl | rfl | rfl | rfl) <;> norm_num) (by norm_num) (by norm_num) n n hn hn
  constructor
  · by_contra hn
    obtain ⟨occ, lead, e⟩ := (key 2 le_rfl).2 hn
    have e' := C62_refuted midRng midRng_valid lab lab () () cfg h
    simp only [Nat.cast_ofNat] at e
    rw [e'] at e
    exact nomatch e
  · intro hn
    have e := (key 13 (by norm_num)).1 hn
    obtain ⟨out, e'⟩ := C62_2d_partial midRng midRng_valid lab lab () () cfg h (-0.2) (-0.06) (-0.2) (-0.06)
      (by simp only [List.mem_cons, List.not_mem_nil, or_false]; rintro x (rfl | rfl | rfl | rfl) <;> norm_num) (by norm_num) (by norm_num) 13 13
      (by norm_num) (by norm_num) (by rw [abs_of_nonneg (by norm_num)]; norm_num) (by rw [abs_of_nonneg (by norm_num)]; norm_num)
    rw [e'] at e
    exact nomatch e

end SimCATS
