import Verif.Props.Pipeline

/-!
C49 and C70 for sensors with an empty list of peak functions: the signal of a whole measurement is the number 0.
-/

namespace SimCATS

open Spec

/-- C70: without peak functions in the list of the sensor (`sensor_peak_function=[]`) and without distortions of potential and
response, a measurement that would succeed with other peak functions returns the same occupations and lead transitions, but
the number 0 instead of an array of signals. -/
theorem C70_empty_actual {σ : Type} (sim : Simulation σ) (sens : SensorGeneric) (hsens : sim.sensor = genericSensor sens)
    (h2 : sim.potD = none) (h3 : sim.respD = none) (rq : Request) (s s' : σ) (csd : Scan ℝ) (occ : Scan (ℝ × ℝ)) (lead : Scan ℕ)
    (h : measure sim rq s = (.ok (csd, occ, lead), s')) :
    measure { sim with sensor := genericSensor { sens with peaks := some [] } } rq s = (.ok (.d0 0, occ, lead), s') := by
  obtain ⟨g1, g2, gen, hm, hg, -⟩ := measure_ok h
  have hck : measureCheck sim.lim true rq = .ok (g1, g2) := by
    rw [hg] at hm
    exact hm
  rw [C69_measure sim _ _ _ _ hg hck] at h
  obtain ⟨ideal, gen', pot, pot', resp, s1, s2, s3, s4, s5, k1, k2, k3, k4, k5, k6⟩ := h
  rw [hsens] at k3 k5
  rw [h3, Option.getD_none, ← applySig_iff] at k6
  simp only [applySig, M.pure_run, Prod.mk.injEq, Except.ok.injEq] at k6
  obtain ⟨rfl, rfl⟩ := k6
  rw [h2, ← distortPotential_iff (ds := none)] at k4
  simp only [distortPotential, M.pure_run, Prod.mk.injEq, Except.ok.injEq] at k4
  obtain ⟨rfl, rfl⟩ := k4
  have hpot : ∃ mu, sens.potential occ g1 g2 = .ok mu ∧ pot = .single mu ∧ s3 = s2 := by
    simp only [genericSensor] at k3
    cases hp : sens.potential occ g1 g2 with
    | error e => simp [hp] at k3
    | ok mu =>
      simp only [hp, M.pure_run, Prod.mk.injEq, Except.ok.injEq] at k3
      exact ⟨mu, rfl, k3.1.symm, k3.2.symm⟩
  obtain ⟨mu, hmu, rfl, rfl⟩ := hpot
  simp only [genericSensor, M.pure_run, Prod.mk.injEq, Except.ok.injEq] at k5
  obtain ⟨-, rfl⟩ := k5
  refine (C69_measure { sim with sensor := genericSensor { sens with peaks := some [] } } gen rq g1 g2 hg hck _ _ _ _ _).2
    ⟨ideal, gen', .single mu, .single mu, .d0 0, s1, s3, s3, s3, s3, k1, k2, ?_, ?_, ?_, ?_⟩
  · have hmu' : ({ sens with peaks := some [] } : SensorGeneric).potential occ g1 g2 = .ok mu := by
      rw [← hmu]
      cases occ <;> rfl
    simp only [genericSensor, hmu']
    rfl
  · simp only [h2]
    rw [← distortPotential_iff (ds := none)]
    rfl
  · rfl
  · simp only [h3]
    rw [Option.getD_none, ← applySig_iff]
    rfl

/-- The simulation of the default configuration with an empty list of peak functions. -/
noncomputable def peaklessSim {σ : Type} (lab : Labelling) : Simulation σ :=
  { defaultSim lab with sensor := genericSensor { defaultSensor with peaks := some [] } }

/-- C70 is violated for an empty list of peak functions: a measured image of 100 x 100 pixels has no signal for its pixels, because
the signal is a single number. -/
theorem C70_refuted (lab : Labelling) : ∃ o l, measure (peaklessSim lab)
    ⟨[-0.087, -0.2], [-0.2, -0.047], none, none, .arr [(100 : ℕ), (100 : ℕ)]⟩ () =
      (.ok (.d0 0, .d2 100 100 o, .d2 100 100 l), ()) := by
  obtain ⟨csd, occ, lead, h⟩ := C68_image_partial (σ := Unit) lab (-0.087) (-0.2) (-0.2) (-0.047) (by unfold Within; norm_num)
    (by unfold Within; norm_num) (by norm_num) (by norm_num) 100 100 (by norm_num)
    (by norm_num) (by rw [abs_of_nonpos (by norm_num), abs_of_nonneg (by norm_num)]; norm_num) none none rfl ()
  obtain ⟨o, l, -, e1, e2, -, -⟩ := C70_image_partial (defaultSim lab) defaultIdeal lab defaultSensor rfl rfl (by simp [defaultSensor]) rfl rfl rfl
    _ _ _ _ _ _ _ _ _ _ _ _ _ h
  have h' := C70_empty_actual (defaultSim lab) defaultSensor rfl rfl rfl _ _ _ _ _ _ h
  rw [e1, e2] at h'
  exact ⟨o, l, h'⟩

/-- C49 is violated for an empty list of peak functions: the returned signal has not the requested shape. -/
theorem C49_refuted (lab : Labelling) : ∃ csd occ lead, measure (peaklessSim lab)
    ⟨[-0.087, -0.2], [-0.2, -0.047], none, none, .arr [(100 : ℕ), (100 : ℕ)]⟩ () = (.ok (csd, occ, lead), ()) ∧
      csd.shape = [] ∧ occ.shape = [100, 100] ∧ lead.shape = [100, 100] := by
  obtain ⟨o, l, h⟩ := C70_refuted lab
  exact ⟨_, _, _, h, rfl, rfl, rfl⟩

end SimCATS
