import Verif.Model.AnySim

/-! What a user sees of the memory of a simulation: the states of the generators, and the values that the distortion objects report. -/

namespace SimCATS.Spec

variable {τ : Type}

/-- The state of all random number generators and samplers. -/
def generators (s : SimState τ) : τ := s.2.gens

/-- What an occupation distortion reports: `latest_sigma` of a transition blurring, `activated` of dot jumps. -/
def occReport (s : SimState τ) : OccObject τ → Option ℝ × Option Bool
  | .fermi i _ => (s.2.sigma i, none)
  | .gauss i _ => (s.2.sigma i, none)
  | .jumps i .. => (none, (s.2.jumps i).activated)

/-- What a distortion of the potential or of the response reports: `latest_sigma` of pink and white noise, `activated` of telegraph noise. -/
def sigReport (s : SimState τ) : SigObject τ → Option ℝ × Option Bool
  | .additive i _ _ => (s.2.sigma i, none)
  | .rtn i .. => (none, s.2.active i)

/-- No distortion is configured. -/
def Undistorted (sim : AnySim τ) : Prop := sim.occ.getD [] = [] ∧ sim.pot.getD [] = [] ∧ sim.resp.getD [] = []

end SimCATS.Spec
