import Verif.Model.ConfigSampler
import Verif.Spec.SampledSensor

/-! What a sampled configuration is expected to contain. -/

namespace SimCATS.Spec

/-- The `0.99` quantile of the exponential distribution with the given scale is `pos`. -/
def Quantile99 (scale pos : ℝ) : Prop := 0 < scale ∧ 1 - Real.exp (-(pos / scale)) = 0.99

/-- The strength of a noise for the quality multiplier `q`: 99% of the values lie in the fraction `0.6 * q` of the range that belongs to
weak noise. -/
def NoiseStrength (q : ℝ) (sigma : StrengthSampler) : Prop :=
  ∃ scale, sigma = .exponential (1e-10, 0.0005) scale ∧ Quantile99 scale (0.6 * q)

/-- The distortions of the sensor for the quality multiplier `q`: noise strengths and the frequency of telegraph noise scale with `q`. -/
structure ScaledDistortions (q : ℝ) (pot resp : List SigDistortion) : Prop where
  potential : ∃ sigma scale std height, pot = [.pinkNoise sigma, .telegraph scale std height (q / 6)] ∧ NoiseStrength q sigma
  response : ∃ sigma scale std height, resp = [.telegraph scale std height (q / 100), .whiteNoise sigma] ∧ NoiseStrength q sigma

/-- The sensor of a configuration is a valid sensor of the requested type. -/
def SensorOk (sensorType : String) (q : ℝ) (compensated : Bool) : SensorObject → Prop
  | .generic d => sensorType = "SensorGeneric" ∧ LeverArms q compensated d.alphaGate d.alphaDot ∧
      ∃ ps, d.peaks = some ps ∧ GenericPeaks (potLow d.alphaGate d.alphaDot) (potHigh d.alphaGate d.alphaDot) ps
  | .scan d => sensorType = "SensorScanSensorGeneric" ∧ ∃ base, SampledScan q compensated d base ∧
      PinchesAt (0.25 * q) (d.mu 1 (0, 0) (0, 0) base) d.barrier1 ∧ PinchesAt (0.25 * q) (d.mu 2 (0, 0) (0, 0) base) d.barrier2

end SimCATS.Spec
