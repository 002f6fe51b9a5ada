import Verif.Model.ScanSensor

/-!
Model of `reset_offset_mu_sens` for a simulation whose sensor is a `SensorScanSensorGeneric`.
-/

namespace SimCATS

/-- `reset_offset_mu_sens(sim, target, sweep_range_g1, sweep_range_g2)` for a simulation with a `SensorScanSensorGeneric`;
`csd` is the CSD generator of the simulation at resolution 2.  `potentials[0]` contains the potentials of the sensor dot
at all pixels, and the offset has three entries: numpy subtracts them entry by entry if there are three pixels, repeats a
single pixel three times, and raises `ValueError` for every other number of pixels.  For a 2D generator result the
subtraction or the setter of the offset raises `ValueError`.  The result is the sensor after the assignment.
Models simcats/support_functions/_reset_offset_mu_sens.py:38-43
and the setter simcats/sensor/_sensor_scan_sensor_generic.py:374-381. -/
noncomputable def resetOffsetScan (s : ScanSensor) (csd : ℝ × ℝ → ℝ × ℝ → Py (Scan (ℝ × ℝ))) (target : ℝ)
    (g1 g2 : ℝ × ℝ) : SM ScanSensor := fun st =>
  match csd g1 g2 with
  | .error e => (.error e, st)
  | .ok occ =>
    match s.potential occ (.arr g1) (.arr g2) .none .none st with
    | (.error e, st') => (.error e, st')
    | (.ok (.d1 1 f), st') => (.ok { s with offset := fun k => target - (f 0 0 - s.offset k) }, st')
    | (.ok (.d1 3 f), st') => (.ok { s with offset := fun k => target - (f k 0 - s.offset k) }, st')
    | (.ok _, st') => (.error .valueError, st')

end SimCATS
