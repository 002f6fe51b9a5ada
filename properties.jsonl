{"id": "C01", "title": "measure enforces the configured voltage limits", "statement": "If Simulation.measure gets past its validation, both ends (hence every pixel voltage) of both plunger sweeps lie in the configured plunger limits and the sensor gate voltages lie in the configured sensor limits; if any of them lies outside, measure raises ValueError before anything is generated.", "quantifier": "all limit settings (None or pair), all sweep ranges in either direction, all sensor voltages, all resolutions", "why_tests_cant": "ranges over a continuum of limits, ranges and directions and over the combination of optional limits", "anchors": ["simcats/_simulation.py: Simulation.measure"]}
{"id": "C02", "title": "measure accepts exactly the well-formed requests", "statement": "Simulation.measure passes validation exactly when a CSD configuration exists, both sweep ranges have two entries, limits are respected, the two sensor voltages are both given or both omitted, the resolution has at most two entries, and a two-dimensional request sweeps both gates with more than one pixel per axis; every other request with comparable values is rejected with ValueError.", "quantifier": "all request argument combinations (resolution as int or array of any length, any ranges, any limits)", "why_tests_cant": "the decision table has unboundedly many rows and the outcome depends on the order of ten checks", "anchors": ["simcats/_simulation.py: Simulation.measure"]}
{"id": "C03", "title": "sensor voltages can be omitted", "statement": "Omitting both sensor gate voltages, as the signature of Simulation.measure allows, never makes a request fail validation.", "quantifier": "all requests with both sensor voltages omitted, all limit configurations", "why_tests_cant": "needs every combination of configured limits with the omitted arguments", "anchors": ["simcats/_simulation.py: Simulation.measure"]}
{"id": "C04", "title": "the occupations of a pixel add up to its total charge number", "statement": "In every pixel of the ideal CSD lying in charge region n, the electron numbers of the two dots are each between 0 and n and their sum is exactly n, for both CDF types.", "quantifier": "all TCT parameter sets, regions n, pixel voltages, gamma factors and both CDF types", "why_tests_cant": "continuum of voltages and parameters, any number of TCTs", "anchors": ["simcats/ideal_csd/geometric/_get_electron_occupation.py: get_electron_occupation, _occupation_func", "simcats/ideal_csd/geometric/_calculate_all_bezier_anchors.py", "simcats/support_functions/_cumulative_distribution_functions.py"]}
{"id": "C05", "title": "the charge region is fixed by the first transition above the point", "statement": "A pixel that lies below some total charge transition is assigned the number of leading transitions that lie at or below it; the one-dimensional and the two-dimensional evaluation assign the same region to the same voltage point.", "quantifier": "all families of transition functions (ordered or not), any number of transitions, all points", "why_tests_cant": "quantifies over arbitrary function families of unbounded size", "anchors": ["simcats/ideal_csd/geometric/_get_electron_occupation.py: get_electron_occupation"]}
{"id": "C06", "title": "a point beyond the last known transition is never reported as empty", "statement": "When a requested pixel lies on or above every configured transition, the simulation signals the missing transitions with IndexError (config samplers rely on this) instead of returning occupations.", "quantifier": "all transition families and all points above all of them, 1D and 2D scans", "why_tests_cant": "needs points outside any sampled test image, for every number of transitions", "anchors": ["simcats/ideal_csd/geometric/_get_electron_occupation.py: get_electron_occupation", "simcats/config_samplers/_GaAs_v1_random_variations_v3_config_sampler.py: sample_IdealCSDGeometric"]}
{"id": "C07", "title": "total charge transitions are continuous", "statement": "For transitions whose arcs are maxima (left slope above right slope), tct_bezier with explicit evaluation describes a continuous curve: the linear parts, Bezier parts, inverted Bezier parts, consecutive periods and the two outer straight parts meet with equal values.", "quantifier": "all TCT parameter sets passing the function's own assertions, every joint of every period, every max_peaks", "why_tests_cant": "infinitely many joints and a continuum of parameters; a jump at one joint is a measure-zero event for sampling", "anchors": ["simcats/ideal_csd/geometric/_tct_bezier.py: tct_bezier"]}
{"id": "C08", "title": "total charge transitions are periodic up to a constant offset and end in straight lines", "statement": "Advancing the evaluation point by one period (sum of the two lead transition lengths) inside the wave range changes the value by the same constant, namely length1*slope1 + length2*slope2; left and right of the wave range the curve is a straight line with the configured left/right slope.", "quantifier": "all parameter sets, all x, all max_peaks", "why_tests_cant": "continuum of x and unboundedly many periods", "anchors": ["simcats/ideal_csd/geometric/_tct_bezier.py: tct_bezier"]}
{"id": "C09", "title": "explicit Bezier evaluation returns the point of the curve", "statement": "Where the explicit (root-based) evaluation is used, choosing the larger root of the implicit Bezier equation returns the y-value of the quadratic Bezier curve over that x whenever the left slope exceeds the right slope.", "quantifier": "all quadratic Bezier segments with the anchors used by tct_bezier and all x in the segment", "why_tests_cant": "root selection must be right for every parameter set and every x", "anchors": ["simcats/ideal_csd/geometric/_tct_bezier.py: tct_bezier"]}
{"id": "C10", "title": "lookup-table evaluation has a bounded error", "statement": "With a lookup table of N entries the returned value differs from the exact curve by at most max(|slope1|,|slope2|) times the larger anchor distance divided by N-1, and is exact at both ends of the Bezier segment.", "quantifier": "all segments, all N >= 2, all x in the segment", "why_tests_cant": "error bound over a continuum of x and all table sizes", "anchors": ["simcats/ideal_csd/geometric/_tct_bezier.py: tct_bezier"]}
{"id": "C11", "title": "Bezier anchors belong to their transition", "statement": "For the k-th transition calculate_all_bezier_anchors returns 2k-1 anchor triples; the left and right anchors of every even (peak) triple and of every odd (valley) triple lie on the curve returned by tct_bezier for the same parameters, and the centre anchor is the intersection of the two adjacent straight lead transitions (left slope above right slope).", "quantifier": "all parameter sets passing tct_bezier's assertions, all transition numbers, all triples", "why_tests_cant": "unbounded number of triples; two independent computations must agree", "anchors": ["simcats/ideal_csd/geometric/_calculate_all_bezier_anchors.py: calculate_all_bezier_anchors", "simcats/ideal_csd/geometric/_tct_bezier.py: tct_bezier"]}
{"id": "C12", "title": "rotation is an isometry with an inverse", "statement": "rotate_points preserves all pairwise distances and signed areas, and rotating by an angle and back by its negative gives the original points; rotating by a sum of angles equals rotating successively.", "quantifier": "all point lists and angles", "why_tests_cant": "continuum of angles and points", "anchors": ["simcats/support_functions/_rotate_points.py: rotate_points"]}
{"id": "C13", "title": "2D transition labels are placed inside the image and near the transition", "statement": "Every write of the 2D lead transition mask is inside the image, a pixel gets label k>0 only if a sampled point of transition k lies within half a pixel of it, and of several such transitions the last one wins; all other pixels keep 0.", "quantifier": "all limits, resolutions >= 2, transition families and sampling points", "why_tests_cant": "index arithmetic at the image border over a continuum of points and all resolutions", "anchors": ["simcats/ideal_csd/geometric/_generate_lead_transition_mask.py: generate_lead_transition_mask_2d"]}
{"id": "C14", "title": "1D transition labels mark the side with more electrons", "statement": "In a 1D scan a pixel is labelled exactly if a neighbouring pixel has fewer electrons in total, the label is its own total electron number, and all other pixels are 0.", "quantifier": "all occupation sequences of any length", "why_tests_cant": "sequences of unbounded length", "anchors": ["simcats/ideal_csd/geometric/_generate_lead_transition_mask.py: generate_lead_transition_mask_1d"]}
{"id": "C15", "title": "reversing a sweep mirrors the ideal data", "statement": "Reversing the direction of one or both sweep axes of a 2D scan returns exactly the mirrored occupations and transition mask; reversing a 1D scan mirrors occupations and mask as well.", "quantifier": "all sweep ranges, resolutions, 1D and 2D", "why_tests_cant": "all ranges and resolutions; equality of whole arrays", "anchors": ["simcats/ideal_csd/geometric/_ideal_csd_geometric.py: ideal_csd_geometric", "simcats/ideal_csd/geometric/_generate_lead_transition_mask.py"]}
{"id": "C16", "title": "the occupation CDFs are CDFs", "statement": "For positive width, sigmoid_cdf and cauchy_cdf take values strictly between 0 and 1, increase strictly, equal 1/2 at the centre and are point symmetric about it; for (numerically) zero width they are a 0/1 step.", "quantifier": "all x, centres and widths", "why_tests_cant": "continuum", "anchors": ["simcats/support_functions/_cumulative_distribution_functions.py"]}
{"id": "C17", "title": "inverse_glf inverts glf", "statement": "On the open interval between the asymptotes, glf(inverse_glf(v)) = v, and inverse_glf(glf(t)) = t for every t; glf is strictly monotone between its asymptotes.", "quantifier": "all GLF parameters with positive growth rate, nu and Q and C=1, both orders of the asymptotes, all t and v", "why_tests_cant": "continuum of seven parameters", "anchors": ["simcats/support_functions/_generalized_logistic_function.py: glf, inverse_glf"]}
{"id": "C18", "title": "pinch-off and fully-conductive points of a GLF barrier are attained", "statement": "BarrierFunctionGLF returns at its pinch_off point the value that lies the pinch-off percentage of the asymptote distance above the lower asymptote, and likewise for the fully conductive point; for a rising barrier pinch-off is below fully conductive exactly if the percentages are ordered so; its value always lies strictly between the asymptotes.", "quantifier": "all barrier parameters and potentials", "why_tests_cant": "continuum of parameters", "anchors": ["simcats/sensor/barrier_function/_barrier_function_glf.py: BarrierFunctionGLF"]}
{"id": "C19", "title": "the final rise becomes fully conductive at the requested offset", "statement": "SensorRiseGLF.sensor_function evaluated at potential `offset` returns its fully conductive value.", "quantifier": "all rise parameters and offsets", "why_tests_cant": "continuum of parameters; tests use mu0 = 0 only", "anchors": ["simcats/sensor/_sensor_rise_glf.py: SensorRiseGLF.sensor_function, fully_conductive"]}
{"id": "C20", "title": "sensor peaks are peaks", "statement": "A Gaussian or Lorentzian sensor peak with positive height lies strictly above its offset, has its unique maximum offset+height at mu0, is symmetric around mu0 and strictly decreases with the distance from it; non-positive widths are rejected.", "quantifier": "all peak parameters and potentials", "why_tests_cant": "continuum", "anchors": ["simcats/sensor/_sensor_peak_gaussian.py", "simcats/sensor/_sensor_peak_lorentzian.py"]}
{"id": "C21", "title": "the sensor potential is affine in voltages and occupations", "statement": "SensorGeneric.sensor_potential assigns every pixel offset + alpha_dot . occupation + alpha_gate . (v1,v2), where (v1,v2) is the voltage of exactly that pixel in the sweep; it is additive in the occupations, and reversing the sweep together with the occupations mirrors it.", "quantifier": "all 1D and 2D occupation arrays, sweep ranges and lever arms", "why_tests_cant": "all array sizes and a continuum of values", "anchors": ["simcats/sensor/_sensor_generic.py: SensorGeneric.sensor_potential"]}
{"id": "C22", "title": "reset_offset_mu_sens puts the sensor on the requested potential", "statement": "After reset_offset_mu_sens the potential of the first pixel of a measurement starting at the given voltages is the requested one, and a second reset with the same arguments changes nothing.", "quantifier": "all sensors of type SensorGeneric (scan sensors: C112), offsets, starting points and targets", "why_tests_cant": "continuum; depends on a state update", "anchors": ["simcats/support_functions/_reset_offset_mu_sens.py: reset_offset_mu_sens"]}
{"id": "C23", "title": "the series sensor response is bounded by its parts", "statement": "The scan sensor combines dot and barrier conductances like resistors in series: for non-negative conductances the response is non-negative, at most the smallest of the three, zero if at least two of them are zero or any is zero, symmetric in all three, and monotone in each.", "quantifier": "all non-negative triples", "why_tests_cant": "continuum, including the degenerate denominators", "anchors": ["simcats/sensor/_sensor_scan_sensor_generic.py: SensorScanSensorGeneric.sensor_response"]}
{"id": "C24", "title": "sensor voltages computed for target barrier potentials realise them", "statement": "The sensor gate voltages the scan sensor computes for given barrier potentials yield exactly these barrier potentials when inserted in its own potential formula.", "quantifier": "all sensors with invertible barrier lever arms, occupations and plunger voltages", "why_tests_cant": "continuum of lever arms and occupations", "anchors": ["simcats/sensor/_sensor_scan_sensor_generic.py: _calc_point_from_barrier_potentials, sensor_potential"]}
{"id": "C25", "title": "the scan sensor response is a function of the potential", "statement": "Calling sensor_response repeatedly with the same potential gives the same result; it does not depend on the history of other calls.", "quantifier": "all call histories", "why_tests_cant": "quantifies over histories of calls on a mutable object", "anchors": ["simcats/sensor/_sensor_scan_sensor_generic.py: sensor_response, sensor_potential, get_sensor_scan_labels"]}
{"id": "C26", "title": "sensor scans evaluate deformed peaks at the swept voltages", "statement": "In Simulation.measure_sensor_scan the voltages used to bend the Coulomb peaks in the response are those of the requested sensor sweep.", "quantifier": "all sensor scans with peak deformations", "why_tests_cant": "depends on hidden object state across three calls", "anchors": ["simcats/_simulation.py: Simulation.measure_sensor_scan", "simcats/sensor/_sensor_scan_sensor_generic.py"]}
{"id": "C27", "title": "sensor scans accept every documented form of resolution", "statement": "Simulation.measure_sensor_scan accepts a 1D resolution given as an int or as a one-element array, with and without a CSD configuration; a 2D resolution gives an image with one column per pixel of sensor gate 1 and one row per pixel of sensor gate 2.", "quantifier": "all valid 1D requests, with and without CSD configuration", "why_tests_cant": "combination of input form and configuration", "anchors": ["simcats/_simulation.py: Simulation.measure_sensor_scan"]}
{"id": "C28", "title": "sensor scan distortions receive the sweep ranges of their own axes", "statement": "The response distortions of a sensor scan receive the range of sensor gate 1 as range of the first gate and the range of sensor gate 2 as range of the second gate.", "quantifier": "all sensor scans and distortion lists", "why_tests_cant": "any list of distortions and any ranges", "anchors": ["simcats/_simulation.py: Simulation.measure_sensor_scan"]}
{"id": "C29", "title": "sensor scan labels are consistent", "statement": "The conductive-area mask of a sensor scan contains only 0, 1 and 2 and equals 1 exactly where both barriers are between pinch-off and fully conductive in the documented sense; Coulomb-peak labels occur only where the mask is 1 and are ids of configured peaks, with at most one pixel per row and peak: the pixel nearest to the peak, at the border of the scan only if it is closer to it than the mean spacing of the potentials.", "quantifier": "all barrier potentials, thresholds, peak lists and image sizes", "why_tests_cant": "images and peak lists of any size", "anchors": ["simcats/sensor/_sensor_scan_sensor_generic.py: get_sensor_scan_labels"]}
{"id": "C30", "title": "dot jumps shift each pixel by its own jump", "statement": "dot_jumps_blockwise returns an image in which each pixel along the jump axis holds the original value `noise` pixels earlier (clamped at the border), pixels whose source is undefined keep their value, and nothing else changes.", "quantifier": "all images, jump sequences and both axes", "why_tests_cant": "nested loops with overwriting over arrays of any size", "anchors": ["simcats/distortions/_dot_jumps.py: dot_jumps_blockwise"]}
{"id": "C31", "title": "dot jumps act from low to high voltage for every sweep direction", "statement": "Occupation dot jumps of a 2D scan commute with mirroring the image: a descending sweep axis receives the mirrored jumps of the ascending sweep, for each of the four direction combinations.", "quantifier": "all images, jumps and sweep directions", "why_tests_cant": "all images and four direction combinations", "anchors": ["simcats/distortions/_dot_jumps.py: OccupationDotJumps.noise_function"]}
{"id": "C32", "title": "pixels shifted in at the border come from the pixel grid", "statement": "The extra CSD data that dot jumps shift into the image is taken at voltages that continue the pixel grid of the image.", "quantifier": "all sweep ranges, resolutions and jump sizes", "why_tests_cant": "continuum of ranges and all resolutions", "anchors": ["simcats/distortions/_dot_jumps.py: OccupationDotJumps._noise_function_2d"]}
{"id": "C33", "title": "telegraph noise is a two-state signal of the right length", "statement": "Telegraph noise consists of alternating blocks, the first block zero and every second block zero; its length equals the number of pixels for every outcome of the random generator, so the noise can always be applied.", "quantifier": "all random outcomes (block widths >= 1, any amplitudes) and all image sizes", "why_tests_cant": "all outcomes of the random generator", "anchors": ["simcats/distortions/_random_telegraph_noise.py: random_telegraph_noise", "simcats/distortions/_dot_jumps.py: generate_dot_jumps_blockwise"]}
{"id": "C34", "title": "an inactive distortion changes nothing and a frozen one reuses its decision", "statement": "A distortion that was not activated returns its input unchanged; with freeze=True a distortion repeats the activation and the sampled parameters of its last unfrozen call and leaves them unchanged for any number of frozen calls.", "quantifier": "all call sequences of frozen and unfrozen calls and all random outcomes", "why_tests_cant": "quantifies over call histories", "anchors": ["simcats/distortions/_random_telegraph_noise.py", "simcats/distortions/_dot_jumps.py", "simcats/distortions/_transition_blurring.py", "simcats/distortions/_white_noise.py", "simcats/distortions/_pink_noise.py"]}
{"id": "C35", "title": "telegraph noise can be applied at every resolution", "statement": "The random telegraph noise distortions work for every resolution and sweep range with a positive scale given in volts.", "quantifier": "all resolutions, ranges and positive scales", "why_tests_cant": "continuum of ranges; failure needs a coarse grid", "anchors": ["simcats/distortions/_random_telegraph_noise.py: RandomTelegraphNoise.noise_function"]}
{"id": "C36", "title": "scales in volts are converted with the resolution of their own axis", "statement": "A distortion scale or blurring width given in volts along gate 1 is converted to pixels with the number of pixels along gate 1, for square and non-square images.", "quantifier": "all image shapes and ranges", "why_tests_cant": "all shapes; tests use square images", "anchors": ["simcats/distortions/_random_telegraph_noise.py", "simcats/distortions/_dot_jumps.py", "simcats/distortions/_transition_blurring.py"]}
{"id": "C37", "title": "blurring is an average", "statement": "Transition blurring replaces each occupation by a weighted average of occupations along its row: constant data stays constant, values stay within the range of the data, the sum of both dots is blurred like the total, and the lead transition mask is not changed.", "quantifier": "all images, all widths", "why_tests_cant": "all sizes and a continuum of widths", "anchors": ["simcats/support_functions/_fermi_filter1d.py", "simcats/distortions/_transition_blurring.py: OccupationTransitionBlurringFermiDirac"]}
{"id": "C38", "title": "samplers return values from their range", "statement": "Every value returned by a parameter sampler lies in its (possibly narrowed) range, which is contained in the total range and has the requested width; the last returned value is reported as last sample. The values are drawn from the documented distribution.", "quantifier": "all parameters, all random outcomes and all call histories", "why_tests_cant": "all outcomes of the random generator", "anchors": ["simcats/support_functions/_parameter_sampling.py"]}
{"id": "C39", "title": "occupation distortions are applied in order on the distorted CSD", "statement": "measure applies the occupation distortions in list order to the ideal data, and the CSD generator handed to the i-th distortion yields ideal data already distorted by exactly the distortions before it, in frozen mode.", "quantifier": "all distortion lists", "why_tests_cant": "lists of any length with effects", "anchors": ["simcats/_simulation.py: Simulation.measure"]}
{"id": "C40", "title": "line and circle intersections are sound and complete", "statement": "line_line_intersection returns the unique common point of two non-parallel lines and raises ValueError for parallel ones; line_circle_intersection returns exactly the common points of line and circle; non-positive radii are rejected.", "quantifier": "all lines (also vertical ones), circles", "why_tests_cant": "continuum with degenerate cases", "anchors": ["simcats/support_functions/_linear_algebra.py: line_line_intersection, line_circle_intersection"]}
{"id": "C41", "title": "is_point_below_line accepts every documented line", "statement": "is_point_below_line decides for every point and every documented line (slope/intercept tuple or horizontal line given by a number) whether the point lies below it.", "quantifier": "all points and lines", "why_tests_cant": "continuum and input types", "anchors": ["simcats/support_functions/_linear_algebra.py: is_point_below_line"]}
{"id": "C42", "title": "signed distances measure distances", "statement": "The absolute value of signed_dist_points_line is the smallest distance between the point and the line; the sign is constant on each side, negative to the left of the line direction; it is invariant under moving the support points along the line without reversing it.", "quantifier": "all points and lines", "why_tests_cant": "minimum over infinitely many line points", "anchors": ["simcats/support_functions/_signed_dist_points_line.py"]}
{"id": "C43", "title": "deformed peaks follow the documented circle", "statement": "The circular peak deformation leaves the peak at mu0 on the middle line, is even and continuous in the distance, moves the peak by at most the radius and keeps the outermost value beyond the radius, for positive and negative radii.", "quantifier": "all radii of both signs and all distances", "why_tests_cant": "continuum and a one-point discontinuity", "anchors": ["simcats/sensor/deformation/_sensor_peak_deformation_circle.py: SensorPeakDeformationCircle.calc_mu"]}
{"id": "C44", "title": "distances above the middle line are positive", "statement": "The distances handed to peak deformations are positive for points above the middle line and negative below, as documented.", "quantifier": "all middle lines and points", "why_tests_cant": "continuum", "anchors": ["simcats/sensor/_sensor_scan_sensor_generic.py: _peak_func", "simcats/sensor/deformation/_sensor_peak_deformation_interface.py"]}
{"id": "C45", "title": "pixel and voltage coordinates agree", "statement": "Converting pixel indices with pixel_to_volt_1d as the sensor does yields the voltages of the swept linspace grid, from the first to the last pixel, for ascending and descending sweeps.", "quantifier": "all ranges, resolutions >= 2 and pixels", "why_tests_cant": "continuum and all resolutions", "anchors": ["simcats/support_functions/_pixel_volt_transformation.py", "simcats/sensor/_sensor_scan_sensor_generic.py"]}
{"id": "C46", "title": "sampled configurations are valid", "statement": "Configurations sampled with a quality multiplier in (0,1] use non-empty sampling intervals, satisfy the physical ordering constraints of the lever arms, and have transitions that pass the assertions of tct_bezier, also after transitions have been added.", "quantifier": "all random outcomes and all quality multipliers in (0,1]", "why_tests_cant": "all outcomes of the random generator", "anchors": ["simcats/config_samplers/_GaAs_v1_random_variations_v3_config_sampler.py"]}
{"id": "C47", "title": "the quality multiplier restricts the distortions", "statement": "The distortions of a configuration sampled with quality multiplier q use strength ranges scaled with q.", "quantifier": "all q in (0,1]", "why_tests_cant": "every sampled value is also possible for q=1, so no single test can reveal it", "anchors": ["simcats/config_samplers/_GaAs_v1_random_variations_v3_config_sampler.py: sample_random_variations_v3_config"]}
{"id": "C48", "title": "sampled barriers pinch off at the sampled offset", "statement": "The barrier functions of sampled configurations have their pinch-off point exactly at the requested offset, and their shape is a shifted copy of the unshifted one.", "quantifier": "all barrier parameters and offsets", "why_tests_cant": "continuum", "anchors": ["simcats/config_samplers/_GaAs_v1_random_variations_v3_config_sampler.py: _sample_simple_barrier_function"]}
{"id": "C49", "title": "measured arrays have the requested shape", "statement": "For every accepted request measure returns occupations of shape (r2, r1, 2) and csd and lead transitions of shape (r2, r1) for resolution [r1, r2] (and (r,2), (r,) in 1D), whatever distortions are configured that preserve shapes.", "quantifier": "all accepted requests", "why_tests_cant": "all resolutions and configurations", "anchors": ["simcats/_simulation.py: Simulation.measure", "simcats/ideal_csd/geometric/_ideal_csd_geometric.py"]}
{"id": "C50", "title": "voltage limit setters accept what they document", "statement": "The voltage limit properties of Simulation accept None and two-element lists or arrays and reject everything else with ValueError.", "quantifier": "all values assigned", "why_tests_cant": "all lists and arrays of any length", "anchors": ["simcats/_simulation.py: Simulation.volt_limits_g1, volt_limits_g2, volt_limits_sensor_g1, volt_limits_sensor_g2"]}
{"id": "C51", "title": "sensor scan validation is a complete decision", "statement": "measure_sensor_scan accepts exactly the documented requests: a sensor that supports sensor scans, two-element sensor ranges within the limits, plunger voltages within their limits and both or neither given, no fixed gate in 2D and at least two pixels per axis. Everything else raises ValueError before any component is called, and an accepted scan only uses sensor voltages within the limits.", "quantifier": "all requests and limit configurations", "why_tests_cant": "the combinations of checks and values are unbounded", "anchors": ["simcats/_simulation.py: Simulation.measure_sensor_scan"]}
{"id": "C52", "title": "integer plunger voltages work in sensor scans", "statement": "A sensor scan with plunger voltages given as Python int (accepted by the validation) succeeds like the same scan with float voltages.", "quantifier": "all sensor scans with int plunger voltages", "why_tests_cant": "all sensors and voltages", "anchors": ["simcats/_simulation.py: Simulation.measure_sensor_scan", "simcats/sensor/_sensor_scan_sensor_generic.py: get_sensor_scan_labels"]}
{"id": "C53", "title": "labels use the deformation of their own peak", "statement": "In the labels of a sensor scan the line of each Coulomb peak is drawn where the deformation configured for this very peak bends it, whatever the order in which the peaks are configured.", "quantifier": "all peak lists, deformations and scans", "why_tests_cant": "all orders of peaks and all deformations", "anchors": ["simcats/sensor/_sensor_scan_sensor_generic.py: get_sensor_scan_labels"]}
{"id": "C54", "title": "peak labels ascend with the potential", "statement": "The labels of Coulomb peaks in the peak mask ascend with the sensor potential, as documented.", "quantifier": "all peak lists and scans", "why_tests_cant": "all orders of peaks", "anchors": ["simcats/sensor/_sensor_scan_sensor_generic.py: get_sensor_scan_labels"]}
{"id": "C55", "title": "dot jumps work in every 1D scan", "statement": "In a 1D scan, dot jumps along a gate make each pixel show the charge stability diagram at a voltage of this gate lowered by its jump times the pixel step of this gate, whichever gate is swept or fixed and for all sweep directions.", "quantifier": "all 1D scans, both jump axes, all jumps", "why_tests_cant": "all ranges, directions and jump sequences", "anchors": ["simcats/distortions/_dot_jumps.py: OccupationDotJumps.noise_function, _noise_function_1d"]}
{"id": "C56", "title": "dot jumps work for 1D scans of any length", "statement": "Dot jumps can be applied to 1D scans with any number of pixels without exceptions and without undefined pixels, for every supported numpy version.", "quantifier": "all numbers of pixels and jumps", "why_tests_cant": "index arithmetic in small integer types fails only for some lengths", "anchors": ["simcats/distortions/_dot_jumps.py: OccupationDotJumps._noise_function_1d, generate_dot_jumps_blockwise"]}
{"id": "C57", "title": "dot jumps have the height that was drawn", "statement": "Every dot jump has the height drawn from the Poisson distribution.", "quantifier": "all random outcomes", "why_tests_cant": "heights are unbounded", "anchors": ["simcats/distortions/_dot_jumps.py: generate_dot_jumps_blockwise"]}
{"id": "C58", "title": "white and pink noise are added pixel by pixel", "statement": "White noise and pink noise add one drawn value to each pixel, draw their strength anew in each call and report it as latest sigma.", "quantifier": "all signals, all random outcomes", "why_tests_cant": "all shapes and values", "anchors": ["simcats/distortions/_white_noise.py: SensorResponseWhiteNoise.noise_function", "simcats/distortions/_pink_noise.py: SensorPotentialPinkNoise.noise_function"]}
{"id": "C59", "title": "the default mean of a normal sampler is the centre of the total range", "statement": "A normal sampler created without a mean draws around the centre of the total range, as documented, whether or not its range is narrowed.", "quantifier": "all ranges, widths and random outcomes", "why_tests_cant": "the narrowed range is random", "anchors": ["simcats/support_functions/_parameter_sampling.py: NormalSamplingRange"]}
{"id": "C60", "title": "the transitions of a sampled configuration never cross", "statement": "In a sampled configuration each transition lies strictly above the previous one everywhere, with slopes between those of the two lead transitions, so that the number of electrons at a point is the number of transitions at or below it.", "quantifier": "all random outcomes, all voltages", "why_tests_cant": "all outcomes of the random generator and the continuum of voltages", "anchors": ["simcats/config_samplers/_GaAs_v1_random_variations_v3_config_sampler.py: sample_IdealCSDGeometric", "simcats/ideal_csd/geometric/_tct_bezier.py: tct_bezier"]}
{"id": "C61", "title": "sampling a configuration ends", "statement": "Apart from redrawing values outside of the documented ranges, sampling an ideal charge stability diagram always ends, never raises, and yields at least one and less than 256 transitions (labels are stored with 8 bits).", "quantifier": "all random outcomes", "why_tests_cant": "non-termination cannot be tested", "anchors": ["simcats/config_samplers/_GaAs_v1_random_variations_v3_config_sampler.py: sample_IdealCSDGeometric, _add_one_tct"]}
{"id": "C62", "title": "sampled configurations can be measured in their whole voltage range", "statement": "Every request inside of the voltage limits of a sampled configuration succeeds, in 1D and 2D and at every resolution that measure accepts.", "quantifier": "all random outcomes, all requests inside of the limits", "why_tests_cant": "all resolutions and ranges; the sampler itself tests one image only", "anchors": ["simcats/config_samplers/_GaAs_v1_random_variations_v3_config_sampler.py: sample_IdealCSDGeometric", "simcats/_simulation.py: Simulation.measure"]}
{"id": "C63", "title": "electrons pass to the first dot from left to right", "statement": "Within a charge region with n electrons the occupation of the first dot is a sum of n CDFs, one per interdot transition, each centred at its interdot transition and as wide as the transition is rounded by the tunnel coupling. It increases across the interdot transitions from the left to the right, from 0 to n, for every tunnel coupling including none; in sampled configurations, raising gate 1 or lowering gate 2 within a region never decreases the occupation of the first dot.", "quantifier": "all configurations, regions, points, both CDF types, all tunnel couplings", "why_tests_cant": "continuum of voltages and configurations; the case without tunnel coupling is a separate branch", "anchors": ["simcats/ideal_csd/geometric/_get_electron_occupation.py: get_electron_occupation, _occupation_func", "simcats/support_functions/_cumulative_distribution_functions.py: multi_sigmoid_cdf, multi_cauchy_cdf"]}
{"id": "C64", "title": "sampled sensor peaks are separated and placing them ends", "statement": "Any two Coulomb peaks of a sampled sensor lie further apart than half of an equal share of the potential range; however the first peaks have been placed, the positions left for the next one make up at least an equal share of the range, so that the search for a position cannot get stuck, and sampling a sensor ends with every generator that reaches every interval.", "quantifier": "all random outcomes, all placements of previous peaks", "why_tests_cant": "non-termination and bad placements cannot be ruled out by sampling", "anchors": ["simcats/config_samplers/_GaAs_v1_random_variations_v3_config_sampler.py: sample_SensorGeneric, _sensor_peak_list_add_peak, _sample_sensor_peak_list"]}
{"id": "C65", "title": "the steepest point is on the steepest rising flank", "statement": "With the option to use the steepest point, the potential offset of a sampled sensor is a place at which the sensor response rises, and no place between the peaks of the potential grid has a larger rise.", "quantifier": "all random outcomes, all grid points", "why_tests_cant": "all sampled peak lists and 1000000 grid points each", "anchors": ["simcats/config_samplers/_GaAs_v1_random_variations_v3_config_sampler.py: sample_SensorGeneric"]}
{"id": "C66", "title": "the configuration sampler accepts exactly the valid arguments", "statement": "Sampling a configuration raises ValueError for quality multipliers outside of (0,1] (before anything is drawn) and for unknown sensor types; with valid arguments it never raises, ends with every generator that reaches every interval, and returns a valid ideal charge stability diagram together with a valid sensor of the requested type and the voltage limits it was sampled for.", "quantifier": "all multipliers, sensor types, options and random outcomes", "why_tests_cant": "all outcomes of the random generator; non-termination cannot be tested", "anchors": ["simcats/config_samplers/_GaAs_v1_random_variations_v3_config_sampler.py: sample_random_variations_v3_config"]}
{"id": "C67", "title": "every pixel of an image has the electrons of its own voltages", "statement": "In a 2D image the occupations of a pixel without transition label are a distribution of the electrons of the charge region in which the voltages of this pixel lie, although only one pixel per connected region is evaluated; the occupations of a labelled pixel are a distribution of the electrons of the region above the transition.", "quantifier": "all configurations, voltage ranges, sweep directions, resolutions and pixels", "why_tests_cant": "whether a connected region reaches across a transition depends on the configuration, range and resolution together", "anchors": ["simcats/ideal_csd/geometric/_get_electron_occupation.py: get_electron_occupation", "simcats/ideal_csd/geometric/_generate_lead_transition_mask.py: generate_lead_transition_mask_2d", "simcats/ideal_csd/geometric/_ideal_csd_geometric.py: ideal_csd_geometric"]}
{"id": "C68", "title": "the default configuration can be measured everywhere in its voltage limits", "statement": "A Simulation built from the shipped default configuration GaAs_v1 returns every 1D scan and every image whose voltages lie inside of the limits of the configuration, for all resolutions and sweep directions that pass the checks of measure.", "quantifier": "all voltages in the limits, sweep directions and resolutions", "why_tests_cant": "a continuum of scan ranges and all resolutions; whether the last modelled transition is reached depends on both", "anchors": ["simcats/_default_configs.py: default_configs", "simcats/_simulation.py: Simulation.measure", "simcats/ideal_csd/geometric/_ideal_csd_geometric.py: ideal_csd_geometric"]}
{"id": "C69", "title": "every distortion acts on its own stage and in the order of its list", "statement": "The signal of a measurement is made stage by stage: ideal data, occupation distortions, sensor potential of the distorted occupations, potential distortions, sensor response to the distorted potential, response distortions. The distortions of a list are applied in the order of the list, each to the result of the one before; no result is dropped or used twice, and the first exception of a distortion is passed on without running later ones.", "quantifier": "all simulations, distortion lists of any length, sensors, requests and random outcomes", "why_tests_cant": "all lists of distortions and all random outcomes; an order or stage error only shows for distortions that do not commute", "anchors": ["simcats/_simulation.py: Simulation.measure"]}
{"id": "C70", "title": "a measurement without distortions is the sensor signal of the ideal data", "statement": "Without distortions, measure returns the occupations and lead transitions of the ideal CSD for the requested ranges and resolution, and the signal of every pixel is the sum of the sensor peaks at the potential of the sensor dot for the occupation and the gate voltages of that pixel (or that potential itself for a sensor without peak functions). The state of the random generator is not changed.", "quantifier": "all configurations, sensors, ranges, sweep directions, resolutions and pixels", "why_tests_cant": "a continuum of configurations, voltages and sensor parameters", "anchors": ["simcats/_simulation.py: Simulation.measure", "simcats/sensor/_sensor_generic.py: SensorGeneric.sensor_potential, SensorGeneric.sensor_response", "simcats/sensor/_sensor_peak_lorentzian.py", "simcats/sensor/_sensor_peak_gaussian.py"]}
{"id": "C71", "title": "a sensor with barriers reports the series signal at the potentials of the pixel", "statement": "The potentials of sensor dot and barriers at every pixel are the lever arm sums of the occupation, the plunger voltages and the sensor gate voltages of that pixel, and the signal of a CSD or sensor scan (without deformations, final rise and distortions of potential and response) is that of dot and barriers in series; a sensor scan uses the occupation at the fixed plunger voltages. Sweeping plunger and sensor gates together is rejected with ValueError and leaves the sensor unchanged.", "quantifier": "all sensors with barriers, configurations, ranges, fixed voltages, resolutions and pixels", "why_tests_cant": "a continuum of sensor parameters and voltages; mixing up axes or gates only shows for asymmetric lever arms", "anchors": ["simcats/sensor/_sensor_scan_sensor_generic.py: SensorScanSensorGeneric.sensor_potential, SensorScanSensorGeneric.sensor_response", "simcats/_simulation.py: Simulation.measure, Simulation.measure_sensor_scan"]}
{"id": "C72", "title": "setters and constructors of sensors store the documented configuration or change nothing", "statement": "Setting or constructing with lever arms and offsets stores the documented configuration (an array of size 2; one pair for all potentials; one pair per potential; None for no influence; one offset for all or one per potential) or raises ValueError and leaves all sensors and arrays unchanged. Whatever a program does, the attributes always keep a shape that was documented.", "quantifier": "all programs that create arrays and sensors, set attributes and write into arrays, all arguments", "why_tests_cant": "unbounded histories of object updates with shared arrays", "anchors": ["simcats/sensor/_sensor_generic.py: SensorGeneric", "simcats/sensor/_sensor_scan_sensor_generic.py: SensorScanSensorGeneric"]}
{"id": "C73", "title": "accepted lever arms can be used for every scan", "statement": "Lever arms that SensorGeneric accepts (numpy arrays of size 2) give potentials with the shape of the scan.", "quantifier": "all accepted lever arms, all scans", "why_tests_cant": "the shapes of size 2 are infinitely many, as are the scan shapes", "anchors": ["simcats/sensor/_sensor_generic.py: SensorGeneric.alpha_dot, SensorGeneric.alpha_gate, SensorGeneric.sensor_potential"]}
{"id": "C74", "title": "sensors are independent of each other and of the arrays passed to them", "statement": "The lever arms and offsets of a sensor change only if they are set or if the returned array is changed: changing an array that was passed as argument, or another sensor, has no influence, and omitted parameters always have their documented defaults.", "quantifier": "all programs that create arrays and sensors, set attributes and write into arrays", "why_tests_cant": "aliasing through shared arrays only shows in particular histories", "anchors": ["simcats/sensor/_sensor_generic.py: SensorGeneric", "simcats/sensor/_sensor_scan_sensor_generic.py: SensorScanSensorGeneric"]}
{"id": "C75", "title": "adjustments of a returned configuration are used as given", "statement": "Lever arms and offsets are returned by reference, so that writing a value into the returned array sets that entry of the configuration to the value and changes no other entry.", "quantifier": "all programs, entries and values", "why_tests_cant": "a continuum of values after arbitrary histories", "anchors": ["simcats/sensor/_sensor_generic.py: SensorGeneric.alpha_dot, SensorGeneric.alpha_gate", "simcats/sensor/_sensor_scan_sensor_generic.py: SensorScanSensorGeneric"]}
{"id": "C76", "title": "deformations use the lever arms of the sensor whose peaks they deform", "statement": "In every program with several sensors, the peaks of a sensor are deformed with the lever arms of that sensor, independently of which other sensors exist, of failed constructor calls and of when the deformations were assigned.", "quantifier": "all programs that create deformations, dictionaries and sensors and set their attributes; all distances", "why_tests_cant": "the result depends on references between objects and on the order of constructor calls", "anchors": ["simcats/sensor/_sensor_scan_sensor_generic.py: SensorScanSensorGeneric.__init__, SensorScanSensorGeneric._peak_func", "simcats/sensor/deformation/_sensor_peak_deformation_interface.py: SensorPeakDeformationInterface.sensor"]}
{"id": "C77", "title": "a simulation is changed only through its own interface", "statement": "Constructor and setters accept exactly the documented values, store the content their argument has at that moment, and change nothing if they reject it. Afterwards nothing a program does to the objects it passed, to other simulations, to metadata or to the default values of the constructor changes the configuration of a simulation; measurements never change the voltage limits or the ideal CSD configuration. Objects returned by a getter are the configuration itself and can be adjusted in place.", "quantifier": "all programs that create, share and change objects, create and configure simulations and measure with them; all behaviour of the components", "why_tests_cant": "aliasing between objects depends on arbitrary histories of a program", "anchors": ["simcats/_simulation.py: Simulation.__init__ and all property setters and getters", "simcats/_simulation.py: Simulation.measure, Simulation.measure_sensor_scan", "simcats/sensor/_sensor_generic.py: SensorGeneric.__init__"]}
{"id": "C78", "title": "the metadata of a measurement are an independent record", "statement": "The metadata returned by a measurement contain the arguments and all configuration objects with the content they have at the end of the measurement, and keep this content whatever happens afterwards to the simulation, to its configuration objects and to the objects passed to it.", "quantifier": "all programs before and after the measurement, all behaviour of the components", "why_tests_cant": "a shared object would show only after particular later changes", "anchors": ["simcats/_simulation.py: Simulation.measure, Simulation.measure_sensor_scan"]}
{"id": "C79", "title": "no random number is used twice", "statement": "If all random number generators of a program have different seeds, the noise of different distortions, of different measurements and of different simulations uses different random numbers.", "quantifier": "all programs that create generators, distortions and simulations and measure with them; all components", "why_tests_cant": "which generators are copies of each other depends on the history of all objects", "anchors": ["simcats/_simulation.py: Simulation.__init__, Simulation.occupation_distortions, Simulation.sensor_potential_distortions, Simulation.sensor_response_distortions", "simcats/distortions/_random_telegraph_noise.py: rng=np.random.default_rng()", "simcats/distortions/_pink_noise.py: rng"]}
{"id": "C80", "title": "a measurement can be repeated from its metadata", "statement": "A simulation created from the configuration in the metadata of a measurement repeats the measurement, with the same random numbers.", "quantifier": "all programs, simulations and components", "why_tests_cant": "depends on the state of all components at the time of the copy", "anchors": ["simcats/_simulation.py: Simulation.measure, Simulation.measure_sensor_scan (metadata)"]}
{"id": "C81", "title": "the parameters of barrier and rise functions act as documented", "statement": "The generalized logistic functions of barriers and of the final rise tend to asymptote_left and to asymptote_left + (asymptote_right - asymptote_left) / denominator_offset^(1/asymmetry) (asymptote_right if the denominator offset is 1); a negative growth rate mirrors them at the line through the offset; the offset shifts them; the shape factor changes the value at the offset but not the asymptotes; the asymmetry decides near which asymptote the growth is largest (above 1 near the right, below 1 near the left one); asymmetries that are not positive are rejected. A barrier made of several functions needs seven parameters each and is their sum.", "quantifier": "all potentials and all parameters with positive shape factor and denominator offset", "why_tests_cant": "limits at infinity and maxima over a continuum of potentials", "anchors": ["simcats/support_functions/_generalized_logistic_function.py: glf, multi_glf", "simcats/sensor/barrier_function/_barrier_function_glf.py: BarrierFunctionGLF", "simcats/sensor/barrier_function/_barrier_function_multi_glf.py: BarrierFunctionMultiGLF", "simcats/sensor/_sensor_rise_glf.py: SensorRiseGLF"]}
{"id": "C82", "title": "plots show the measured values at the voltages at which they were measured", "statement": "plot_csd draws every value of a 1D or 2D measurement exactly once, at a place whose axis voltages are those at which the value was measured. The ticks lie on the axis, ascend, start at the first and end at the last pixel, and name the voltages of their places. With sort_volts the axes of images (gate 1 of lines) ascend, and the figure does not depend on the direction of the measurement; without it the data is shown as measured. Images have the proportions of the voltage ranges, the ticks of the signal of a line go from its minimum to its maximum. A line at a fixed voltage of gate 1 is not sorted. Negative numbers of ticks, missing gate labels and empty lines are rejected.", "quantifier": "all measurements with at least two pixels per axis, all ranges and directions, all numbers of ticks", "why_tests_cant": "figures cannot be compared by tests for every size, direction and tick number", "anchors": ["simcats/support_functions/_plotting.py: plot_csd, _plot_csd_1d, _plot_csd_2d"]}
{"id": "C83", "title": "the default configuration can be measured with all of its distortions", "statement": "A simulation built from the default configuration GaAs_v1, including its blurring, dot jumps, pink, telegraph and white noise, returns a result of the requested shape for every scan inside its voltage limits, whatever the random numbers are and whatever was measured before.", "quantifier": "all scans inside the limits, all resolutions, all random numbers, all earlier measurements, both numpy generations", "why_tests_cant": "the failures need rare random events (1% activation of dot jumps), long scans or unusual directions; a test sees only the random numbers of its seeds", "anchors": ["simcats/_default_configs.py: default_configs", "simcats/_simulation.py: Simulation.measure", "simcats/distortions/_dot_jumps.py: OccupationDotJumps.noise_function", "simcats/distortions/_random_telegraph_noise.py: RandomTelegraphNoise.noise_function"]}
{"id": "C84", "title": "data shifted into a scan by dot jumps is blurred like the scan", "statement": "When dot jumps displace a part of a scan, the data that moves in from outside the scanned range has the transition blurring that was already applied to the scan: every pixel shows the occupations at its displaced voltages with the same blurring width and along the same direction as the pixels inside the scan.", "quantifier": "all blurrings (any kernel), all occupation functions, scans, resolutions and jumps", "why_tests_cant": "the wrong width only shows in the few pixels next to the edge of scans with a jump at the edge, and depends on the largest jump and on the resolution", "anchors": ["simcats/distortions/_dot_jumps.py: OccupationDotJumps.noise_function", "simcats/distortions/_transition_blurring.py: OccupationTransitionBlurringFermiDirac.noise_function", "simcats/distortions/_transition_blurring.py: OccupationTransitionBlurringGaussian.noise_function", "simcats/distortions/_distortion_interfaces.py: OccupationDistortionInterface.noise_function"]}
{"id": "C85", "title": "each sensor has its own peak, barrier and rise functions", "statement": "A sensor accepts exactly the documented peak functions, barrier functions and rise functions, and raises a ValueError without any effect for everything else. What it holds afterwards is its own: one peak becomes a list of one peak, one barrier function becomes two independent ones, and no change of the objects that were passed, and no other sensor, changes the functions of the sensor, unless they are obtained from its getters.", "quantifier": "all programs: any sequence of creating and changing objects, constructing sensors of both classes, setting and getting their functions", "why_tests_cant": "aliasing only shows when two sensors are built from the same objects or an object is changed after it was passed, in histories that tests do not enumerate", "anchors": ["simcats/sensor/_sensor_generic.py: SensorGeneric.__init__, SensorGeneric.sensor_peak_function", "simcats/sensor/_sensor_scan_sensor_generic.py: SensorScanSensorGeneric.__init__, SensorScanSensorGeneric.sensor_peak_function, SensorScanSensorGeneric.final_rise, SensorScanSensorGeneric.barrier_functions"]}
{"id": "C86", "title": "the signal at a point does not depend on the scan it is part of", "statement": "All measurements without distortions of potential and response, CSDs and sensor scans of any range, direction, resolution and dimension, that contain a point (plunger voltages, sensor gate voltages and occupation) show the same signal there.", "quantifier": "all sensors with barriers, all pairs of measurements of any simulation with the sensor, all points", "why_tests_cant": "compares all pairs of measurements of different kinds; a dependence on the start of the sweep is invisible in a single scan", "anchors": ["simcats/_simulation.py: Simulation.measure, Simulation.measure_sensor_scan", "simcats/sensor/_sensor_scan_sensor_generic.py: SensorScanSensorGeneric.sensor_response, SensorScanSensorGeneric.sensor_potential"]}
{"id": "C87", "title": "the final rise begins where both barriers are fully conductive", "statement": "The final rise of a sensor with barriers begins at the potential that the sensor dot has at those sensor gate voltages that make both barriers fully conductive, for the plunger voltages and the occupation of the pixel.", "quantifier": "all sensors with barriers and a final rise, CSDs and sensor scans, pixels", "why_tests_cant": "the offset is computed once per scan from its first pixel; a wrong offset shifts the rise by an amount that depends on ranges, lever arms and occupations", "anchors": ["simcats/sensor/_sensor_scan_sensor_generic.py: SensorScanSensorGeneric.sensor_response, SensorScanSensorGeneric._calc_point_from_barrier_potentials, SensorScanSensorGeneric.get_sensor_scan_labels"]}
{"id": "C88", "title": "measurements with the extended default configuration succeed", "statement": "A simulation with the configuration GaAs_v2_extended_sensor, with all its distortions, returns an image or line of the requested size for every CSD and every sensor scan whose voltages are within the limits of the configuration, whatever random numbers are drawn and whatever was measured before.", "quantifier": "all voltage ranges in the limits, resolutions, ways to give the arguments, random numbers and previous measurements, CSDs and sensor scans", "why_tests_cant": "failures depend on the activation of rare distortions and on combinations of argument forms, sweeps and resolutions", "anchors": ["simcats/_default_configs.py: default_configs", "simcats/_simulation.py: Simulation.measure, Simulation.measure_sensor_scan"]}
{"id": "C89", "title": "the limits of the extended default configuration contain the closed and the open sensor", "statement": "With the configuration GaAs_v2_extended_sensor the sensor is closed in every measurement in which both sensor gates are at -0.7 V or below (label 0, no peak labels, signal close to 0), and open in every measurement in which both are at -0.3 V or above (label 2, no peak labels, signal close to that of the final rise), for all plunger voltages in the limits.", "quantifier": "all CSDs and sensor scans with voltages in the limits, all pixels, occupations and previous measurements", "why_tests_cant": "the boundaries depend on the whole configuration (logarithms of the barrier parameters, lever arms, occupations); a test samples a few scans", "anchors": ["simcats/_default_configs.py: default_configs", "simcats/sensor/_sensor_scan_sensor_generic.py: SensorScanSensorGeneric.get_sensor_scan_labels, SensorScanSensorGeneric.sensor_response", "simcats/sensor/barrier_function/_barrier_function_glf.py: BarrierFunctionGLF", "simcats/sensor/_sensor_rise_glf.py: SensorRiseGLF"]}
{"id": "C90", "title": "raising a plunger voltage never removes electrons", "statement": "If both plunger voltages of one pixel are at least as high as those of another pixel, of the same or of another scan, then the total number of electrons in the two dots is at least as high.", "quantifier": "all configurations with transition slopes between -1 and 1 in the rotated coordinates, in particular the default configuration and all sampled configurations; all lines and images, pairs of unlabelled pixels", "why_tests_cant": "the electron number of a pixel results from the comparison with up to 14 piecewise curves; a test compares finitely many pixels of finitely many configurations, and violations occur only within nanovolts of a transition", "anchors": ["simcats/ideal_csd/geometric/_ideal_csd_geometric.py: ideal_csd_geometric", "simcats/ideal_csd/geometric/_get_electron_occupation.py: get_electron_occupation", "simcats/ideal_csd/geometric/_tct_bezier.py: tct_bezier", "simcats/_default_configs.py: default_configs"]}
{"id": "C91", "title": "simulations from sampled configurations can be measured", "statement": "A simulation created from any configuration that the sampler returns, with all of its sampled distortions, returns data of the requested shape for every measurement and sensor scan inside of its voltage limits, whatever the random numbers and the earlier measurements are.", "quantifier": "all configurations returned by the sampler, for both kinds of sensors and all qualities and random numbers; all requests in the limits; all random numbers and activations of the distortions; all histories", "why_tests_cant": "the configurations are random, and errors occur only for combinations of resolution, swept gates and rare activations of distortions (1 in 100)", "anchors": ["simcats/config_samplers/_GaAs_v1_random_variations_v3_config_sampler.py: sample_random_variations_v3_config", "simcats/_simulation.py: Simulation", "simcats/distortions"]}
{"id": "C92", "title": "sampled sensors can be closed and opened within their limits", "statement": "For every configuration with a sensor scan sensor that the sampler returns, the sensor gate limits of the configuration contain voltages at which the sensor is closed (conductive mask 0, no peak labels, almost no signal) and voltages at which it is fully conductive (conductive mask 2), in every sensor scan within the limits, with all distortions and whatever the plunger voltages and electrons are.", "quantifier": "all configurations returned by the sampler, for all qualities, lever arm options and random numbers; all sensor scans in the limits, with and without plunger voltages; all distortions and histories", "why_tests_cant": "the parameters of the sensors are random, and rare combinations of lever arms, barriers and plunger voltages decide whether the limits suffice", "anchors": ["simcats/config_samplers/_GaAs_v1_random_variations_v3_config_sampler.py: sample_random_variations_v3_config", "simcats/sensor/_sensor_scan_sensor_generic.py: SensorScanSensorGeneric", "simcats/_simulation.py: Simulation.measure_sensor_scan"]}
{"id": "C93", "title": "scans of one configuration agree at the same voltages", "statement": "The electrons and, without distortions, the sensor signal that a measurement returns for a pair of gate voltages do not depend on the scan in which these voltages are visited: two line scans, a line scan and an image, and two images return the same occupations and signals at the same voltages, whatever their limits, sweep directions and resolutions are.", "quantifier": "all valid configurations, all pairs of scans and all pixels at common voltages", "why_tests_cant": "images and lines are evaluated by different code (connected regions of a label image and a loop over all transitions), and the resolution decides which pixels share an evaluation", "anchors": ["simcats/ideal_csd/geometric/_get_electron_occupation.py: get_electron_occupation", "simcats/ideal_csd/geometric/_ideal_csd_geometric.py: ideal_csd_geometric", "simcats/_simulation.py: Simulation.measure"]}
{"id": "C94", "title": "the Fermi filter is the documented average in every mode", "statement": "`fermi_filter1d` returns, for every array, axis, mode, constant, width and radius, the average of the line with the normalised weights of the derivative of the Fermi-Dirac distribution, where the line is extended beyond its boundaries as documented for the mode. The result stays within the range of the values, keeps constants, order and linear combinations, commutes with reversing the line, keeps the sum in the reflecting and wrapping modes, and turns steps into symmetric monotone steps. Invalid arguments raise errors.", "quantifier": "all lines and images, axes, modes, constants, widths and radii", "why_tests_cant": "the boundary cases depend on the length of the line, the radius and the mode together", "anchors": ["simcats/support_functions/_fermi_filter1d.py: fermi_filter1d, fermi_dirac_derivative", "simcats/distortions/_transition_blurring.py: OccupationTransitionBlurringFermiDirac"]}
{"id": "C95", "title": "measurements do not depend on earlier measurements", "statement": "The outcome of `measure` and `measure_sensor_scan` (result or exception) is determined by the configuration, the request and the states of the random number generators. Earlier calls, successful or failing, with this or another configuration, have no influence through the values that distortions and sensors keep (`latest_sigma`, `activated`, previous noise, potentials of the sensor). Simulations without distortions give the same result for the same call at any time. After a successful call the values that the distortions report do not depend on earlier calls either.", "quantifier": "all simulations made of the shipped components (objects may be used several times), all requests, all histories of calls and changes of configuration", "why_tests_cant": "the kept values are read again in frozen calls and by the scan sensor, so a stale value only shows after particular histories", "anchors": ["simcats/_simulation.py: Simulation.measure, Simulation.measure_sensor_scan", "simcats/distortions/_transition_blurring.py: noise_function", "simcats/distortions/_dot_jumps.py: noise_function", "simcats/distortions/_pink_noise.py: noise_function", "simcats/distortions/_white_noise.py: noise_function", "simcats/distortions/_random_telegraph_noise.py: noise_function", "simcats/sensor/_sensor_scan_sensor_generic.py: sensor_potential, sensor_response"]}
{"id": "C96", "title": "reported distortion values describe the latest measurement", "statement": "After a successful measurement, what the distortions report (`latest_sigma`, `activated`) is what happened in that measurement: blurring and noise had the reported strength, which was drawn during the measurement; dot jumps and telegraph noise were on or off as reported, and changed nothing if off. Distortions that are not used keep their reported values.", "quantifier": "all simulations made of the shipped components in which no distortion object is used twice, all requests and states", "why_tests_cant": "the reported values are written at different places than where they are used, are also written or read in frozen calls of later distortions, and the potentials of a scan sensor are distorted one after the other", "anchors": ["simcats/_simulation.py: Simulation.measure, Simulation.measure_sensor_scan", "simcats/distortions/_transition_blurring.py: latest_sigma, noise_function", "simcats/distortions/_dot_jumps.py: activated, noise_function", "simcats/distortions/_pink_noise.py: latest_sigma, noise_function", "simcats/distortions/_white_noise.py: latest_sigma, noise_function", "simcats/distortions/_random_telegraph_noise.py: activated, noise_function"]}
{"id": "C97", "title": "parameters of components can be changed at any time", "statement": "Peaks, barrier and rise functions, deformations, distortions and ideal data can be created exactly with the documented parameter values. After any sequence of assignments to their attributes, accepted or rejected, every parameter has the last allowed value assigned to it, and the component behaves like one newly created with these values. A rejected assignment raises and changes nothing; values that a component reports or computes cannot be assigned.", "quantifier": "all component classes, all constructor arguments, all sequences of assignments of any values to any names", "why_tests_cant": "tests set one parameter once; here every interleaving of valid, invalid and unknown assignments has to leave a consistent object", "anchors": ["simcats/sensor/_sensor_peak_gaussian.py: SensorPeakGaussian", "simcats/sensor/_sensor_peak_lorentzian.py: SensorPeakLorentzian", "simcats/sensor/_sensor_rise_glf.py: SensorRiseGLF", "simcats/sensor/barrier_function/_barrier_function_glf.py: BarrierFunctionGLF", "simcats/sensor/barrier_function/_barrier_function_multi_glf.py: BarrierFunctionMultiGLF", "simcats/distortions/_dot_jumps.py: OccupationDotJumps", "simcats/ideal_csd/geometric/_ideal_csd_geometric_class.py: IdealCSDGeometric"]}
{"id": "C98", "title": "dot jumps can be applied with the exported functions", "statement": "Called directly without given jumps, `dot_jumps_blockwise` returns an image in which every pixel shows the pixel as many pixels earlier along the axis as the jump at its position says (clamped at the border), together with these jumps, which switch between 0 and drawn heights. Given these jumps again, it shifts the image of the second dot by the same jumps without drawing. `dot_jumps_pixelwise` does the same with one jump for each pixel. Both succeed for every image and every scale of at least one pixel.", "quantifier": "all images, sizes, axes, scales, rates, given jumps and random number generators, numpy before and from version 2", "why_tests_cant": "whether index arithmetic wraps depends on the image size, the drawn heights and the version of numpy; tests use small jumps on small images", "anchors": ["simcats/distortions/_dot_jumps.py: dot_jumps_blockwise", "simcats/distortions/_dot_jumps.py: dot_jumps_pixelwise", "simcats/distortions/_dot_jumps.py: generate_dot_jumps_blockwise"]}
{"id": "C99", "title": "printed forms identify objects", "statement": "The printed form of a peak, barrier or rise function, deformation, sampler, distortion, sensor, ideal data or simulation is well-formed: the class name, and in balanced brackets the parameters. Objects that print the same are of the same class and have the same parameters, also in the objects they contain, and distortions report the same activation and latest value.", "quantifier": "all objects of the package with any nesting of lists, tuples, dictionaries and objects, all parameter values, all ways to print floats that distinguish them", "why_tests_cant": "a printed form is ambiguous only for particular pairs of objects; tests print single objects", "anchors": ["simcats/sensor/_sensor_peak_gaussian.py: SensorPeakGaussian.__repr__", "simcats/sensor/_sensor_scan_sensor_generic.py: SensorScanSensorGeneric.__repr__", "simcats/sensor/barrier_function/_barrier_function_multi_glf.py: BarrierFunctionMultiGLF.__repr__", "simcats/distortions/_pink_noise.py: SensorPotentialPinkNoise.__repr__", "simcats/support_functions/_parameter_sampling.py: NormalSamplingRange.__repr__", "simcats/_simulation.py: Simulation.__repr__"]}
{"id": "C100", "title": "distortions of sensor scans reach the signal and not the labels", "statement": "The signal of a sensor scan is made stage by stage: occupation, sensor potential, potential distortions (in list order, each on the potentials of the sensor dot and both barriers), sensor response to the distorted potential, response distortions (in list order). The labels are those of the undistorted potential: changing the distortions never changes them. Occupation distortions are not applied, and the first exception of a response distortion is passed on without running later ones.", "quantifier": "all simulations with a sensor with barriers, distortion lists of any length, requests and random outcomes", "why_tests_cant": "all lists of distortions and all random outcomes; a signal computed from the wrong stage only shows for particular distortions", "anchors": ["simcats/_simulation.py: Simulation.measure_sensor_scan", "simcats/sensor/_sensor_scan_sensor_generic.py: SensorScanSensorGeneric.sensor_response"]}
{"id": "C101", "title": "telegraph noise with two scales has separate lengths for bursts and pauses", "statement": "Telegraph noise with separate scales adds pauses and bursts in turn, beginning with a pause: pauses change nothing, each burst adds one drawn height, lengths of pauses and bursts are drawn with their own scale, exactly as many regions are drawn as are needed, and with scales of at least one pixel the call succeeds for every image. A burst scale of zero switches the noise off.", "quantifier": "all images, scales, heights and outcomes of the random generator", "why_tests_cant": "all outcomes of the random generator; the number of draws depends on the outcomes of earlier draws", "anchors": ["simcats/distortions/_random_telegraph_noise.py: _random_telegraph_noise_two_scales"]}
{"id": "C102", "title": "deformed peaks have the documented shape in sensor scans", "statement": "In a sensor scan, a peak with a linear deformation is a straight line in the plane of the sensor gate voltages. It goes through the point of the middle line at which the sensor dot has the potential of the peak, and makes the configured angle with the middle line (measured above the line and to the right of the middle line). A peak with a circular deformation is an arc of the circle with the configured radius (converted to volts) through that point, with its centre on the middle line. The top of the peak is seen exactly on the line or arc.", "quantifier": "all sensors with barriers and positive first lever arm, angles, radii, scan ranges, resolutions and pixels with open barriers", "why_tests_cant": "all angles, lever arms and pixel positions; the shape is a statement on all pixels of all scans", "anchors": ["simcats/sensor/deformation/_sensor_peak_deformation_linear.py: SensorPeakDeformationLinear.calc_mu", "simcats/sensor/deformation/_sensor_peak_deformation_circle.py: SensorPeakDeformationCircle.calc_mu", "simcats/sensor/_sensor_scan_sensor_generic.py: SensorScanSensorGeneric.sensor_response"]}
{"id": "C103", "title": "peak labels of sensor scans mark the tops of the deformed peaks", "statement": "In the label image of a sensor scan, a pixel with the label of a peak is the pixel of its line at which this peak, with its deformation, is highest. Conversely, an inner pixel of the region with oscillations at which a peak is strictly higher than at all others of the line has a label. The conductances of the single peaks are those whose sum is the signal of the sensor.", "quantifier": "all sensors with up to 255 peaks of positive width and height, deformations, plunger voltages, scan ranges, resolutions and pixels", "why_tests_cant": "all voltages, lever arms and deformations; the label must agree with the signal at every pixel", "anchors": ["simcats/sensor/_sensor_scan_sensor_generic.py: SensorScanSensorGeneric.get_sensor_scan_labels", "simcats/sensor/_sensor_scan_sensor_generic.py: SensorScanSensorGeneric.sensor_response", "simcats/_simulation.py: Simulation.measure_sensor_scan"]}
{"id": "C104", "title": "samplers draw independently from the documented truncated distributions", "statement": "The values returned by a sampler are independent and have the documented distribution: normal, log-normal or exponential, restricted to the range of the sampler, or uniform in the range. Sampling ends with probability 1. With the documented scale q / ln(1 / (1 - p)), an exponential sampler puts the proportion p of its values into the fraction q of its range.", "quantifier": "all ranges, widths, parameters, numbers of samples and measurable sets of values; all generators with the distributions documented by numpy", "why_tests_cant": "a statement about probabilities and an unbounded loop; tests see a sample", "anchors": ["simcats/support_functions/_parameter_sampling.py: NormalSamplingRange.sample_parameter", "simcats/support_functions/_parameter_sampling.py: UniformSamplingRange.sample_parameter", "simcats/support_functions/_parameter_sampling.py: LogNormalSamplingRange.sample_parameter", "simcats/support_functions/_parameter_sampling.py: ExponentialSamplingRange"]}
{"id": "C105", "title": "telegraph noise switches with probability 1 / scale after each pixel", "statement": "The pixels changed by telegraph noise follow a two-state process: the first pixel is unchanged, and after each pixel the noise switches between burst and no burst with probability 1 / scale, independently of everything before. So pixel k is changed with probability (1 - (1 - 2 / scale) ^ k) / 2, and a burst has at least m pixels with probability (1 - 1 / scale) ^ (m - 1), which is the documented expected length scale.", "quantifier": "all images, scales of at least one pixel, patterns of changed pixels and positions; all generators whose lengths have the geometric distribution documented by numpy", "why_tests_cant": "a statement about probabilities of patterns; tests see a sample", "anchors": ["simcats/distortions/_random_telegraph_noise.py: random_telegraph_noise"]}
{"id": "C106", "title": "distortions are active with the configured ratio", "statement": "In every measurement dot jumps and telegraph noise are active with probability `ratio`: a random number decides once per simulation and distortion. Distortions that are applied before do not change this, as long as they have other generators.", "quantifier": "all configurations of both sensors, lists of distortions, requests and histories; all generators whose binomial draws have the documented distribution", "why_tests_cant": "a statement about probabilities under arbitrary preceding distortions; tests see a sample", "anchors": ["simcats/distortions/_dot_jumps.py: OccupationDotJumps.noise_function", "simcats/distortions/_random_telegraph_noise.py: RandomTelegraphNoise.noise_function", "simcats/_simulation.py: Simulation.measure, Simulation.measure_sensor_scan"]}
{"id": "C107", "title": "white noise is independent normal noise on every pixel", "statement": "White noise as last distortion of the response adds to every pixel of the signal an independent normally distributed number with mean 0 and standard deviation `sigma`; compared with the same measurement without it nothing else changes, whatever other distortions are configured. With a sampled strength the reported `latest_sigma` is the factor.", "quantifier": "all configurations of both sensors, lists of other distortions with other generators, requests, histories and strengths; all generators whose normal draws have the documented distribution", "why_tests_cant": "a statement about the joint distribution of all pixels, for every other distortion and history; tests see a sample", "anchors": ["simcats/distortions/_white_noise.py: SensorResponseWhiteNoise.noise_function, white_gaussian_noise", "simcats/_simulation.py: Simulation.measure, Simulation.measure_sensor_scan"]}
{"id": "C108", "title": "telegraph noise in a measurement switches once per scale on average", "statement": "Telegraph noise as last distortion of the response, with a fixed scale in volts: with probability `1 - ratio` the signal is that of the same measurement without it; otherwise the first pixel is not changed, and from pixel to pixel the noise switches on or off with probability 1 / (scale * pixels per volt), independently. So pixel k is changed with probability ratio * (1 - (1 - 2 / (scale * pixels per volt))^k) / 2. This holds for `measure` and `measure_sensor_scan` with all other distortions.", "quantifier": "all configurations of both sensors, lists of other distortions with other generators, requests, histories, scales of at least one pixel and ratios; all generators whose draws have the documented distributions", "why_tests_cant": "the joint distribution of all pixels, which depends on the resolution and on every call of the generator; tests see a sample", "anchors": ["simcats/distortions/_random_telegraph_noise.py: SensorResponseRTN.noise_function, random_telegraph_noise", "simcats/_simulation.py: Simulation.measure, Simulation.measure_sensor_scan"]}
{"id": "C109", "title": "repeated measurements have independent white noise and averaging reduces it", "statement": "In a series of measurements and sensor scans with white noise as last distortion of the response, every result is that of the same call without white noise from the same state plus noise, and no number of the generator is used for two pixels. Without further distortions the noise of all pixels of all repetitions of a measurement is independent and normally distributed with standard deviation sigma, and the pixel-wise mean of N repetitions is normally distributed around the noise-free signal with standard deviation sigma / sqrt(N).", "quantifier": "all configurations of both sensors, series of successful calls of any length, histories, numbers of repetitions, strengths and requests; all generators that deliver one stream of independent standard normal numbers", "why_tests_cant": "a joint distribution over arbitrarily many measurements; tests see a sample, and a generator that is reset or seeded again by a measurement would give the same images one by one", "anchors": ["simcats/distortions/_white_noise.py: SensorResponseWhiteNoise.noise_function", "simcats/_simulation.py: Simulation.measure, Simulation.measure_sensor_scan"]}
{"id": "C110", "title": "the heights of dot jumps and telegraph bursts have the documented distributions", "statement": "A dot jump keeps its height over its whole length, and so does a burst of telegraph noise. The probability that the positions k, ..., k + l lie in one common jump whose height is in a given set is the probability that position k is in a jump, times the probability that the jump lasts long enough, times the probability of the set: under the Poisson distribution with mean lambda for dot jumps (up to the wrap-around of unsigned bytes), under the normal distribution with the given mean and standard deviation for telegraph noise.", "quantifier": "all generators with the documented distributions, sizes, scales of at least one pixel, means, standard deviations, positions, lengths and sets of heights that do not contain 0", "why_tests_cant": "a joint distribution; tests see samples, and a height that is drawn again within a burst, or a burst that takes the height of its neighbour, gives images that look alike", "anchors": ["simcats/distortions/_dot_jumps.py: generate_dot_jumps_blockwise", "simcats/distortions/_random_telegraph_noise.py: random_telegraph_noise"]}
{"id": "C111", "title": "dot jumps shift adjacent lines of an image together, with the documented distribution", "statement": "The probability that the lines k, ..., k + l of an image (columns for jumps along gate 1, rows for jumps along gate 2) show the undistorted CSD shifted along the jump axis, all by the same number of pixels from a given set, is the ratio of the distortion times the probability that one jump covers these lines times the Poisson probability of the set.", "quantifier": "all ratios, scales, means, images with at least two pixels per axis, ascending sweeps, lines, sets of shifts without 0 and generators with the documented distributions; equality for every CSD whose occupations determine the voltage of the jump axis, a lower bound for every CSD", "why_tests_cant": "a distribution over images, which a test can only sample; a jump that shifts only a part of its lines or that is applied to the other axis occurs in few images", "anchors": ["simcats/distortions/_dot_jumps.py: OccupationDotJumps.noise_function"]}
{"id": "C112", "title": "reset_offset_mu_sens puts a scan sensor on the requested potential", "statement": "After reset_offset_mu_sens on a simulation with a SensorScanSensorGeneric, the potential of the sensor dot at the starting voltages is the requested one.", "quantifier": "all scan sensors, CSD configurations, earlier calls, starting points and targets", "why_tests_cant": "all inputs and histories; the function is documented for every simulation, but its arithmetic mixes the array of pixels with the array of potentials", "anchors": ["simcats/support_functions/_reset_offset_mu_sens.py: reset_offset_mu_sens", "simcats/sensor/_sensor_scan_sensor_generic.py: SensorScanSensorGeneric.sensor_potential, offset_mu_sens"]}
{"id": "C113", "title": "resetting a sampled sensor puts the measurement on the steepest flank", "statement": "If a configuration is sampled with set_sensor_potential_offset_to_steepest_point and the offset is reset to the sampled one before a measurement, the first pixel of the measurement shows the sensor at its steepest rising flank, whatever was reset or measured before.", "quantifier": "all generators, sampled configurations, earlier resets, starting voltages and scans", "why_tests_cant": "all random outcomes and histories; combines a search over a million potentials with a state update", "anchors": ["simcats/config_samplers/_GaAs_v1_random_variations_v3_config_sampler.py: sample_random_variations_v3_config", "simcats/support_functions/_reset_offset_mu_sens.py: reset_offset_mu_sens"]}
{"id": "C114", "title": "bursts of telegraph noise in a measurement have normally distributed heights", "statement": "If telegraph noise is the last distortion of the response, the signal of a measurement is raised by one common height in all pixels of a burst. The probability that the pixels m, ..., m + l are raised by a common height in a given set is: the ratio of the noise, times the probability that pixel m is in a burst, times the probability that the burst lasts long enough, times the probability of the set under the normal distribution with the configured height and standard deviation. This holds for measure and measure_sensor_scan, and other distortions do not change it.", "quantifier": "all simulations of both kinds of sensors, histories, other distortions with generators of their own, requests, pixels, lengths and sets of heights that do not contain 0", "why_tests_cant": "a joint distribution of signals of a whole measurement; tests see samples of single functions", "anchors": ["simcats/distortions/_random_telegraph_noise.py: SensorResponseRTN.noise_function, random_telegraph_noise", "simcats/_simulation.py: Simulation.measure, Simulation.measure_sensor_scan"]}
{"id": "C115", "title": "noises with their own generators may be given in any order", "statement": "If the noises in a list of signal distortions do not share random number generators or samplers, their order does not matter: after any history, the same request returns the same signal, occupations and labels and leaves the objects and generators in the same state, for the distortions of the potential and those of the response. So the documented distribution of white and telegraph noise does not depend on the place of the noise in the list. With a shared generator the order does matter.", "quantifier": "all simulations of both kinds of sensors, lists of white, pink and telegraph noises, reorderings, requests, histories and generators that do not interact", "why_tests_cant": "the order of calls of stateful objects; a test compares two orders for one seed", "anchors": ["simcats/_simulation.py: Simulation.measure, Simulation.measure_sensor_scan", "simcats/distortions/_white_noise.py: SensorResponseWhiteNoise.noise_function", "simcats/distortions/_pink_noise.py: SensorPotentialPinkNoise.noise_function", "simcats/distortions/_random_telegraph_noise.py: SensorResponseRTN.noise_function"]}
{"id": "C116", "title": "several white noises act like one", "statement": "Several white noises with independent generators, given as last distortions of the response, act like a single one: after any history, the deviations of the pixels from the signal of the same measurement without these noises are independent and normally distributed with mean 0, and their variance is the sum of the squares of the strengths.", "quantifier": "all simulations of both kinds of sensors, numbers of noises, strengths, requests, histories, places of the noises after other distortions, and generators with independent standard normal numbers", "why_tests_cant": "a statement about probabilities for any number of noises", "anchors": ["simcats/_simulation.py: Simulation.measure, Simulation.measure_sensor_scan", "simcats/distortions/_white_noise.py: SensorResponseWhiteNoise.noise_function"]}
{"id": "C117", "title": "measuring in the opposite direction mirrors the measurement", "statement": "Without distortions, reversing the voltage range of gate 1, of gate 2 or of both in a 2D measurement returns the same signal, occupations and lead transitions with reversed columns, rows or both, and a line measured from its end to its start is the reversed line. If one of the two measurements raises an exception, the other raises the same one.", "quantifier": "all simulations with a SensorGeneric and without distortions, voltage limits, ranges, resolutions (lines with more than one pixel), sensor voltages and states", "why_tests_cant": "a continuum of configurations and ranges; tests compare single pairs", "anchors": ["simcats/_simulation.py: Simulation.measure", "simcats/ideal_csd/geometric/_ideal_csd_geometric.py: ideal_csd_geometric", "simcats/sensor/_sensor_generic.py: SensorGeneric.sensor_potential, SensorGeneric.sensor_response"]}
