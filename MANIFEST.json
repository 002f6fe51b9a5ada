{
 "claims": [
  {
   "property": "C01",
   "status": "proved",
   "theorems": [
    "SimCATS.C01_plunger",
    "SimCATS.C01_sensor",
    "SimCATS.C01_within",
    "SimCATS.C01_no_effect"
   ],
   "note": "measure fails before any component is called (state unchanged for arbitrary components); every pixel voltage of a successful measurement respects the limits."
  },
  {
   "property": "C02",
   "status": "proved",
   "theorems": [
    "SimCATS.C02_accepts",
    "SimCATS.C02_rejects",
    "SimCATS.C02_ranges"
   ],
   "note": "Exact decision table of the ten checks; TypeError only for incomparable None (see C03)."
  },
  {
   "property": "C03",
   "status": "partial",
   "theorems": [
    "SimCATS.C03_refuted",
    "SimCATS.C03_partial"
   ],
   "note": "Refuted: TypeError as soon as a sensor limit is configured. C03_partial characterises exactly when omission works."
  },
  {
   "property": "C04",
   "status": "proved",
   "theorems": [
    "SimCATS.C04_1d",
    "SimCATS.C04_2d",
    "SimCATS.C04_ideal"
   ],
   "note": "Each region distributes its total charge over the dots, for 1D and 2D scans and the public function."
  },
  {
   "property": "C05",
   "status": "proved",
   "theorems": [
    "SimCATS.C05_api_1d",
    "SimCATS.C05_curves_exist",
    "SimCATS.C05_region_2d",
    "SimCATS.C05_region_1d",
    "SimCATS.C05_same"
   ],
   "note": "The region of every pixel is the first TCT above it, for 1D and 2D; both dimensions agree below the last TCT."
  },
  {
   "property": "C06",
   "status": "partial",
   "theorems": [
    "SimCATS.C06_image_actual",
    "SimCATS.C06_2d_partial",
    "SimCATS.C06_1d_refuted",
    "SimCATS.C06_1d_witness"
   ],
   "note": "2D proved (IndexError when a pixel is beyond the last TCT). 1D refuted: such pixels silently get the occupation of region 0. For images below the last transition C06_image_actual has the exact condition."
  },
  {
   "property": "C07",
   "status": "proved",
   "theorems": [
    "SimCATS.C07_continuous",
    "SimCATS.C07_minimum_jumps"
   ],
   "note": "Continuity on the whole line, with and without max_peaks; array and scalar interface agree. C07_minimum_jumps shows that the slope condition is needed."
  },
  {
   "property": "C08",
   "status": "proved",
   "theorems": [
    "SimCATS.C08_period",
    "SimCATS.C08_outer_lines",
    "SimCATS.C08_rounded_zigzag"
   ],
   "note": "Period shift, outer lines, and exact description as rounded zigzag."
  },
  {
   "property": "C09",
   "status": "proved",
   "theorems": [
    "SimCATS.C09_explicit_is_bezier",
    "SimCATS.C09_center_is_intersection",
    "SimCATS.C09_discriminant_nonneg",
    "SimCATS.C09_minimum_wrong_root"
   ],
   "note": "Exact characterisation of the returned value as curve point; discriminant never negative; counterexample without the slope condition."
  },
  {
   "property": "C10",
   "status": "proved",
   "theorems": [
    "SimCATS.C10_lut_error",
    "SimCATS.C10_lut_exact_at_ends"
   ],
   "note": "Global error bound and exactness at the arc ends."
  },
  {
   "property": "C11",
   "status": "proved",
   "theorems": [
    "SimCATS.C11_anchors",
    "SimCATS.C11_missing_keys"
   ],
   "note": "Row count, anchors on the curve, centre anchors, missing keys."
  },
  {
   "property": "C12",
   "status": "proved",
   "theorems": [
    "SimCATS.C12_rotate_isometry",
    "SimCATS.C12_rotate_area",
    "SimCATS.C12_rotate_add",
    "SimCATS.C12_rotate_inverse",
    "SimCATS.C12_rotate_quarter"
   ],
   "note": "Isometry, orientation, additivity and inverse of rotate_points over the reals."
  },
  {
   "property": "C13",
   "status": "proved",
   "theorems": [
    "SimCATS.C13_label_is_region",
    "SimCATS.C13_mask_2d",
    "SimCATS.C13_label_near",
    "SimCATS.C13_sampling_covers"
   ],
   "note": "Exact description of the 2D lead mask and of every label, sampling density of the curve. Labels are natural numbers; the code stores them as unsigned 8-bit integers, which is the same for fewer than 256 transitions (sampled configurations: C61_bounded)."
  },
  {
   "property": "C14",
   "status": "partial",
   "theorems": [
    "SimCATS.C14_mask_general",
    "SimCATS.C14_mask_1d_partial",
    "SimCATS.C14_refuted"
   ],
   "note": "Exact description of the 1D lead mask for at most 255 electrons in every pixel (C14_mask_1d_partial). With more electrons it is violated, because the labels are unsigned 8-bit integers: C14_refuted. C14_mask_general is the exact behaviour in all cases."
  },
  {
   "property": "C15",
   "status": "proved",
   "theorems": [
    "SimCATS.C15_2d_gate1",
    "SimCATS.C15_2d_gate2",
    "SimCATS.C15_2d_both",
    "SimCATS.C15_2d_voltages",
    "SimCATS.C15_1d",
    "SimCATS.C15_api_2d",
    "SimCATS.C15_api_1d"
   ],
   "note": "Mirroring for both gates in 2D and the direction of 1D sweeps, through the public function."
  },
  {
   "property": "C16",
   "status": "proved",
   "theorems": [
    "SimCATS.C16_sigmoid_cdf",
    "SimCATS.C16_cauchy_cdf",
    "SimCATS.C16_step"
   ],
   "note": "Both CDF types, including the numerically zero width."
  },
  {
   "property": "C17",
   "status": "proved",
   "theorems": [
    "SimCATS.C17_inverse_glf_glf",
    "SimCATS.C17_glf_inverse_glf",
    "SimCATS.C17_glf_inverse_glf_range",
    "SimCATS.C17_glf_between",
    "SimCATS.C17_glf_monotone",
    "SimCATS.C17_glf_offset"
   ],
   "note": "Round trips, range and monotonicity over the reals."
  },
  {
   "property": "C18",
   "status": "partial",
   "theorems": [
    "SimCATS.C18_barrier_points_partial",
    "SimCATS.C18_barrier_order",
    "SimCATS.C18_barrier_between",
    "SimCATS.C18_pinch_off_separates_partial",
    "SimCATS.C18_asymmetry",
    "SimCATS.C18_multi_single",
    "SimCATS.C18_multi_sum",
    "SimCATS.C18_barrier_points_actual",
    "SimCATS.C18_refuted",
    "SimCATS.C18_points_refuted",
    "SimCATS.C18_between",
    "SimCATS.C18_order"
   ],
   "note": "Holds for denominator_offset = 1 (C18_barrier_points_partial, C18_pinch_off_separates_partial). For other values the documented right asymptote is not asymptote_right, but the points are computed from asymptote_right: the value at the pinch-off point is then not the percentage of the distance of the asymptotes (C18_refuted), and for denominator_offset > 1 there may be no point with the value (C18_points_refuted; the code returns nan). C18_barrier_points_actual says exactly when the points exist, C18_order and C18_between hold for any positive denominator offset."
  },
  {
   "property": "C19",
   "status": "partial",
   "theorems": [
    "SimCATS.C19_rise_partial",
    "SimCATS.C19_rise_position",
    "SimCATS.C19_rise_iff",
    "SimCATS.C19_refuted"
   ],
   "note": "Refuted for mu0 != 0; proved exactly for mu0 = 0 (C19_rise_iff)."
  },
  {
   "property": "C20",
   "status": "proved",
   "theorems": [
    "SimCATS.C20_peak",
    "SimCATS.C20_width_validation",
    "SimCATS.C20_lorentz_half_width"
   ],
   "note": "Gaussian and Lorentzian peaks; validation of the width."
  },
  {
   "property": "C21",
   "status": "proved",
   "theorems": [
    "SimCATS.C21_response",
    "SimCATS.C21_sweep_ends",
    "SimCATS.C21_potential_2d",
    "SimCATS.C21_potential_1d",
    "SimCATS.C21_empty",
    "SimCATS.C21_additive",
    "SimCATS.C21_mirror"
   ],
   "note": "Per-pixel formula, additivity, mirroring."
  },
  {
   "property": "C22",
   "status": "partial",
   "theorems": [
    "SimCATS.C22_refuted",
    "SimCATS.C22_image_partial",
    "SimCATS.C22_image_sampled_partial",
    "SimCATS.C22_succeeds",
    "SimCATS.C22_reset_1d",
    "SimCATS.C22_reset_2d_partial",
    "SimCATS.C22_idempotent",
    "SimCATS.C22_reset_geometric"
   ],
   "note": "SensorGeneric: proved for 1D scans, with the geometric ideal CSD for all of them (C22_reset_geometric); the call always succeeds. For images it needs that the first pixel has the occupation of the first pixel of the line that the reset evaluates (C22_reset_2d_partial); this can fail in images with wide and low pixels: C22_refuted. For the geometric CSD it holds in images with small pixels and correct label of the first pixel (C22_image_partial), for sampled configurations with pixel sides of at least 0.06 mV that differ by at most a factor of 3 and an unlabelled first pixel (C22_image_sampled_partial). Scan sensors: see C112."
  },
  {
   "property": "C23",
   "status": "proved",
   "theorems": [
    "SimCATS.C23_series_law",
    "SimCATS.C23_zero",
    "SimCATS.C23_pos_iff",
    "SimCATS.C23_bounds",
    "SimCATS.C23_symmetric",
    "SimCATS.C23_monotone",
    "SimCATS.C23_response",
    "SimCATS.C23_response_bounds"
   ],
   "note": "Series law, zero cases, positivity, bounds, symmetry, monotonicity, lifted to sensor_response."
  },
  {
   "property": "C24",
   "status": "partial",
   "theorems": [
    "SimCATS.C24_actual",
    "SimCATS.C24_partial",
    "SimCATS.C24_refuted",
    "SimCATS.C24_csd_refuted"
   ],
   "note": "C24_actual states the exact offsets used by the code. Proved (C24_partial) where the two deviations vanish; refuted otherwise: the occupation of dot 2 is replaced by that of dot 1, and in CSDs the voltage of sensor gate 1 is used for both sensor gates."
  },
  {
   "property": "C25",
   "status": "partial",
   "theorems": [
    "SimCATS.C25_unchanged",
    "SimCATS.C25_repeat_partial",
    "SimCATS.C25_history_partial",
    "SimCATS.C25_fresh_partial",
    "SimCATS.C25_refuted"
   ],
   "note": "Refuted: with a final rise sensor_response overwrites the stored scan. Proved without a final rise and for fresh potentials."
  },
  {
   "property": "C26",
   "status": "partial",
   "theorems": [
    "SimCATS.C26_direct_partial",
    "SimCATS.C26_actual",
    "SimCATS.C26_refuted"
   ],
   "note": "Refuted for measure_sensor_scan: computing the labels replaces the stored sweep, so all pixels are bent with one voltage point (C26_actual, C26_refuted). Proved for direct use of the sensor."
  },
  {
   "property": "C27",
   "status": "partial",
   "theorems": [
    "SimCATS.C27_partial",
    "SimCATS.C27_image",
    "SimCATS.C27_int_refuted",
    "SimCATS.C27_array_refuted"
   ],
   "note": "Refuted: with a CSD configuration and plunger voltages every int resolution raises TypeError; without configuration every one-element array raises IndexError. C27_partial covers the two forms that work."
  },
  {
   "property": "C28",
   "status": "partial",
   "theorems": [
    "SimCATS.C28_potential_partial",
    "SimCATS.C28_response_actual",
    "SimCATS.C28_response_partial",
    "SimCATS.C28_refuted"
   ],
   "note": "Potential distortions proved; response distortions refuted (range of sensor gate 1 is passed twice)."
  },
  {
   "property": "C29",
   "status": "partial",
   "theorems": [
    "SimCATS.C29_labels_1d_partial",
    "SimCATS.C29_labels_2d_partial",
    "SimCATS.C29_threshold_partial",
    "SimCATS.C29_open_refuted",
    "SimCATS.C29_threshold_refuted",
    "SimCATS.C29_regions_actual",
    "SimCATS.C29_regions_partial",
    "SimCATS.C29_open_partial"
   ],
   "note": "Consistency of both masks, nearest pixels of undeformed peaks, and the threshold of the open region for equal plunger voltages are proved, also for whole scans and images (`C29_regions_partial`, with `C29_regions_actual` for different plunger voltages); every pixel with both barriers beyond fully conductive is in the open region (`C29_open_partial`); refuted: region 2 does not imply that both barriers are fully conductive, and for different plunger voltages the threshold is computed at wrong voltages."
  },
  {
   "property": "C30",
   "status": "proved",
   "theorems": [
    "SimCATS.C30_axis1",
    "SimCATS.C30_axis0",
    "SimCATS.C30_no_jump",
    "SimCATS.C30_no_garbage",
    "SimCATS.C30_scale_zero",
    "SimCATS.C30_error",
    "SimCATS.C30_pixelwise"
   ],
   "note": "Both axes, blockwise and pixelwise, errors for short jump lists, scale 0, independence of the uninitialised target."
  },
  {
   "property": "C31",
   "status": "partial",
   "theorems": [
    "SimCATS.C31_partial",
    "SimCATS.C31_refuted"
   ],
   "note": "Refuted if both axes are swept from high to low; proved for the other three direction combinations."
  },
  {
   "property": "C32",
   "status": "partial",
   "theorems": [
    "SimCATS.C32_axis1_actual",
    "SimCATS.C32_axis0_actual",
    "SimCATS.C32_partial",
    "SimCATS.C32_deviation",
    "SimCATS.C32_refuted"
   ],
   "note": "Refuted: data from outside the image is taken with the step range/n instead of range/(n-1). Proved for sources inside the image; exact deviation proved."
  },
  {
   "property": "C33",
   "status": "proved",
   "theorems": [
    "SimCATS.C33_jumps",
    "SimCATS.C33_jumps_scale_zero",
    "SimCATS.C33_jumps_total",
    "SimCATS.C33_telegraph",
    "SimCATS.C33_total",
    "SimCATS.C33_scale_zero"
   ],
   "note": "Two-state signal of the right length for every outcome, for telegraph noise and dot jumps."
  },
  {
   "property": "C34",
   "status": "proved",
   "theorems": [
    "SimCATS.C34_blur_fresh",
    "SimCATS.C34_blur_frozen",
    "SimCATS.C34_blur_repeat",
    "SimCATS.C34_blur_frozen_many",
    "SimCATS.C34_blur_inactive",
    "SimCATS.C34_dots_inactive",
    "SimCATS.C34_dots_frozen_inactive",
    "SimCATS.C34_dots_frozen_state",
    "SimCATS.C34_dots_frozen_many",
    "SimCATS.C34_dots_repeat",
    "SimCATS.C34_rtn_inactive",
    "SimCATS.C34_rtn_active"
   ],
   "note": "Telegraph noise, dot jumps and blurring: inactive calls, frozen calls, any number of frozen calls, repetition of the last unfrozen call."
  },
  {
   "property": "C35",
   "status": "partial",
   "theorems": [
    "SimCATS.C35_partial",
    "SimCATS.C35_actual",
    "SimCATS.C35_refuted"
   ],
   "note": "Refuted: a scale below one pixel raises ValueError. Proved for scales of at least one pixel."
  },
  {
   "property": "C36",
   "status": "partial",
   "theorems": [
    "SimCATS.C36_blur_actual",
    "SimCATS.C36_blur_partial",
    "SimCATS.C36_blur_refuted",
    "SimCATS.C36_dots_actual",
    "SimCATS.C36_dots_partial",
    "SimCATS.C36_dots_refuted",
    "SimCATS.C36_dots_call",
    "SimCATS.C36_rtn_actual",
    "SimCATS.C36_rtn_constant_actual",
    "SimCATS.C36_rtn_partial",
    "SimCATS.C36_rtn_1d",
    "SimCATS.C36_rtn_refuted",
    "SimCATS.C36_rtn_call"
   ],
   "note": "Refuted for non-square images (telegraph noise, dot jumps, blurring), proved for square images and 1D scans."
  },
  {
   "property": "C37",
   "status": "proved",
   "theorems": [
    "SimCATS.C37_average",
    "SimCATS.C37_total",
    "SimCATS.C37_rows",
    "SimCATS.C37_line",
    "SimCATS.C37_sum",
    "SimCATS.C37_mirror"
   ],
   "note": "Fermi-Dirac and Gaussian blurring: weights, constants, bounds, sums, mirror; scipy convolve1d/gaussian_filter1d are modelled as documented."
  },
  {
   "property": "C38",
   "status": "proved",
   "theorems": [
    "SimCATS.C38_samplers",
    "SimCATS.C38_first",
    "SimCATS.C38_deterministic",
    "SimCATS.C38_drawn",
    "SimCATS.C38_never"
   ],
   "note": "All four samplers, all executions; redraw loops are a relation, so termination is characterised (first accepted draw) but not claimed. C38_never: ranges without any acceptable value."
  },
  {
   "property": "C39",
   "status": "proved",
   "theorems": [
    "SimCATS.C39_order",
    "SimCATS.C39_measure",
    "SimCATS.C39_pure"
   ],
   "note": "For arbitrary stateful distortions and lists of any length."
  },
  {
   "property": "C40",
   "status": "proved",
   "theorems": [
    "SimCATS.C40_line_line",
    "SimCATS.C40_line_line_parallel",
    "SimCATS.C40_line_vertical",
    "SimCATS.C40_vertical_vertical",
    "SimCATS.C40_bad_length",
    "SimCATS.C40_line_circle",
    "SimCATS.C40_vertical_circle",
    "SimCATS.C40_radius"
   ],
   "note": "line_line_intersection and line_circle_intersection return exactly the common points; error branches covered."
  },
  {
   "property": "C41",
   "status": "partial",
   "theorems": [
    "SimCATS.C41_point_below_line_partial",
    "SimCATS.C41_float_line_rejected",
    "SimCATS.C41_refuted"
   ],
   "note": "Refuted for horizontal lines given as float (ValueError); proved for int lines and (m, b) tuples."
  },
  {
   "property": "C42",
   "status": "proved",
   "theorems": [
    "SimCATS.C42_signed_dist_is_distance",
    "SimCATS.C42_signed_dist_sign",
    "SimCATS.C42_signed_dist_support",
    "SimCATS.C42_signed_dist_reverse"
   ],
   "note": "|signed distance| is the minimum distance; sign, invariance and reversal."
  },
  {
   "property": "C43",
   "status": "partial",
   "theorems": [
    "SimCATS.C43_fixed_on_middle_line",
    "SimCATS.C43_even",
    "SimCATS.C43_on_circle",
    "SimCATS.C43_positive_radius_partial",
    "SimCATS.C43_negative_radius_refuted",
    "SimCATS.C43_unit_refuted",
    "SimCATS.C43_linear"
   ],
   "note": "Refuted for negative radii (jump at the radius) and for the unit of the radius; fixed point, evenness and the circle equation proved for both signs, everything else for positive radii."
  },
  {
   "property": "C44",
   "status": "partial",
   "theorems": [
    "SimCATS.C44_refuted",
    "SimCATS.C44_negated_partial",
    "SimCATS.C44_linear_deformation_refuted"
   ],
   "note": "Refuted: the sign is exactly opposite to the documentation. The magnitude and the negated sign are proved."
  },
  {
   "property": "C45",
   "status": "proved",
   "theorems": [
    "SimCATS.C45_pixel_to_volt",
    "SimCATS.C45_pixel_step",
    "SimCATS.C45_single_pixel"
   ],
   "note": "pixel_to_volt_1d with n-1 equals linspace; one-pixel scans raise ZeroDivisionError."
  },
  {
   "property": "C46",
   "status": "proved",
   "theorems": [
    "SimCATS.C46_geometry",
    "SimCATS.C46_sensor_generic",
    "SimCATS.C46_sensor_scan"
   ],
   "note": "Geometry (C46_geometry), generic sensor and scan sensor, for every finishing run with any valid generator; the scan sensor theorem assumes that no normal draw is exactly 0 (a division by it raises ZeroDivisionError)."
  },
  {
   "property": "C47",
   "status": "partial",
   "theorems": [
    "SimCATS.C47_samplers_partial",
    "SimCATS.C47_actual",
    "SimCATS.C47_refuted"
   ],
   "note": "Refuted: the configuration sampler calls the distortion samplers without the multiplier, so that all distortions are those for multiplier 1. Proved for the individual samplers."
  },
  {
   "property": "C48",
   "status": "proved",
   "theorems": [
    "SimCATS.C48_pinch_off",
    "SimCATS.C48_shifted",
    "SimCATS.C48_scan"
   ],
   "note": "For all offsets, heights, multipliers and random outcomes; C48_scan for the barriers of complete sensors."
  },
  {
   "property": "C49",
   "status": "partial",
   "theorems": [
    "SimCATS.C49_refuted",
    "SimCATS.C49_ideal",
    "SimCATS.C49_measure_partial",
    "SimCATS.C49_empty_peaks_refuted"
   ],
   "note": "Proved for the geometric CSD with SensorGeneric and any shape-preserving distortions; refuted for an empty peak list (C49_refuted: the signal of a measured image is a number)."
  },
  {
   "property": "C50",
   "status": "partial",
   "theorems": [
    "SimCATS.C50_partial",
    "SimCATS.C50_list_refuted",
    "SimCATS.C50_distortions"
   ],
   "note": "Refuted for lists (AttributeError); proved for all other values."
  },
  {
   "property": "C51",
   "status": "proved",
   "theorems": [
    "SimCATS.C51_accepts",
    "SimCATS.C51_no_effect",
    "SimCATS.C51_within"
   ],
   "note": "Decision table, no effect of rejected scans, all used sensor voltages within the limits."
  },
  {
   "property": "C52",
   "status": "partial",
   "theorems": [
    "SimCATS.C52_refuted"
   ],
   "note": "Refuted: no sensor scan with an int plunger voltage succeeds, because the label computation insists on float."
  },
  {
   "property": "C53",
   "status": "partial",
   "theorems": [
    "SimCATS.C53_partial",
    "SimCATS.C53_refuted"
   ],
   "note": "Refuted for unsorted peak lists, proved for sorted ones. C103 compares the labels with the tops of the deformed peaks in the signal."
  },
  {
   "property": "C54",
   "status": "partial",
   "theorems": [
    "SimCATS.C54_partial",
    "SimCATS.C54_refuted"
   ],
   "note": "Refuted for unsorted peak lists, proved for sorted ones without deformations."
  },
  {
   "property": "C55",
   "status": "partial",
   "theorems": [
    "SimCATS.C55_actual",
    "SimCATS.C55_partial",
    "SimCATS.C55_gate2_refuted",
    "SimCATS.C55_fixed_refuted",
    "SimCATS.C55_direction_refuted",
    "SimCATS.C55_new_noise",
    "SimCATS.C55_directions_partial",
    "SimCATS.C55_opposite_actual"
   ],
   "note": "Refuted for fixed gates, jumps along gate 2 and opposite sweep directions; proved for jumps along gate 1 in all scans without opposite sweep directions (step range/n), with new and with frozen noise; the exact behaviour for opposite directions is proved, too."
  },
  {
   "property": "C56",
   "status": "partial",
   "theorems": [
    "SimCATS.C56_partial",
    "SimCATS.C56_refuted",
    "SimCATS.C56_nan_refuted"
   ],
   "note": "Refuted for numpy 2 (OverflowError above 256 pixels, NaN below); proved for numpy 1."
  },
  {
   "property": "C57",
   "status": "partial",
   "theorems": [
    "SimCATS.C57_partial",
    "SimCATS.C57_refuted"
   ],
   "note": "Refuted: heights are reduced modulo 256. Proved for draws below 256."
  },
  {
   "property": "C58",
   "status": "proved",
   "theorems": [
    "SimCATS.C58_noise"
   ],
   "note": "For every outcome of the generator with the requested number of values."
  },
  {
   "property": "C59",
   "status": "partial",
   "theorems": [
    "SimCATS.C59_actual",
    "SimCATS.C59_partial",
    "SimCATS.C59_refuted"
   ],
   "note": "Refuted for narrowed ranges (the centre of the narrowed range is used); proved for ranges that are not narrowed."
  },
  {
   "property": "C60",
   "status": "proved",
   "theorems": [
    "SimCATS.C60_ordered",
    "SimCATS.C60_count",
    "SimCATS.C60_slopes"
   ],
   "note": "For every finishing run of the sampler with any valid generator."
  },
  {
   "property": "C61",
   "status": "proved",
   "theorems": [
    "SimCATS.C61_fair_ends",
    "SimCATS.C61_loop_ends",
    "SimCATS.C61_ends",
    "SimCATS.C61_bounded"
   ],
   "note": "The rejection loops for the lead angle and the interdot ratio end if accepted values are drawn (hypotheses of C61_ends), in particular for every fair generator (C61_fair_ends)."
  },
  {
   "property": "C62",
   "status": "partial",
   "theorems": [
    "SimCATS.C62_refuted",
    "SimCATS.C62_2d_partial",
    "SimCATS.C62_1d_partial",
    "SimCATS.C62_image_actual"
   ],
   "note": "Refuted: 2 x 2 pixels over the whole range always raise IndexError. Proved for all 1D scans and for all images with pixels up to 0.14 V / 12. For all other images the exact condition is proved (C62_image_actual: a sampled point of the last transition lies in the image or less than half a pixel outside)."
  },
  {
   "property": "C63",
   "status": "partial",
   "theorems": [
    "SimCATS.C63_sum_partial",
    "SimCATS.C63_1d_partial",
    "SimCATS.C63_2d_partial",
    "SimCATS.C63_monotone_partial",
    "SimCATS.C63_limits_partial",
    "SimCATS.C63_uncoupled_actual",
    "SimCATS.C63_refuted",
    "SimCATS.C63_sampled_1d",
    "SimCATS.C63_sampled_2d"
   ],
   "note": "Refuted without tunnel coupling: the electrons sit in the wrong dot. Proved for every transition with coupling: exact sum, monotonicity and limits; for sampled configurations also in terms of gate voltages."
  },
  {
   "property": "C64",
   "status": "proved",
   "theorems": [
    "SimCATS.C64_separated",
    "SimCATS.C64_room",
    "SimCATS.C64_ends",
    "SimCATS.C64_compensated_ends",
    "SimCATS.C64_scan_ends",
    "SimCATS.C64_degenerate"
   ],
   "note": "The uncompensated generic sensor needs a potential range of positive length (hypothesis of C64_ends); C64_degenerate: for the single choice of lever arms with an empty range the search never ends."
  },
  {
   "property": "C65",
   "status": "proved",
   "theorems": [
    "SimCATS.C65_steepest"
   ],
   "note": "For every finishing run with any valid generator."
  },
  {
   "property": "C66",
   "status": "proved",
   "theorems": [
    "SimCATS.C66_quality",
    "SimCATS.C66_type",
    "SimCATS.C66_valid",
    "SimCATS.C66_ends"
   ],
   "note": "Scan sensors assume that no normal draw is exactly 0; ending of uncompensated generic sensors assumes a potential range of positive length, see C64."
  },
  {
   "property": "C67",
   "status": "partial",
   "theorems": [
    "SimCATS.C67_default",
    "SimCATS.C67_labelled",
    "SimCATS.C67_partial",
    "SimCATS.C67_sampled",
    "SimCATS.C67_refuted"
   ],
   "note": "Refuted: with elongated pixels a transition can pass between the sampled points, and the pixels on both sides get the electrons of one of them. Proved for all images whose pixel sides exceed the distance of the sampled points, in particular for sampled configurations with pixel sides of at least 0.06 mV that differ by at most a factor of 3, and the same for the default configurations; labelled pixels in all images."
  },
  {
   "property": "C68",
   "status": "partial",
   "theorems": [
    "SimCATS.C68_image_partial",
    "SimCATS.C68_line_partial",
    "SimCATS.C68_coarse_refuted",
    "SimCATS.C68_whole_actual",
    "SimCATS.C68_image_actual"
   ],
   "note": "Refuted: square images of the whole voltage range with fewer than 29 x 29 pixels raise IndexError, because the half-pixel margin around the image reaches the last of the 14 transitions; C68_whole_actual proves this for 2 to 28 and that all with at least 29 are returned. Proved: all 1D scans with at least one pixel, and all images whose pixel sides add up to at most 8.8 mV, for both sweep directions. All other images: C68_image_actual proves that exactly those raise IndexError that sample a point of the last transition in the image or less than half a pixel outside. These theorems are about the configuration without its random distortions; C83 covers it with them."
  },
  {
   "property": "C69",
   "status": "proved",
   "theorems": [
    "SimCATS.C69_measure",
    "SimCATS.C69_exception",
    "SimCATS.C69_measure_exception",
    "SimCATS.C69_pointwise"
   ],
   "note": "Success is characterised exactly (if and only if) for single and multiple potentials; exceptions at the level of one distortion list and, for the response distortions, of measure."
  },
  {
   "property": "C70",
   "status": "partial",
   "theorems": [
    "SimCATS.C70_empty_actual",
    "SimCATS.C70_refuted",
    "SimCATS.C70_image_partial",
    "SimCATS.C70_line_partial"
   ],
   "note": "Proved for 2D and 1D scans with the generic sensor and a list of peak functions that is not empty (or None). With an empty list, which the sensor accepts, it is violated: the whole signal is the number 0 (C70_refuted, C70_empty_actual). Scan sensors: C71."
  },
  {
   "property": "C71",
   "status": "proved",
   "theorems": [
    "SimCATS.C71_potential_2d",
    "SimCATS.C71_potential_1d",
    "SimCATS.C71_rejects",
    "SimCATS.C71_measure",
    "SimCATS.C71_scan"
   ],
   "note": "Potentials for all sensors; signals without peak deformations, final rise, and potential and response distortions (occupation distortions are allowed in measure)."
  },
  {
   "property": "C72",
   "status": "proved",
   "theorems": [
    "SimCATS.C72_set",
    "SimCATS.C72_generic",
    "SimCATS.C72_scan",
    "SimCATS.C72_invariant"
   ],
   "note": "Array attributes; the object attributes (peak functions, barriers, rise) are covered by C85."
  },
  {
   "property": "C73",
   "status": "partial",
   "theorems": [
    "SimCATS.C73_partial",
    "SimCATS.C73_refuted"
   ],
   "note": "Refuted: arrays of shape (2, 1) and (1, 2) are accepted, but the potential then has a wrong shape or ValueError is raised. Proved: exactly the shape (2,) works, for scans with any number of axes."
  },
  {
   "property": "C74",
   "status": "partial",
   "theorems": [
    "SimCATS.C74_generic_partial",
    "SimCATS.C74_generic_default_partial",
    "SimCATS.C74_scan_partial",
    "SimCATS.C74_default_refuted",
    "SimCATS.C74_argument_refuted"
   ],
   "note": "Proved for SensorGeneric (attributes and defaults). Refuted for SensorScanSensorGeneric: default arrays of shape (3, 2) are shared by all sensors, and a (3, 2) array that is passed stays shared with the caller. For attributes set by None, one pair or one number it is proved."
  },
  {
   "property": "C75",
   "status": "partial",
   "theorems": [
    "SimCATS.C75_actual",
    "SimCATS.C75_partial",
    "SimCATS.C75_refuted"
   ],
   "note": "Refuted for integer arrays, which the defaults are: setting a lever arm to -0.5 gives 0. Proved for float arrays; the exact behaviour is given for both."
  },
  {
   "property": "C76",
   "status": "partial",
   "theorems": [
    "SimCATS.C76_actual",
    "SimCATS.C76_unset_actual",
    "SimCATS.C76_partial",
    "SimCATS.C76_assigned",
    "SimCATS.C76_shared_refuted",
    "SimCATS.C76_later_refuted",
    "SimCATS.C76_default_refuted",
    "SimCATS.C76_failed_refuted"
   ],
   "note": "Refuted in four ways: a deformation object used by two sensors takes the lever arms of the last one; deformations assigned (or peaks added) after construction fail with AttributeError; the default dictionary is shared by all sensors; a constructor that raises ValueError breaks the sensor that used the deformation before. Proved: exact behaviour after every program, and the property for deformations passed to one constructor only."
  },
  {
   "property": "C77",
   "status": "proved",
   "theorems": [
    "SimCATS.C77_set_accepts",
    "SimCATS.C77_set_stores",
    "SimCATS.C77_constructed",
    "SimCATS.C77_isolated",
    "SimCATS.C77_measure_keeps",
    "SimCATS.C77_adjust"
   ],
   "note": "Objects live in a heap and programs may share and change them arbitrarily; the code of the components is a parameter (any code that starts from the objects handed to it). The isolation theorem assumes that the program never called a getter of that simulation, as getters return the configuration by reference as documented (C77_adjust)."
  },
  {
   "property": "C78",
   "status": "proved",
   "theorems": [
    "SimCATS.C78_content",
    "SimCATS.C78_snapshot"
   ],
   "note": "The metadata contain the configuration after the measurement (with the generators advanced), see C80 for what this means for repeating a measurement."
  },
  {
   "property": "C79",
   "status": "partial",
   "theorems": [
    "SimCATS.C79_simulations_actual",
    "SimCATS.C79_stages_refuted",
    "SimCATS.C79_simulations_refuted",
    "SimCATS.C79_refuted",
    "SimCATS.C79_partial"
   ],
   "note": "False of the code: each list of distortions and each simulation gets its own deep copy, so distortions that were made with one generator (which is the case for the shipped distortions with their default rng, evaluated once per signature) use the same random numbers in different stages and in different simulations (C79_stages_refuted, C79_simulations_refuted, C79_refuted; C79_simulations_actual: two simulations made from the same objects use exactly the same numbers). C79_partial: if the generators that the components can reach after construction have different seeds, no number is used twice over all later measurements. A random number is identified by seed and position; distinctness of the values is up to numpy."
  },
  {
   "property": "C80",
   "status": "partial",
   "theorems": [
    "SimCATS.C80_actual",
    "SimCATS.C80_refuted",
    "SimCATS.C80_partial"
   ],
   "note": "False of the code: the metadata are copied after the measurement, with the generators advanced (C80_refuted). C80_actual: a simulation created from the metadata has exactly the configuration after the measurement. C80_partial: for components that neither change objects nor draw random numbers it has the configuration that the measurement started with."
  },
  {
   "property": "C81",
   "status": "proved",
   "theorems": [
    "SimCATS.C81_asymptotes",
    "SimCATS.C81_right",
    "SimCATS.C81_mirror",
    "SimCATS.C81_offset",
    "SimCATS.C81_shape_factor",
    "SimCATS.C81_steepest",
    "SimCATS.C81_asymmetry",
    "SimCATS.C81_checks",
    "SimCATS.C81_multi"
   ],
   "note": "For positive shape factor and denominator offset; for other values the base of the power can be negative (nan in numpy), which is outside of the model."
  },
  {
   "property": "C82",
   "status": "proved",
   "theorems": [
    "SimCATS.C82_image",
    "SimCATS.C82_image_direction",
    "SimCATS.C82_line",
    "SimCATS.C82_line_direction",
    "SimCATS.C82_line_gate2",
    "SimCATS.C82_errors"
   ],
   "note": "About the arguments of the calls of matplotlib; the text of a rounded number is a parameter."
  },
  {
   "property": "C83",
   "status": "partial",
   "theorems": [
    "SimCATS.C83_image_partial",
    "SimCATS.C83_line_partial",
    "SimCATS.C83_fixed_refuted",
    "SimCATS.C83_line_coarse_refuted",
    "SimCATS.C83_line_refuted",
    "SimCATS.C83_image_refuted"
   ],
   "note": "Proved for images with a pixel of at most 8.8 mV (sum of sides) and 1D scans of both gates with at most 22.37 mV per pixel; with numpy 2 up to 256 rows or pixels. Refuted for sweeps of one gate (1% of the scans), for 1D scans with up to 6 pixels and, with numpy 2, for more than 256 rows or pixels. The random numbers are arbitrary values in their documented ranges."
  },
  {
   "property": "C84",
   "status": "partial",
   "theorems": [
    "SimCATS.C84_line_partial",
    "SimCATS.C84_axis1_actual",
    "SimCATS.C84_axis1_one_actual",
    "SimCATS.C84_axis0_actual",
    "SimCATS.C84_image_partial",
    "SimCATS.C84_axis1_refuted",
    "SimCATS.C84_axis0_refuted",
    "SimCATS.C84_scan_partial",
    "SimCATS.C84_new_noise"
   ],
   "note": "Proved for 1D scans, and for jumps of at most one pixel along gate 2 in square images. Refuted for images: the border is generated as an image of its own, so its width is computed from its own number of pixels (or range); a border of one column is blurred along gate 2. The exact widths are proved. 1D scans are proved from the ideal data to the end of the loop over the distortions, with new noise, for both directions; images ascending."
  },
  {
   "property": "C85",
   "status": "partial",
   "theorems": [
    "SimCATS.C85_set",
    "SimCATS.C85_constructed",
    "SimCATS.C85_peaks",
    "SimCATS.C85_isolated_partial",
    "SimCATS.C85_barriers_separate",
    "SimCATS.C85_barriers_adjust",
    "SimCATS.C85_adjust",
    "SimCATS.C85_shared_actual",
    "SimCATS.C85_rise_refuted",
    "SimCATS.C85_barriers_refuted",
    "SimCATS.C85_checked_refuted"
   ],
   "note": "Acceptance, stored configuration and error behaviour are proved for all three kinds of functions and both classes. Own functions are proved for peaks, and for one barrier function passed for both barriers. Refuted for rise functions and for sequences of two barrier functions, which the setters store without a copy; the list can even become invalid behind the check of the setter."
  },
  {
   "property": "C86",
   "status": "partial",
   "theorems": [
    "SimCATS.C86_partial",
    "SimCATS.C86_scan_partial",
    "SimCATS.C86_start_partial",
    "SimCATS.C86_refuted",
    "SimCATS.C86_scan_refuted"
   ],
   "note": "Proved for sensors without final rise and deformations, for CSDs and sensor scans together. With a final rise proved among sensor scans, and among CSDs with the same start. Refuted with a final rise for two CSDs with different starting points, and for a CSD and a sensor scan."
  },
  {
   "property": "C87",
   "status": "partial",
   "theorems": [
    "SimCATS.C87_scan_actual",
    "SimCATS.C87_scan_partial",
    "SimCATS.C87_csd_actual",
    "SimCATS.C87_csd_both_actual",
    "SimCATS.C87_csd_partial",
    "SimCATS.C87_scan_refuted",
    "SimCATS.C87_csd_refuted"
   ],
   "note": "Proved for sensor scans with equal plunger voltages (and equal occupations, or a barrier 1 that does not feel dot 2), and for the first pixel of CSDs with a fixed plunger gate. The exact point that the code uses is proved for sensor scans and both kinds of CSDs. Refuted for sensor scans with different plunger voltages and for CSDs over both plunger gates."
  },
  {
   "property": "C88",
   "status": "partial",
   "theorems": [
    "SimCATS.C88_image_partial",
    "SimCATS.C88_line_partial",
    "SimCATS.C88_omitted_refuted",
    "SimCATS.C88_fixed_refuted",
    "SimCATS.C88_scan_image_partial",
    "SimCATS.C88_scan_line_partial",
    "SimCATS.C88_scan_int_refuted",
    "SimCATS.C88_scan_array_refuted",
    "SimCATS.C88_scan_coarse_refuted"
   ],
   "note": "Proved for images and lines with given sensor gate voltages up to a pixel size (and 256 rows with numpy 2), and for sensor scan images and lines up to a pixel size. Refuted for CSDs without sensor gate voltages (TypeError), for 1D scans of one plunger gate with active dot jumps (ValueError), for 1D sensor scans with the number of pixels given in the wrong one of two forms (TypeError, IndexError) and for coarse sensor scans with active telegraph noise (ValueError)."
  },
  {
   "property": "C89",
   "status": "partial",
   "theorems": [
    "SimCATS.C89_labels",
    "SimCATS.C89_signal_partial",
    "SimCATS.C89_csd_closed_partial",
    "SimCATS.C89_csd_start_actual",
    "SimCATS.C89_csd_refuted"
   ],
   "note": "Labels of sensor scans are proved with all distortions, signals of sensor scans and of CSDs with closed sensor without distortions. Refuted for CSDs with open sensor: with both sensor gates at -0.28 V the signal at the upper plunger limits is at least 0.0599 in a diagonal scan upwards and at most 0.003 in the same scan downwards."
  },
  {
   "property": "C90",
   "status": "partial",
   "theorems": [
    "SimCATS.C90_line",
    "SimCATS.C90_image",
    "SimCATS.C90_default_partial",
    "SimCATS.C90_sampled_partial",
    "SimCATS.C90_default_refuted"
   ],
   "note": "Proved without restriction of the step for exact evaluation of the transitions (lut_entries None), for pixels of lines below the last transition and unlabelled pixels of densely sampled images. With lookup tables (default and sampled configurations) proved for steps of together at least 0.02 mV. Refuted for smaller steps: the nearest-entry table is piecewise constant, so its transitions jump upwards, and with the default configuration a step of less than 0.01 uV of one gate removes an electron."
  },
  {
   "property": "C91",
   "status": "partial",
   "theorems": [
    "SimCATS.C91_image_partial",
    "SimCATS.C91_line_partial",
    "SimCATS.C91_omitted_refuted",
    "SimCATS.C91_coarse_refuted",
    "SimCATS.C91_fixed_refuted",
    "SimCATS.C91_scan_image_partial",
    "SimCATS.C91_scan_line_partial",
    "SimCATS.C91_scan_gate2_refuted",
    "SimCATS.C91_scan_generic_actual"
   ],
   "note": "Proved for images with pixel sides of at most 0.14 V / 12, 1D scans of both plunger gates and sensor scans that sweep sensor gate 1, each with given sensor gate voltages and at most 22.37 mV per pixel (with numpy 2: at most 256 rows or pixels). Refuted, each for every sampled configuration: measurements without sensor gate voltages raise TypeError because the sampler always sets limits for them; 2 x 2 images raise IndexError; 1D scans of plunger gate 1 alone raise ValueError when the dot jumps of gate 2 are active; 1D sensor scans of sensor gate 2 alone raise ValueError when the telegraph noise of the response is active."
  },
  {
   "property": "C92",
   "status": "partial",
   "theorems": [
    "SimCATS.C92_barriers",
    "SimCATS.C92_labels",
    "SimCATS.C92_signal",
    "SimCATS.C92_open_partial",
    "SimCATS.C92_open_compensated_partial",
    "SimCATS.C92_open_low_partial",
    "SimCATS.C92_open_refuted"
   ],
   "note": "Proved for every sampled sensor scan sensor and every sensor scan it returns: closed (mask 0, no peak labels) with both sensor gates at -0.688 V or below, with a signal of at most 0.1% of the barrier height if there are no distortions; not closed with both at -0.3 V or above; fully conductive with both at -0.07 V or above if there are no plunger voltages, and with both at -0.03 V or above if the lever arms are compensated and the dots hold at most 25 electrons (for example at plunger voltages of -0.122 V or below). Refuted: a sampled sensor without compensated lever arms is nowhere fully conductive within its limits at plunger voltages of -0.06 V and -0.2 V."
  },
  {
   "property": "C93",
   "status": "partial",
   "theorems": [
    "SimCATS.C93_lines",
    "SimCATS.C93_line_image_partial",
    "SimCATS.C93_images_partial",
    "SimCATS.C93_measured_lines",
    "SimCATS.C93_measured_line_image_partial",
    "SimCATS.C93_measured_images_partial",
    "SimCATS.C93_sampled_partial",
    "SimCATS.C93_default_partial",
    "SimCATS.C93_shown_partial",
    "SimCATS.C93_default_shown_partial",
    "SimCATS.C93_sampled_shown_partial",
    "SimCATS.C93_refuted",
    "SimCATS.C93_label_refuted"
   ],
   "note": "Proved: two lines always agree; a line and an image agree at unlabelled pixels of images whose transitions are sampled densely compared with the pixel sides and at labelled pixels that lie on or above the transition; two such images agree at pixels with the same label. The same for the signals of simulations without distortions, and for the sampled and default configurations with explicit pixel sizes. Refuted: an unlabelled pixel of an image with elongated pixels and a labelled pixel below its transition have other electrons than a line at the same voltages."
  },
  {
   "property": "C94",
   "status": "proved",
   "theorems": [
    "SimCATS.C94_extension",
    "SimCATS.C94_line",
    "SimCATS.C94_image",
    "SimCATS.C94_decision",
    "SimCATS.C94_default_radius",
    "SimCATS.C94_range",
    "SimCATS.C94_constant",
    "SimCATS.C94_sum",
    "SimCATS.C94_identity",
    "SimCATS.C94_monotone",
    "SimCATS.C94_linear",
    "SimCATS.C94_reverse",
    "SimCATS.C94_sign",
    "SimCATS.C94_step",
    "SimCATS.C94_sum_mirror_actual",
    "SimCATS.C94_blurring"
   ],
   "note": "For lines and images, every mode name, axis, constant, width and radius, with the errors of negative radii, missing axes and unknown modes and NaN for the width 0. Arrays with more than two axes and the rounding of integer arrays are not modelled; the filter of SciPy (`convolve1d`) is modelled by its documentation. The sum is not kept in the mode 'mirror' (C94_sum_mirror_actual)."
  },
  {
   "property": "C95",
   "status": "proved",
   "theorems": [
    "SimCATS.C95_measure",
    "SimCATS.C95_scan",
    "SimCATS.C95_history",
    "SimCATS.C95_programs",
    "SimCATS.C95_undistorted",
    "SimCATS.C95_reports",
    "SimCATS.C95_scan_reports",
    "SimCATS.C95_default",
    "SimCATS.C95_extended",
    "SimCATS.C95_sampled"
   ],
   "note": "For every simulation that is built from the shipped ideal CSD class, sensors and distortions, and also for the default and sampled configurations. Direct calls of distortions with freeze=True do depend on the kept values (that is their purpose) and are only covered where a measurement makes them."
  },
  {
   "property": "C96",
   "status": "partial",
   "theorems": [
    "SimCATS.C96_measure",
    "SimCATS.C96_scan_sensor_partial",
    "SimCATS.C96_scan_partial",
    "SimCATS.C96_constant_partial",
    "SimCATS.C96_refuted"
   ],
   "note": "Proved for SensorGeneric, and for a scan sensor for the distortions of occupations and response. With a scan sensor, a distortion of the potentials is applied to three potentials with new draws for each and reports only the last one (C96_refuted); C96_scan_sensor_partial and C96_scan_partial say this exactly, and C96_constant_partial covers all three potentials for noise of fixed strength. For dot jumps and telegraph noise that are on, the jumps themselves are the subject of other properties; that they use no other generator than their own is proved here, also through the frozen calls of later distortions."
  },
  {
   "property": "C97",
   "status": "proved",
   "theorems": [
    "SimCATS.C97_new",
    "SimCATS.C97_assign",
    "SimCATS.C97_exception",
    "SimCATS.C97_last",
    "SimCATS.C97_reports",
    "SimCATS.C97_like_new",
    "SimCATS.C97_gaussian",
    "SimCATS.C97_lorentzian",
    "SimCATS.C97_barrier",
    "SimCATS.C97_rise",
    "SimCATS.C97_multi",
    "SimCATS.C97_deformation"
   ],
   "note": "Assignments use the attribute protocol of Python with the properties of each class as a table. Comparisons of other objects than numbers are taken to raise TypeError; nan is not modelled."
  },
  {
   "property": "C98",
   "status": "partial",
   "theorems": [
    "SimCATS.C98_first_partial",
    "SimCATS.C98_total_partial",
    "SimCATS.C98_again_partial",
    "SimCATS.C98_scale_zero",
    "SimCATS.C98_large_actual",
    "SimCATS.C98_border_actual",
    "SimCATS.C98_refuted",
    "SimCATS.C98_pixelwise_partial",
    "SimCATS.C98_pixelwise_total_partial"
   ],
   "note": "Violated with numpy >= 2: the generated jumps are uint8, so index arithmetic wraps modulo 256. Images of more than 256 pixels always fail, jumps over the border fail or take a wrong pixel (`C98_refuted`, `C98_large_actual`, `C98_border_actual`). Proved with numpy < 2, with signed jumps, and for jumps inside of images of at most 256 pixels. The distortion classes convert the jumps and are not affected (C30)."
  },
  {
   "property": "C99",
   "status": "partial",
   "theorems": [
    "SimCATS.C99_same_partial",
    "SimCATS.C99_numbers",
    "SimCATS.C99_balanced_partial",
    "SimCATS.C99_multi",
    "SimCATS.C99_multi_actual",
    "SimCATS.C99_rounding_actual",
    "SimCATS.C99_refuted"
   ],
   "note": "Violated: the printed form of BarrierFunctionMultiGLF lacks the closing parenthesis (`C99_multi_actual`), lever arms are rounded by numpy (`C99_rounding_actual`) and generators print without their state (`C99_refuted`). Proved for everything else by unique readability of the format strings; printing of floats is a parameter that has to distinguish them."
  },
  {
   "property": "C100",
   "status": "proved",
   "theorems": [
    "SimCATS.C100_stages",
    "SimCATS.C100_labels",
    "SimCATS.C100_occupation_distortions",
    "SimCATS.C100_exception",
    "SimCATS.C100_pixels"
   ],
   "note": "Stage-by-stage characterisation of successful scans, exceptions of response distortions, labels of two simulations that differ in distortions, and closed form of the signal for distortions that act pixel by pixel (`C100_pixels`, without deformations and final rise). Which ranges the distortions receive is C28."
  },
  {
   "property": "C101",
   "status": "proved",
   "theorems": [
    "SimCATS.C101_regions",
    "SimCATS.C101_total",
    "SimCATS.C101_scale_zero",
    "SimCATS.C101_quiet_scale",
    "SimCATS.C101_burst_scale_actual"
   ],
   "note": "Exact characterisation of the returned image together with the draws (`C101_regions`), success for scales of at least one pixel, and the exceptions for smaller scales: the scale of pauses is always checked, that of bursts only if a burst is needed (`C101_burst_scale_actual`). Scales are Python numbers (division by a numpy zero would give a ValueError instead)."
  },
  {
   "property": "C102",
   "status": "partial",
   "theorems": [
    "SimCATS.C102_lines_partial",
    "SimCATS.C102_line_partial",
    "SimCATS.C102_circle_actual",
    "SimCATS.C102_circle_partial",
    "SimCATS.C102_scan_actual",
    "SimCATS.C102_scan_refuted",
    "SimCATS.C102_circle_refuted"
   ],
   "note": "Proved for linear deformations if the sensor is used directly: the line and its angle are as documented (two sign conventions cancel, see C44), also with several peaks. Refuted for measure_sensor_scan, which moves each peak as a whole (`C102_scan_actual`, consequence of C26), and for circles, which become ellipses because the radius in volts is used as a potential (`C102_circle_actual`); circles are right for lever arms of length 1. Assumes occupations for which the middle line is computed correctly (C24)."
  },
  {
   "property": "C103",
   "status": "partial",
   "theorems": [
    "SimCATS.C103_actual",
    "SimCATS.C103_partial",
    "SimCATS.C103_plain_partial",
    "SimCATS.C103_signal",
    "SimCATS.C103_refuted"
   ],
   "note": "Proved for peaks in ascending order and equal voltages at the plunger gates, and for peaks without deformations in any case. Refuted for different plunger voltages: the labels use the voltage of the first plunger gate for both when they compute the middle line (`C103_actual` states what is marked then). Other orders of deformed peaks are refuted in C53. `C103_signal` ties the conductances to the signal of the sensor used directly."
  },
  {
   "property": "C104",
   "status": "partial",
   "theorems": [
    "SimCATS.C104_normal",
    "SimCATS.C104_uniform",
    "SimCATS.C104_lognormal",
    "SimCATS.C104_exponential",
    "SimCATS.C104_quantile_actual",
    "SimCATS.C104_documented_scale_actual",
    "SimCATS.C104_quantile_refuted"
   ],
   "note": "The distributions are proved for all samplers. The documented rule for the scale of exponential samplers is refuted: it ignores that the distribution is truncated. `C104_documented_scale_actual` has the exact proportion p / (1 - (1 - p) ^ (1 / q)), which is always larger than p (10/11 instead of 9/10 in the documented example)."
  },
  {
   "property": "C105",
   "status": "proved",
   "theorems": [
    "SimCATS.C105_pattern",
    "SimCATS.C105_pixel",
    "SimCATS.C105_burst"
   ],
   "note": "The lengths are assumed independent and geometric (`GeometricDraws`, met by a generator that reads independent streams), and the heights nonzero, which has probability 1 for a positive standard deviation."
  },
  {
   "property": "C106",
   "status": "partial",
   "theorems": [
    "SimCATS.C106_jumps",
    "SimCATS.C106_potential",
    "SimCATS.C106_response",
    "SimCATS.C106_scan_response",
    "SimCATS.C106_scan_potential_partial",
    "SimCATS.C106_scan_potential_actual",
    "SimCATS.C106_refuted"
   ],
   "note": "Proved for dot jumps and for telegraph noise of the response with both kinds of sensors, and for telegraph noise of the potential with SensorGeneric. Refuted for the potentials of a scan sensor (`C106_refuted`): one number is drawn for each of the three potentials, so a scan is undisturbed with probability (1 - ratio) ^ 3 only (`C106_scan_potential_actual`; at least that, `C106_scan_potential_partial`). Measurements are assumed to succeed with probability 1."
  },
  {
   "property": "C107",
   "status": "proved",
   "theorems": [
    "SimCATS.C107_added",
    "SimCATS.C107_scan_added",
    "SimCATS.C107_succeeds",
    "SimCATS.C107_law",
    "SimCATS.C107_scan_law"
   ],
   "note": "For white noise that comes last, as in both default configurations; C115_white and C115_scan_white are the versions for any place. `rng.normal` is assumed to return `sigma` times independent standard normal numbers (`ScaledDraws`, `StandardNormal`, met by a generator that reads independent streams). The distribution is stated for a fixed strength; for a sampled one `C107_added` gives the pixels in terms of the reported strength."
  },
  {
   "property": "C108",
   "status": "proved",
   "theorems": [
    "SimCATS.C108_pattern",
    "SimCATS.C108_pixel",
    "SimCATS.C108_scan_pattern",
    "SimCATS.C108_scan_pixel"
   ],
   "note": "For telegraph noise that comes last (any place: C115_pattern, C115_scan_pattern); scale, standard deviation and height are fixed numbers and the drawn heights are not 0. In an image the number of pixels per volt is the one that the code uses (C36), in a sensor scan that of sensor gate 1 (C28). `rng.binomial` and `rng.geometric` are assumed to have the documented distributions (`TelegraphDraws`, met by a generator that reads independent streams)."
  },
  {
   "property": "C109",
   "status": "proved",
   "theorems": [
    "SimCATS.C109_series",
    "SimCATS.C109_repeated",
    "SimCATS.C109_scan_repeated",
    "SimCATS.C109_mean",
    "SimCATS.C109_scan_mean"
   ],
   "note": "The statement for series allows any other distortions that do not use the generator of the noise, and a strength that is sampled for every measurement. `rng.normal` is assumed to deliver `sigma` times the next numbers of one stream (`ScaledDraws`, `GoesOn`), which are independent standard normal (`StandardNormal`); met by a generator that reads a random stream. Sums of doubles are real numbers."
  },
  {
   "property": "C110",
   "status": "proved",
   "theorems": [
    "SimCATS.C110_jump",
    "SimCATS.C110_jump_height",
    "SimCATS.C110_burst"
   ],
   "note": "`rng.geometric(p, size=n)` followed by single draws of the height is assumed to deliver independent geometric numbers and, independently of them, heights with the documented distribution (`LengthsThenHeights`); met by a generator that reads random streams. The code draws a height for every block, also for those without a jump. Heights of dot jumps are taken modulo 256 (C57)."
  },
  {
   "property": "C111",
   "status": "proved",
   "theorems": [
    "SimCATS.C111_columns",
    "SimCATS.C111_columns_ge",
    "SimCATS.C111_rows",
    "SimCATS.C111_rows_ge"
   ],
   "note": "`rng.binomial`, `rng.geometric` and `rng.poisson` are assumed to deliver independent numbers with the documented distributions (`CoinLengthsHeights`); met by a generator that reads random streams. Scale and mean are constants, the scale has at least one pixel. Shifts are taken modulo 256 (C57), the conversion from volts to pixels is the one of C36 and the voltages before the first pixel are those of C32."
  },
  {
   "property": "C112",
   "status": "partial",
   "theorems": [
    "SimCATS.C112_reset_actual",
    "SimCATS.C112_reset_refuted",
    "SimCATS.C112_succeeds_iff",
    "SimCATS.C112_reset_partial",
    "SimCATS.C112_three_partial"
   ],
   "note": "Violated: for every valid geometric configuration, scan sensor and arguments the call raises ValueError, because the potentials of the two pixels are combined with the three offsets; the offsets stay as they were, and the sensor remembers the voltages and occupations of the call (C112_reset_actual, C112_reset_refuted). It succeeds exactly for generators that return a line of one or three pixels (C112_succeeds_iff); for one pixel the property holds (C112_reset_partial), and for three pixels the call computes one offset per pixel from the potential of that pixel (C112_three_partial)."
  },
  {
   "property": "C113",
   "status": "partial",
   "theorems": [
    "SimCATS.C113_last",
    "SimCATS.C113_line_partial",
    "SimCATS.C113_image_partial",
    "SimCATS.C113_scan_actual",
    "SimCATS.C113_scan_refuted"
   ],
   "note": "Proved for sensors of type SensorGeneric without distortions: all 1D scans, and images with an unlabelled first pixel and pixel sides of at least 0.06 mV that differ by at most a factor of 3; earlier resets do not matter (C113_last). For scan sensors it is violated: the sampler ignores the option (the possible results are the same), the offsets are zero, and every reset raises ValueError (C113_scan_actual, C113_scan_refuted)."
  },
  {
   "property": "C114",
   "status": "proved",
   "theorems": [
    "SimCATS.C114_burst",
    "SimCATS.C114_scan_burst",
    "SimCATS.C114_pixel",
    "SimCATS.C114_scan_pixel"
   ],
   "note": "For telegraph noise that comes last (any place: C115_burst, C115_scan_burst); scale, standard deviation and height are fixed numbers, and the scale is at least one pixel. Pixels per volt as in C108. The draws of the generator are assumed to have the documented distributions (`BurstDraws`, met by a generator that reads independent streams). A set of heights that contains 0 is excluded, because pixels without noise would count, too; `C114_pixel` and `C114_scan_pixel` give the whole distribution of the difference of a pixel (a mixture of 0 and a normal distribution) and its mean."
  },
  {
   "property": "C115",
   "status": "proved",
   "theorems": [
    "SimCATS.C115_measure",
    "SimCATS.C115_scan",
    "SimCATS.C115_shared",
    "SimCATS.C115_white",
    "SimCATS.C115_scan_white",
    "SimCATS.C115_pattern",
    "SimCATS.C115_scan_pattern",
    "SimCATS.C115_burst",
    "SimCATS.C115_scan_burst"
   ],
   "note": "For measurements that succeed; which exception is raised may depend on the order. Two noises are independent of each other if no call of a generator or sampler of one changes what a call of the other returns (`OwnGenerators`), and every object is used once (`Distinct`, C93). Sums of doubles are real numbers, so that rounding does not depend on the order. C115_white, C115_pattern and C115_burst (and the versions for sensor scans) are C107, C108 and C114 for noise at any place; C115_shared shows that the condition on the generators is needed."
  },
  {
   "property": "C116",
   "status": "proved",
   "theorems": [
    "SimCATS.C116_law",
    "SimCATS.C116_scan_law"
   ],
   "note": "For strengths that are given as numbers (a sampled strength is covered for a single noise by C107_added only). The generators are independent of each other and of all other distortions, and every object is used once (`Distinct`, C93). Real numbers instead of doubles."
  },
  {
   "property": "C117",
   "status": "proved",
   "theorems": [
    "SimCATS.C117_image",
    "SimCATS.C117_line",
    "SimCATS.C117_line_array"
   ],
   "note": "With the geometric ideal CSD, for images and lines, including all rejected requests and sensors with an empty list of peak functions. A line with a single pixel is measured at the first voltages and is excluded. Sampled points of a sweep are real numbers (rounding of linspace is not modelled). Scan sensors and distortions are not covered."
  }
 ]
}