# Formal model of SimCATS: design

## Method

* Lean 4.33.0 with selected Mathlib modules. All modules are under `lean/Verif/`.
* `Verif/Model/*` mirrors the Python code function by function. Every definition cites file and lines of `/repo`.
* `Verif/Spec/*` holds small independent specifications (plain mathematics, no model helpers).
* `Verif/Lemmas/*` holds helper lemmas; `Verif/Props/*` holds the property theorems (one file per property or
  closely related group), each with a non-vacuity `example`.
* Python exceptions are values: `Py α = Except PyErr α`. Error branches are modelled, in the order of the code.
* Random generators, `dip.Label`, the abstract base classes and numerical libraries are parameters of the model.
* Mutation becomes state passing. Objects with hidden state (`SensorScanSensorGeneric`, distortions, samplers)
  become explicit state machines.

## Trusted base

* The Lean kernel and the axioms `propext`, `Classical.choice`, `Quot.sound` (checked with `#print axioms`).
* Faithfulness of the hand-written model to `/repo` (the code is never run here).
* Numbers: Python/numpy floats are modelled by real numbers `ℝ`. Rounding, overflow, NaN and infinity are not
  modelled, except NaN as an explicit placeholder value (`Option`) in dot jumps. `uint8` wrap-around is modelled
  only where a definition says so.
* Numpy semantics of `linspace`, slicing, boolean masks, `floor_divide`, in-place writes through views.
* External calls: `np.random.Generator` (its draws are an arbitrary stream, restricted only by the documented
  support of the distribution), `diplib.Label` (arbitrary labelling), `sympy`/`bezier` implicitisation (the
  implicit equation of the quadratic curve, its roots), `scipy.ndimage.convolve1d(mode="reflect")`,
  `gaussian_filter1d`, `colorednoise`.

## Not modelled

The drawing by matplotlib (the calls that the plot function makes are modelled, C82), `__repr__`, docs, warnings (text), performance, float rounding, metadata time stamps, `deepcopy` of
foreign objects, multi-threading.

## Plan per property

| id | model | proof |
|----|-------|-------|
| C01 | `measure` validation as a decision function | case analysis; linspace is a convex combination |
| C02 | same | iff with an independent predicate |
| C03 | same, comparison of `None` is `TypeError` | refutation with witness; partial theorem without limits |
| C04 | anchors, CDFs, `_occupation_func` | counting even rows of the anchor table; bounds of tanh/arctan |
| C05 | 1D/2D region loops over lists of transition values | induction over the list |
| C06 | same plus dictionary lookup | 2D proved, 1D refuted |
| C07, C08 | `tct_bezier` piecewise | algebra on floor/mod; limits at the joints via `ContinuousOn`/`Continuous` |
| C09 | implicit quadratic equation of the Bezier curve | root comparison |
| C10 | LUT argmin | Lipschitz estimate |
| C11 | anchor loop | closed form by induction; membership in the curve |
| C12 | `rotate_points` | trigonometric identities |
| C13 | 2D mask writes | floor bounds, fold over writes |
| C14 | 1D mask loop | induction / closed form of the writes |
| C15 | flips in `ideal_csd_geometric` | list reversal, linspace reversal |
| C16 | CDFs | monotonicity of tanh, arctan |
| C17, C18 | GLF | real powers, exp/log |
| C19 | rise | refuted for mu0 ≠ 0, proved for mu0 = 0 |
| C20 | peaks | exp and rational monotonicity |
| C21, C22 | sensor potential | algebra on linspace; state update |
| C23 | series formula | order arithmetic |
| C24 | point from barrier potentials | linear algebra; refuted in general, partial |
| C25, C26 | scan sensor state machine | witness histories; partial theorems |
| C27, C28 | `measure_sensor_scan` | refuted by witness; partial theorems |
| C29 | label masks | fold invariants |
| C30 | nested loops of `dot_jumps_blockwise` | last-writer invariant by induction |
| C31 | flips in `noise_function` | refuted for both axes descending; partial otherwise |
| C32 | extension grid | refuted; exact deviation given |
| C33 | block generation | induction over blocks |
| C34 | activation state machines | induction over call lists |
| C35, C36 | volt to pixel conversion | refuted with witnesses; partial theorems |
| C37 | Fermi filter with reflect boundary | weighted average lemma |
| C38 | samplers over draw streams | induction on the stream |
| C39 | distortion pipeline with wrapped generator | induction over the list |
| C40, C41 | linear algebra | field arithmetic; refuted for float lines |
| C42, C44 | signed distance | Euclidean geometry; sign refuted |
| C43 | circle deformation | refuted for negative radius; partial for positive |
| C45 | pixel conversion | algebra |
| C46, C47, C48 | config sampler | interval arithmetic; call graph; GLF shift |
| C49 | shapes | array lengths |
| C50 | setters | decision function, refuted for lists |
| C51, C52 | `measure_sensor_scan` validation and run | decision table; refuted by a type check in the label function |
| C53, C54 | peak label loop | fold over the sorted list; refuted for unsorted lists |
| C55, C56, C57 | 1D dot jumps, diagonal buffer, `uint8` arithmetic | exact behaviour, witnesses, partial theorems |
| C58 | white and pink noise | reshape is row-major |
| C59 | default mean of the normal sampler | refuted; partial theorem |
| C60, C61, C62 | geometry sampler as a relation over draw streams | slope bounds; fair streams; labels cover the test image |
| C63 | occupation function of a region | sums of CDF values; refuted without coupling |
| C64, C65 | peak placement and steepest point | pigeonhole on intervals; argmax of the gradient |
| C66 | argument checks of the configuration sampler | decision table and termination |
| C67 | labelled mask and region lookup of an image | sampled points are denser than pixels; discrete crossing argument |
| C68 | the default configuration as literal parameters, `measure` without distortions | numeric bounds of the last transition; slopes |
| C69 | `measure` with all three lists of distortions as arbitrary stateful functions | inductive relation for lists of distortions built from the end of the list; equivalence by reverse induction |
| C70 | `measure` with `SensorGeneric` and the geometric ideal CSD | C69 with empty lists, per-pixel formulas of the sensor |
| C71 | `SensorScanSensorGeneric.sensor_potential`, `sensor_response`, `measure`, `measure_sensor_scan` | per-pixel formulas, composed along the measurement |
| C72 | array attributes of `SensorGeneric` and `SensorScanSensorGeneric`: constructors and setters as programs over a heap of arrays | case analysis of the setters; invariant of shapes by induction over programs |
| C73 | numpy shapes of `ndarray.dot` and `+` in `SensorGeneric.sensor_potential` | characterisation (if and only if); refuted by shapes (2, 1) and (1, 2) |
| C74 | programs over a heap of arrays | invariant (nothing else refers to the array of a generic attribute or to the generic defaults) by induction; refuted for scan sensors by two programs |
| C75 | writes into returned arrays, with truncation in integer arrays | exact behaviour after every program; refuted for the integer defaults |
| C76 | programs with deformation objects, dictionaries and sensors; the registration in the constructor | induction over programs: the last constructor that got a deformation determines its lever arms; refuted by four programs |
| C77 | Python objects in a heap with `deepcopy`; constructor, setters, getters and measurements of `Simulation`; components are arbitrary code | invariant over programs: the objects of a simulation are a part of the heap that is closed under references and that no name of the program leads into; correspondences between heaps for "same content" |
| C78 | as C77; the metadata dictionary of deep copies | the same invariant for the name of the metadata |
| C79 | as C77; a log of drawn random numbers (seed and position) | refuted by a program with one generator in two stages or two simulations; partial: invariant over programs that the reachable generators have different seeds and are ahead of the log |
| C80 | as C78; the program that builds a simulation from metadata | refuted by a distortion that draws one number; actual and partial: correspondences between heaps |
| C81 | `glf`, `multi_glf`, constructors of the barrier and rise classes | limits and derivatives from Mathlib; Bernoulli inequality for the place of maximum growth |
| C82 | arguments of the matplotlib calls of `plot_csd` | explicit form of both figures; the reversal of an axis is a permutation that maps voltages to voltages |
| C83 | the seven distortions of GaAs_v1 with their own states in one measurement | each border request of the dot jumps is again served by the blurred generator (invariant on the generator), shapes are kept by all distortions |
| C84 | dot jumps behind a blurring, with the generator that the simulation passes on | general form of the 1D and 2D jump theorems for an arbitrary generator; the factor from volts to pixels is that of the border request; counterexamples with a Gaussian kernel of radius 0 and 1 |
| C85 | setters and constructors on a heap of objects, arbitrary programs around them | invariant: the part of the heap that a copied configuration leads to is not connected to anything else; two copies are on different sides of such a part; concrete programs for the negations |
| C86 | existing models of `measure`, `measure_sensor_scan` and the scan sensor; a point of a measurement is a relation over all simulations | the signal is computed as function of the point and the offset of the rise; the offset is shown not to matter resp. to be the same; two explicit scans for the negations |
| C87 | the same | the linear system for the open point is solved for the three states in which the code computes it; uniqueness of the solution; explicit scans for the negations |
| C88 | `ExtendedConfig`: the whole configuration with its distortions, built from the models of `measure`, `measure_sensor_scan`, the scan sensor and the distortions; random generators are arbitrary total oracles | the distortion results of C83 are carried over to a state that also holds the ranges stored by the sensor; labels and responses are shown total; explicit runs for the negations |
| C89 | existing models of the extended configuration, GLF barriers and GLF rise | numerical bounds of the logarithms in pinch-off and fully conductive points; C04 bounds the occupations; linear arithmetic over the lever arms; signals via C86 lemmas; two explicit scans for the negation |
| C90 | existing models of transitions, regions and scans | raised voltages move a point in the rotated frame by dy >= abs dx, so curves with slopes in [-1, 1] that are at or below the point stay so (error of the table: C10); the region is the index of the first curve above the point, hence monotone; C05 and C67 connect regions with electrons; explicit table jump for the negation |
| C91 | `Model/SampledSim`: simulation built from a sampled configuration, with all distortions of the sampler | invariants of sampled configurations (C61, C62, C66) give the ideal part; each distortion keeps the shape and succeeds if its telegraph scale is at least one pixel (C36); composition as in C72 and C88 |
| C92 | conductive mask of sensor scans (`Model/SensorScan`) with sampled sensors (`Model/SensorSampler`, `Model/SampledSim`) | bounds of sampled barriers and lever arms from the truncated distributions; linear arithmetic for the potentials at the corners of the regions; counterexample from a steered generator that returns the ends of the intervals |
| C93 | `idealCsd` for lines and images, `measure` without distortions | both evaluations reduced to the occupation function of the region of the pixel (`line_region`, `image_region`); counterexamples with 2 x 2 pixels of a small configuration |
| C94 | `fermi_filter1d` with kernel, radius, axis and mode (`Model/FermiFilter`) | each mode is the unique extension that satisfies its documented symmetries; the filter is a sum over the kernel with weights that are positive, symmetric and sum to 1 |
| C95 | simulations of any shipped components with the memory of every object (`Model/AnySim`) and programs that make any series of calls | relational program logic (`Lemmas/Relate`): two runs from states with equal generators give equal outcomes, where each distortion first overwrites what it later reads; one rule per construct, one lemma per distortion |
| C96 | the memory of every distortion object in simulations of any shipped components (`Model/AnySim`); separate specification of the steps with their reported values (`Spec/Reports`) | each distortion writes what it uses; all later steps, also frozen calls, keep the value (preservation rules derived from the relational ones, `Lemmas/Keeps`); counterexample for scan sensors |
| C97 | objects as dictionaries of attributes, properties and constructors of all component classes as tables (`Model/Parameters`); documented parameters and requirements in `Spec/Parameters` | every property uses its own attribute, so one assignment changes one name; induction over the sequence of assignments; constructors are sequences of assignments |
| C98 | `dot_jumps_blockwise` and `dot_jumps_pixelwise` with jumps that keep their type and arithmetic modulo 256 for numpy >= 2 (`Model/JumpsDirect`); shifted images in `Spec/JumpsDirect` | agreement of the wrapping loops with the loops of the class inside of the image; explicit failing position otherwise; violated with numpy >= 2 |
| C99 | objects as trees, the format strings of all 22 `__repr__` methods as lists of pieces (`Model/Printing`); balanced brackets and equality of objects in `Spec/Printing` | bracket scan with unique split at separators, induction over the tree; tables of format strings checked for every class; violated for multi GLF, rounded arrays and generators |
| C100 | `measureSensorScan` of `Model/SensorScan`; list application as in C69, signal at given potentials in `Spec/ScanPipeline` | unfolding of the monadic run into stages, rows of the potential array as separate signals, induction over the distortion lists |
| C101 | `telegraphTwoScales` in `Model/TwoScales`; regions with their draws as an inductive relation in `Spec/TwoScales` | invariant of the region loop, induction over the remaining iterations, both directions |
| C102 | direct use of the scan sensor and `measureSensorScan`; lines and arcs in the voltage plane in `Spec/PeakShape` | coordinates along and beside the middle line; strict maximum of a peak (C20) and strict monotony of conductances in series (C23); two refutations |
| C103 | labels of `measureSensorScan`; lines of label images and the conductance of a single deformed peak in `Spec/PeakLabels` | the drawn pixel is the nearest one to the position of the peak (C53); heights are ordered by distances (C20); concrete scan as refutation |
| C104 | samplers of C38 with a random initial state of the generator; the distributions of numpy are hypotheses (`NumpyLaws`), met by a generator that reads independent streams | the event that the first accepted draws lie in given sets is a disjoint union over the numbers of rejected draws; product measure of cylinders and geometric series, induction on the number of samples |
| C105 | `random_telegraph_noise` of C33 with a random initial state of the generator; the distribution of `rng.geometric` is a hypothesis (`GeometricDraws`) | a pattern of changed pixels fixes all block lengths but the last, which is bounded from below; induction on the number of pixels changes one factor of the product of the probabilities |
| C106 | all simulations of C96 with a random initial state of the generators; the distribution of `rng.binomial` is a hypothesis (`FlipsCoin`, `CoinDraws`), the generator of the distortion is a part of the generator state that earlier distortions do not touch | the characterisation of measurements of C96, strengthened: objects touch no generator but their own; refuted for scan sensors by computing a scan of two pixels with three independent decisions |
| C107 | all simulations of C96 with white noise as last distortion of the response and a random initial state of the generators; the distribution of `rng.normal` is a hypothesis (`ScaledDraws`, `StandardNormal`) | by the laws of the state monad a measurement is the one without the noise followed by the noise; C96 shows that the other objects leave the generator of the noise alone; then independence and scaling of normal distributions |
| C108 | all simulations of C96 with telegraph noise as last distortion of the response and a random initial state of the generators; the distributions of the draws are a hypothesis (`TelegraphDraws`) | C107 (split of a measurement), C36 (scale in pixels), C106 (ratio) and C105 (law of the switching) |
| C109 | all simulations of C96 with white noise as last distortion of the response; programs are series of successful calls, or one call repeated N times | C107 for every call, the position in the stream by induction over the series; C95 (without distortions every call has always the same outcome); sums of independent normal numbers by induction over N, independence of the pixels by regrouping the stream |
| C110 | `generateJumps` and `telegraphNoise` with a random initial state of the generator | the loop assigns draw b to block b (induction over the loop); the law of the blocks is that of C105; sum over the block that contains the pixels, with independence of lengths and heights |
| C111 | `OccupationDotJumps.noise_function` on a sampled CSD with a random initial state of the generator | a call that draws new jumps equals a frozen call with these jumps, whose image is given by C32; the law of the jumps is that of C110, conditioned on the independent activation; the shift is an injective function of the jump |
| C112 | `reset_offset_mu_sens` with `SensorScanSensorGeneric`, numpy broadcasting of the pixels against the three offsets as a case distinction on the number of pixels | the geometric CSD at resolution 2 always returns two pixels (existence of line scans, C22), so the subtraction raises; witness for the refutation; case distinction for other generators |
| C113 | the sampler of whole configurations with its option for the steepest point, series of `reset_offset_mu_sens` calls, and `measure` | a reset does not depend on the offset before (induction over the calls); C65 for the sampled offset; C70 for the signal; C93 for the occupation of the first pixel; C112 for scan sensors |
| C114 | telegraph noise as last distortion of the response in `measure` and `measure_sensor_scan` | C110 for the signal of one call; condition on the coin that activates the noise; the measurement without the noise leaves its generator alone (C108) |
| C115 | signal distortions of the potential and the response in `measure` and `measure_sensor_scan`, in any order | every noise draws numbers that depend on the shape of the signal only and adds them; calls that do not interact commute; induction over the permutation |
| C116 | several `SensorResponseWhiteNoise` objects at the end of the response distortions | induction over the noises: each adds its own numbers; the numbers of all generators, ordered by pixels, are independent; the sum of independent normal numbers is normal |
| C117 | `measure` with `SensorGeneric` and the geometric ideal CSD | the checks do not depend on the directions; C15 for the ideal data; the sweep voltages are reversed; the response acts pixel by pixel |

## What is modelled

| model file | code | left out |
|------------|------|----------|
| `Py`, `Proc` | exceptions as values; stateful procedures with a random stream | |
| `Support` | `rotate_points`, `signed_dist_points_line`, linear algebra, pixel/volt conversion | |
| `Cdf`, `Glf`, `Peaks` | CDFs, GLF, barrier functions, peaks, final rise | `__repr__`, plain property getters |
| `Tct` | `tct_bezier`, Bezier anchors, initialisation of the transition functions | `bezier`/`sympy` calls are replaced by the closed form of the quadratic curve |
| `Occupation`, `LeadMask`, `IdealCsd` | electron occupations, transition masks, `ideal_csd_geometric`, class wrapper | `dip.Label` is a parameter |
| `Sensor` | `SensorGeneric`, `_reset_offset_mu_sens` | scan sensors in `_reset_offset_mu_sens` (see `ResetScan`) |
| `ScanSensor`, `SensorScan`, `Deformation` | scan sensor, its labels, deformations, `measure_sensor_scan` | |
| `Simulation` | `measure`, setters | metadata dictionary contents |
| `Telegraph`, `DotJumps`, `Blur` | all distortions used by `Simulation` | `_random_telegraph_noise_two_scales` (not called by any class) |
| `Objects` | array attributes of both sensors: defaults, setters, copies and references, in-place writes; shapes of the generic potential | strides and views of numpy arrays, data types other than integer and float |
| `DeformObjects` | references between sensors, dictionaries and deformations | distance from the middle line (see `ScanSensor`), sharing of peak functions (they are copied) |
| `SimObjects` | constructor, setters, getters, measurements and metadata of `Simulation` as shared objects with `deepcopy`; components are arbitrary code | returned arrays, components that keep the sweep ranges, components with global state, iterables other than lists and arrays |
| `Plot` | `plot_csd` with `_plot_csd_1d` and `_plot_csd_2d` as data handed to matplotlib | matplotlib itself, layout, saving |
| `DefaultNoise` | the distortions of GaAs_v1 and their states in one simulation | random numbers (parameters), distortions of GaAs_v2 (see `ExtendedConfig`) |
| `Blur`, `DotJumps` combined | the blurred data requested by dot jumps | other distortions between them |
| `SensorFunctions` | which functions of sensors the setters accept, copy and share | tuples as distinct from lists, attributes that hold no functions, deformations (see `DeformObjects`) |
| `RiseSignal` (no new model) | signal at a point in CSDs and sensor scans, offset of the final rise | peak deformations, distortions of potential and response |
| `ExtendedConfig` | `_default_configs.py`: the configuration "GaAs_v2_extended_sensor" with ideal CSD, sensor, limits and distortions | seeds of the generators, other configuration names |
| `ExtendedRegions` (no new model) | regions of the sensor of "GaAs_v2_extended_sensor" | the region between -0.7 V and -0.3 V |
| `ChargeMonotone` (no new model) | electrons at raised plunger voltages | labelled pixels |
| `SampledSim` | `Simulation(**sample_random_variations_v3_config(...))`: measurements and sensor scans | drawing of strengths, noise and generators are parameters (trusted: they succeed for proper arguments) |
| `FermiFilter` | `fermi_filter1d` for lines and images, all modes | more than two axes, integer arrays (SciPy by its documentation) |
| `AnySim` | simulations made of any shipped components, with the memory of each object; programs that make series of calls | user-defined components |
| `Parameters` | properties, setters and constructors of peaks, barrier and rise functions, deformations, distortions and the ideal data as objects with attributes | printing (`__repr__`), `sensor` of deformations (see `DeformObjects`) |
| `JumpsDirect` | direct calls of `dot_jumps_blockwise` and `dot_jumps_pixelwise`, uint8 jumps with numpy before and from version 2 | given jumps and NaN in `dot_jumps_pixelwise` |
| `Printing` | `__repr__` of peaks, barrier and rise functions, deformations, samplers, distortions, sensors, ideal data and the simulation | printing of floats and arrays (parameters), elements of tuples other than Python numbers |
| `TwoScales` | telegraph noise with two scales | numpy numbers as scales |
| `ResetScan` | `_reset_offset_mu_sens` with `SensorScanSensorGeneric` | |
| `DefaultConfigs` | ideal CSD of both default configurations, limits and sensor of GaAs_v1 | scan sensor and distortions of GaAs_v2 (see `ExtendedConfig`), distortions of GaAs_v1 (see `DefaultNoise`) |
| `Samplers`, `GeometrySampler`, `SensorSampler`, `ConfigSampler` | parameter samplers and the configuration sampler | bit streams of the generators |

Not covered at all: the interface classes (abstract signatures only).

## Results per property

Status, theorems and remarks. `_refuted` proves the negation of the property of the model with a concrete witness,
`_actual` states what the code does instead, `_partial` proves the property under the named restriction.
Every theorem depends on at most `propext`, `Classical.choice`, `Quot.sound`.

* **C01** (proved) measure enforces the configured voltage limits. measure fails before any component is called (state unchanged for arbitrary components); every pixel voltage of a successful measurement respects the limits. Theorems: `C01_plunger`, `C01_sensor`, `C01_within`, `C01_no_effect` (in `Props/Simulation`).
* **C02** (proved) measure accepts exactly the well-formed requests. Exact decision table of the ten checks; TypeError only for incomparable None (see C03). Theorems: `C02_accepts`, `C02_rejects`, `C02_ranges` (in `Props/Simulation`).
* **C03** (partial) sensor voltages can be omitted. Refuted: TypeError as soon as a sensor limit is configured. C03_partial characterises exactly when omission works. Theorems: `C03_refuted`, `C03_partial` (in `Props/Simulation`).
* **C04** (proved) the occupations of a pixel add up to its total charge number. Each region distributes its total charge over the dots, for 1D and 2D scans and the public function. Theorems: `C04_1d`, `C04_2d`, `C04_ideal` (in `Props/Occupation`).
* **C05** (proved) the charge region is fixed by the first transition above the point. The region of every pixel is the first TCT above it, for 1D and 2D; both dimensions agree below the last TCT. Theorems: `C05_api_1d`, `C05_curves_exist`, `C05_region_2d`, `C05_region_1d`, `C05_same` (in `Props/IdealApi`, `Props/Occupation`).
* **C06** (partial) a point beyond the last known transition is never reported as empty. 2D proved (IndexError when a pixel is beyond the last TCT). 1D refuted: such pixels silently get the occupation of region 0. For images below the last transition C06_image_actual has the exact condition. Theorems: `C06_image_actual`, `C06_2d_partial`, `C06_1d_refuted`, `C06_1d_witness` (in `Props/ImageDecision`, `Props/Occupation`).
* **C07** (proved) total charge transitions are continuous. Continuity on the whole line, with and without max_peaks; array and scalar interface agree. C07_minimum_jumps shows that the slope condition is needed. Theorems: `C07_continuous`, `C07_minimum_jumps` (in `Props/Tct`).
* **C08** (proved) total charge transitions are periodic up to a constant offset and end in straight lines. Period shift, outer lines, and exact description as rounded zigzag. Theorems: `C08_period`, `C08_outer_lines`, `C08_rounded_zigzag` (in `Props/Tct`).
* **C09** (proved) explicit Bezier evaluation returns the point of the curve. Exact characterisation of the returned value as curve point; discriminant never negative; counterexample without the slope condition. Theorems: `C09_explicit_is_bezier`, `C09_center_is_intersection`, `C09_discriminant_nonneg`, `C09_minimum_wrong_root` (in `Props/Tct`).
* **C10** (proved) lookup-table evaluation has a bounded error. Global error bound and exactness at the arc ends. Theorems: `C10_lut_error`, `C10_lut_exact_at_ends` (in `Props/Tct`).
* **C11** (proved) Bezier anchors belong to their transition. Row count, anchors on the curve, centre anchors, missing keys. Theorems: `C11_anchors`, `C11_missing_keys` (in `Props/Tct`).
* **C12** (proved) rotation is an isometry with an inverse. Isometry, orientation, additivity and inverse of rotate_points over the reals. Theorems: `C12_rotate_isometry`, `C12_rotate_area`, `C12_rotate_add`, `C12_rotate_inverse`, `C12_rotate_quarter` (in `Props/Geometry`).
* **C13** (proved) 2D transition labels are placed inside the image and near the transition. Exact description of the 2D lead mask and of every label, sampling density of the curve. Labels are natural numbers; the code stores them as unsigned 8-bit integers, which is the same for fewer than 256 transitions (sampled configurations: C61_bounded). Theorems: `C13_label_is_region`, `C13_mask_2d`, `C13_label_near`, `C13_sampling_covers` (in `Props/IdealCsd`, `Props/LeadMask`).
* **C14** (partial) 1D transition labels mark the side with more electrons. Exact description of the 1D lead mask for at most 255 electrons in every pixel (C14_mask_1d_partial). With more electrons it is violated, because the labels are unsigned 8-bit integers: C14_refuted. C14_mask_general is the exact behaviour in all cases. Theorems: `C14_mask_general`, `C14_mask_1d_partial`, `C14_refuted` (in `Props/LeadMask`).
* **C15** (proved) reversing a sweep mirrors the ideal data. Mirroring for both gates in 2D and the direction of 1D sweeps, through the public function. Theorems: `C15_2d_gate1`, `C15_2d_gate2`, `C15_2d_both`, `C15_2d_voltages`, `C15_1d`, `C15_api_2d`, `C15_api_1d` (in `Props/IdealCsd`).
* **C16** (proved) the occupation CDFs are CDFs. Both CDF types, including the numerically zero width. Theorems: `C16_sigmoid_cdf`, `C16_cauchy_cdf`, `C16_step` (in `Props/Cdf`).
* **C17** (proved) inverse_glf inverts glf. Round trips, range and monotonicity over the reals. Theorems: `C17_inverse_glf_glf`, `C17_glf_inverse_glf`, `C17_glf_inverse_glf_range`, `C17_glf_between`, `C17_glf_monotone`, `C17_glf_offset` (in `Props/Glf`).
* **C18** (partial) pinch-off and fully-conductive points of a GLF barrier are attained. Holds for denominator_offset = 1 (C18_barrier_points_partial, C18_pinch_off_separates_partial). For other values the documented right asymptote is not asymptote_right, but the points are computed from asymptote_right: the value at the pinch-off point is then not the percentage of the distance of the asymptotes (C18_refuted), and for denominator_offset > 1 there may be no point with the value (C18_points_refuted; the code returns nan). C18_barrier_points_actual says exactly when the points exist, C18_order and C18_between hold for any positive denominator offset. Theorems: `C18_barrier_points_partial`, `C18_barrier_order`, `C18_barrier_between`, `C18_pinch_off_separates_partial`, `C18_asymmetry`, `C18_multi_single`, `C18_multi_sum`, `C18_barrier_points_actual`, `C18_refuted`, `C18_points_refuted`, `C18_between`, `C18_order` (in `Props/Glf`, `Props/GlfOffset`).
* **C19** (partial) the final rise becomes fully conductive at the requested offset. Refuted for mu0 != 0; proved exactly for mu0 = 0 (C19_rise_iff). Theorems: `C19_rise_partial`, `C19_rise_position`, `C19_rise_iff`, `C19_refuted` (in `Props/Glf`).
* **C20** (proved) sensor peaks are peaks. Gaussian and Lorentzian peaks; validation of the width. Theorems: `C20_peak`, `C20_width_validation`, `C20_lorentz_half_width` (in `Props/Peaks`).
* **C21** (proved) the sensor potential is affine in voltages and occupations. Per-pixel formula, additivity, mirroring. Theorems: `C21_response`, `C21_sweep_ends`, `C21_potential_2d`, `C21_potential_1d`, `C21_empty`, `C21_additive`, `C21_mirror` (in `Props/Pipeline`, `Props/Sensor`).
* **C22** (partial) reset_offset_mu_sens puts the sensor on the requested potential. SensorGeneric: proved for 1D scans, with the geometric ideal CSD for all of them (C22_reset_geometric); the call always succeeds. For images it needs that the first pixel has the occupation of the first pixel of the line that the reset evaluates (C22_reset_2d_partial); this can fail in images with wide and low pixels: C22_refuted. For the geometric CSD it holds in images with small pixels and correct label of the first pixel (C22_image_partial), for sampled configurations with pixel sides of at least 0.06 mV that differ by at most a factor of 3 and an unlabelled first pixel (C22_image_sampled_partial). Scan sensors: see C112. Theorems: `C22_refuted`, `C22_image_partial`, `C22_image_sampled_partial`, `C22_succeeds`, `C22_reset_1d`, `C22_reset_2d_partial`, `C22_idempotent`, `C22_reset_geometric` (in `Props/ResetImage`, `Props/ResetScan`, `Props/Sensor`).
* **C23** (proved) the series sensor response is bounded by its parts. Series law, zero cases, positivity, bounds, symmetry, monotonicity, lifted to sensor_response. Theorems: `C23_series_law`, `C23_zero`, `C23_pos_iff`, `C23_bounds`, `C23_symmetric`, `C23_monotone`, `C23_response`, `C23_response_bounds` (in `Props/ScanSensor`).
* **C24** (partial) sensor voltages computed for target barrier potentials realise them. C24_actual states the exact offsets used by the code. Proved (C24_partial) where the two deviations vanish; refuted otherwise: the occupation of dot 2 is replaced by that of dot 1, and in CSDs the voltage of sensor gate 1 is used for both sensor gates. Theorems: `C24_actual`, `C24_partial`, `C24_refuted`, `C24_csd_refuted` (in `Props/ScanSensor`).
* **C25** (partial) the scan sensor response is a function of the potential. Refuted: with a final rise sensor_response overwrites the stored scan. Proved without a final rise and for fresh potentials. Theorems: `C25_unchanged`, `C25_repeat_partial`, `C25_history_partial`, `C25_fresh_partial`, `C25_refuted` (in `Props/ScanSensor`).
* **C26** (partial) sensor scans evaluate deformed peaks at the swept voltages. Refuted for measure_sensor_scan: computing the labels replaces the stored sweep, so all pixels are bent with one voltage point (C26_actual, C26_refuted). Proved for direct use of the sensor. Theorems: `C26_direct_partial`, `C26_actual`, `C26_refuted` (in `Props/SensorScan`).
* **C27** (partial) sensor scans accept every documented form of resolution. Refuted: with a CSD configuration and plunger voltages every int resolution raises TypeError; without configuration every one-element array raises IndexError. C27_partial covers the two forms that work. Theorems: `C27_partial`, `C27_image`, `C27_int_refuted`, `C27_array_refuted` (in `Props/SensorScan`).
* **C28** (partial) sensor scan distortions receive the sweep ranges of their own axes. Potential distortions proved; response distortions refuted (range of sensor gate 1 is passed twice). Theorems: `C28_potential_partial`, `C28_response_actual`, `C28_response_partial`, `C28_refuted` (in `Props/SensorScan`).
* **C29** (partial) sensor scan labels are consistent. Consistency of both masks, nearest pixels of undeformed peaks, and the threshold of the open region for equal plunger voltages are proved, also for whole scans and images (`C29_regions_partial`, with `C29_regions_actual` for different plunger voltages); every pixel with both barriers beyond fully conductive is in the open region (`C29_open_partial`); refuted: region 2 does not imply that both barriers are fully conductive, and for different plunger voltages the threshold is computed at wrong voltages. Theorems: `C29_labels_1d_partial`, `C29_labels_2d_partial`, `C29_threshold_partial`, `C29_open_refuted`, `C29_threshold_refuted`, `C29_regions_actual`, `C29_regions_partial`, `C29_open_partial` (in `Props/Labels`, `Props/ScanRegions`).
* **C30** (proved) dot jumps shift each pixel by its own jump. Both axes, blockwise and pixelwise, errors for short jump lists, scale 0, independence of the uninitialised target. Theorems: `C30_axis1`, `C30_axis0`, `C30_no_jump`, `C30_no_garbage`, `C30_scale_zero`, `C30_error`, `C30_pixelwise` (in `Props/DotJumps`).
* **C31** (partial) dot jumps act from low to high voltage for every sweep direction. Refuted if both axes are swept from high to low; proved for the other three direction combinations. Theorems: `C31_partial`, `C31_refuted` (in `Props/DotJumpsScan`).
* **C32** (partial) pixels shifted in at the border come from the pixel grid. Refuted: data from outside the image is taken with the step range/n instead of range/(n-1). Proved for sources inside the image; exact deviation proved. Theorems: `C32_axis1_actual`, `C32_axis0_actual`, `C32_partial`, `C32_deviation`, `C32_refuted` (in `Props/DotJumpsScan`).
* **C33** (proved) telegraph noise is a two-state signal of the right length. Two-state signal of the right length for every outcome, for telegraph noise and dot jumps. Theorems: `C33_jumps`, `C33_jumps_scale_zero`, `C33_jumps_total`, `C33_telegraph`, `C33_total`, `C33_scale_zero` (in `Props/DotJumps`, `Props/Telegraph`).
* **C34** (proved) an inactive distortion changes nothing and a frozen one reuses its decision. Telegraph noise, dot jumps and blurring: inactive calls, frozen calls, any number of frozen calls, repetition of the last unfrozen call. Theorems: `C34_blur_fresh`, `C34_blur_frozen`, `C34_blur_repeat`, `C34_blur_frozen_many`, `C34_blur_inactive`, `C34_dots_inactive`, `C34_dots_frozen_inactive`, `C34_dots_frozen_state`, `C34_dots_frozen_many`, `C34_dots_repeat`, `C34_rtn_inactive`, `C34_rtn_active` (in `Props/Blur`, `Props/DotJumps`, `Props/Telegraph`).
* **C35** (partial) telegraph noise can be applied at every resolution. Refuted: a scale below one pixel raises ValueError. Proved for scales of at least one pixel. Theorems: `C35_partial`, `C35_actual`, `C35_refuted` (in `Props/Telegraph`).
* **C36** (partial) scales in volts are converted with the resolution of their own axis. Refuted for non-square images (telegraph noise, dot jumps, blurring), proved for square images and 1D scans. Theorems: `C36_blur_actual`, `C36_blur_partial`, `C36_blur_refuted`, `C36_dots_actual`, `C36_dots_partial`, `C36_dots_refuted`, `C36_dots_call`, `C36_rtn_actual`, `C36_rtn_constant_actual`, `C36_rtn_partial`, `C36_rtn_1d`, `C36_rtn_refuted`, `C36_rtn_call` (in `Props/Blur`, `Props/DotJumpsScan`, `Props/Telegraph`).
* **C37** (proved) blurring is an average. Fermi-Dirac and Gaussian blurring: weights, constants, bounds, sums, mirror; scipy convolve1d/gaussian_filter1d are modelled as documented. Theorems: `C37_average`, `C37_total`, `C37_rows`, `C37_line`, `C37_sum`, `C37_mirror` (in `Props/Blur`).
* **C38** (proved) samplers return values from their range. All four samplers, all executions; redraw loops are a relation, so termination is characterised (first accepted draw) but not claimed. C38_never: ranges without any acceptable value. Theorems: `C38_samplers`, `C38_first`, `C38_deterministic`, `C38_drawn`, `C38_never` (in `Props/Samplers`).
* **C39** (proved) occupation distortions are applied in order on the distorted CSD. For arbitrary stateful distortions and lists of any length. Theorems: `C39_order`, `C39_measure`, `C39_pure` (in `Props/Simulation`).
* **C40** (proved) line and circle intersections are sound and complete. line_line_intersection and line_circle_intersection return exactly the common points; error branches covered. Theorems: `C40_line_line`, `C40_line_line_parallel`, `C40_line_vertical`, `C40_vertical_vertical`, `C40_bad_length`, `C40_line_circle`, `C40_vertical_circle`, `C40_radius` (in `Props/Geometry`).
* **C41** (partial) is_point_below_line accepts every documented line. Refuted for horizontal lines given as float (ValueError); proved for int lines and (m, b) tuples. Theorems: `C41_point_below_line_partial`, `C41_float_line_rejected`, `C41_refuted` (in `Props/Geometry`).
* **C42** (proved) signed distances measure distances. |signed distance| is the minimum distance; sign, invariance and reversal. Theorems: `C42_signed_dist_is_distance`, `C42_signed_dist_sign`, `C42_signed_dist_support`, `C42_signed_dist_reverse` (in `Props/Geometry`).
* **C43** (partial) deformed peaks follow the documented circle. Refuted for negative radii (jump at the radius) and for the unit of the radius; fixed point, evenness and the circle equation proved for both signs, everything else for positive radii. Theorems: `C43_fixed_on_middle_line`, `C43_even`, `C43_on_circle`, `C43_positive_radius_partial`, `C43_negative_radius_refuted`, `C43_unit_refuted`, `C43_linear` (in `Props/Deformation`).
* **C44** (partial) distances above the middle line are positive. Refuted: the sign is exactly opposite to the documentation. The magnitude and the negated sign are proved. Theorems: `C44_refuted`, `C44_negated_partial`, `C44_linear_deformation_refuted` (in `Props/Deformation`).
* **C45** (proved) pixel and voltage coordinates agree. pixel_to_volt_1d with n-1 equals linspace; one-pixel scans raise ZeroDivisionError. Theorems: `C45_pixel_to_volt`, `C45_pixel_step`, `C45_single_pixel` (in `Props/Geometry`).
* **C46** (proved) sampled configurations are valid. Geometry (C46_geometry), generic sensor and scan sensor, for every finishing run with any valid generator; the scan sensor theorem assumes that no normal draw is exactly 0 (a division by it raises ZeroDivisionError). Theorems: `C46_geometry`, `C46_sensor_generic`, `C46_sensor_scan` (in `Props/GeometrySampler`, `Props/SensorSampler`).
* **C47** (partial) the quality multiplier restricts the distortions. Refuted: the configuration sampler calls the distortion samplers without the multiplier, so that all distortions are those for multiplier 1. Proved for the individual samplers. Theorems: `C47_samplers_partial`, `C47_actual`, `C47_refuted` (in `Props/ConfigSampler`).
* **C48** (proved) sampled barriers pinch off at the sampled offset. For all offsets, heights, multipliers and random outcomes; C48_scan for the barriers of complete sensors. Theorems: `C48_pinch_off`, `C48_shifted`, `C48_scan` (in `Props/SensorSampler`).
* **C49** (partial) measured arrays have the requested shape. Proved for the geometric CSD with SensorGeneric and any shape-preserving distortions; refuted for an empty peak list (C49_refuted: the signal of a measured image is a number). Theorems: `C49_refuted`, `C49_ideal`, `C49_measure_partial`, `C49_empty_peaks_refuted` (in `Props/EmptyPeaks`, `Props/Simulation`).
* **C50** (partial) voltage limit setters accept what they document. Refuted for lists (AttributeError); proved for all other values. Theorems: `C50_partial`, `C50_list_refuted`, `C50_distortions` (in `Props/Simulation`).
* **C51** (proved) sensor scan validation is a complete decision. Decision table, no effect of rejected scans, all used sensor voltages within the limits. Theorems: `C51_accepts`, `C51_no_effect`, `C51_within` (in `Props/SensorScan`).
* **C52** (partial) integer plunger voltages work in sensor scans. Refuted: no sensor scan with an int plunger voltage succeeds, because the label computation insists on float. Theorems: `C52_refuted` (in `Props/SensorScan`).
* **C53** (partial) labels use the deformation of their own peak. Refuted for unsorted peak lists, proved for sorted ones. C103 compares the labels with the tops of the deformed peaks in the signal. Theorems: `C53_partial`, `C53_refuted` (in `Props/Labels`).
* **C54** (partial) peak labels ascend with the potential. Refuted for unsorted peak lists, proved for sorted ones without deformations. Theorems: `C54_partial`, `C54_refuted` (in `Props/Labels`).
* **C55** (partial) dot jumps work in every 1D scan. Refuted for fixed gates, jumps along gate 2 and opposite sweep directions; proved for jumps along gate 1 in all scans without opposite sweep directions (step range/n), with new and with frozen noise; the exact behaviour for opposite directions is proved, too. Theorems: `C55_actual`, `C55_partial`, `C55_gate2_refuted`, `C55_fixed_refuted`, `C55_direction_refuted`, `C55_new_noise`, `C55_directions_partial`, `C55_opposite_actual` (in `Props/DotJumpsScan`, `Props/JumpScans`).
* **C56** (partial) dot jumps work for 1D scans of any length. Refuted for numpy 2 (OverflowError above 256 pixels, NaN below); proved for numpy 1. Theorems: `C56_partial`, `C56_refuted`, `C56_nan_refuted` (in `Props/DotJumpsScan`).
* **C57** (partial) dot jumps have the height that was drawn. Refuted: heights are reduced modulo 256. Proved for draws below 256. Theorems: `C57_partial`, `C57_refuted` (in `Props/DotJumps`).
* **C58** (proved) white and pink noise are added pixel by pixel. For every outcome of the generator with the requested number of values. Theorems: `C58_noise` (in `Props/Telegraph`).
* **C59** (partial) the default mean of a normal sampler is the centre of the total range. Refuted for narrowed ranges (the centre of the narrowed range is used); proved for ranges that are not narrowed. Theorems: `C59_actual`, `C59_partial`, `C59_refuted` (in `Props/Samplers`).
* **C60** (proved) the transitions of a sampled configuration never cross. For every finishing run of the sampler with any valid generator. Theorems: `C60_ordered`, `C60_count`, `C60_slopes` (in `Props/GeometrySampler`).
* **C61** (proved) sampling a configuration ends. The rejection loops for the lead angle and the interdot ratio end if accepted values are drawn (hypotheses of C61_ends), in particular for every fair generator (C61_fair_ends). Theorems: `C61_fair_ends`, `C61_loop_ends`, `C61_ends`, `C61_bounded` (in `Props/ConfigSampler`, `Props/GeometrySampler`).
* **C62** (partial) sampled configurations can be measured in their whole voltage range. Refuted: 2 x 2 pixels over the whole range always raise IndexError. Proved for all 1D scans and for all images with pixels up to 0.14 V / 12. For all other images the exact condition is proved (C62_image_actual: a sampled point of the last transition lies in the image or less than half a pixel outside). Theorems: `C62_refuted`, `C62_2d_partial`, `C62_1d_partial`, `C62_image_actual` (in `Props/GeometrySampler`, `Props/ImageDecision`).
* **C63** (partial) electrons pass to the first dot from left to right. Refuted without tunnel coupling: the electrons sit in the wrong dot. Proved for every transition with coupling: exact sum, monotonicity and limits; for sampled configurations also in terms of gate voltages. Theorems: `C63_sum_partial`, `C63_1d_partial`, `C63_2d_partial`, `C63_monotone_partial`, `C63_limits_partial`, `C63_uncoupled_actual`, `C63_refuted`, `C63_sampled_1d`, `C63_sampled_2d` (in `Props/Interdot`, `Props/InterdotSampled`).
* **C64** (proved) sampled sensor peaks are separated and placing them ends. The uncompensated generic sensor needs a potential range of positive length (hypothesis of C64_ends); C64_degenerate: for the single choice of lever arms with an empty range the search never ends. Theorems: `C64_separated`, `C64_room`, `C64_ends`, `C64_compensated_ends`, `C64_scan_ends`, `C64_degenerate` (in `Props/SensorPlacement`).
* **C65** (proved) the steepest point is on the steepest rising flank. For every finishing run with any valid generator. Theorems: `C65_steepest` (in `Props/SteepestPoint`).
* **C66** (proved) the configuration sampler accepts exactly the valid arguments. Scan sensors assume that no normal draw is exactly 0; ending of uncompensated generic sensors assumes a potential range of positive length, see C64. Theorems: `C66_quality`, `C66_type`, `C66_valid`, `C66_ends` (in `Props/ConfigSampler`).
* **C67** (partial) every pixel of an image has the electrons of its own voltages. Refuted: with elongated pixels a transition can pass between the sampled points, and the pixels on both sides get the electrons of one of them. Proved for all images whose pixel sides exceed the distance of the sampled points, in particular for sampled configurations with pixel sides of at least 0.06 mV that differ by at most a factor of 3, and the same for the default configurations; labelled pixels in all images. Theorems: `C67_default`, `C67_labelled`, `C67_partial`, `C67_sampled`, `C67_refuted` (in `Props/DefaultConfigs`, `Props/IdealApi`).
* **C68** (partial) the default configuration can be measured everywhere in its voltage limits. Refuted: square images of the whole voltage range with fewer than 29 x 29 pixels raise IndexError, because the half-pixel margin around the image reaches the last of the 14 transitions; C68_whole_actual proves this for 2 to 28 and that all with at least 29 are returned. Proved: all 1D scans with at least one pixel, and all images whose pixel sides add up to at most 8.8 mV, for both sweep directions. All other images: C68_image_actual proves that exactly those raise IndexError that sample a point of the last transition in the image or less than half a pixel outside. These theorems are about the configuration without its random distortions; C83 covers it with them. Theorems: `C68_image_partial`, `C68_line_partial`, `C68_coarse_refuted`, `C68_whole_actual`, `C68_image_actual` (in `Props/DefaultConfigs`, `Props/DefaultImages`, `Props/ImageDecision`).
* **C69** (proved) every distortion acts on its own stage and in the order of its list. Success is characterised exactly (if and only if) for single and multiple potentials; exceptions at the level of one distortion list and, for the response distortions, of measure. Theorems: `C69_measure`, `C69_exception`, `C69_measure_exception`, `C69_pointwise` (in `Props/Pipeline`).
* **C70** (partial) a measurement without distortions is the sensor signal of the ideal data. Proved for 2D and 1D scans with the generic sensor and a list of peak functions that is not empty (or None). With an empty list, which the sensor accepts, it is violated: the whole signal is the number 0 (C70_refuted, C70_empty_actual). Scan sensors: C71. Theorems: `C70_empty_actual`, `C70_refuted`, `C70_image_partial`, `C70_line_partial` (in `Props/EmptyPeaks`, `Props/Pipeline`).
* **C71** (proved) a sensor with barriers reports the series signal at the potentials of the pixel. Potentials for all sensors; signals without peak deformations, final rise, and potential and response distortions (occupation distortions are allowed in measure). Theorems: `C71_potential_2d`, `C71_potential_1d`, `C71_rejects`, `C71_measure`, `C71_scan` (in `Props/ScanSignal`).
* **C72** (proved) setters and constructors of sensors store the documented configuration or change nothing. Array attributes; the object attributes (peak functions, barriers, rise) are covered by C85. Theorems: `C72_set`, `C72_generic`, `C72_scan`, `C72_invariant` (in `Props/Objects`).
* **C73** (partial) accepted lever arms can be used for every scan. Refuted: arrays of shape (2, 1) and (1, 2) are accepted, but the potential then has a wrong shape or ValueError is raised. Proved: exactly the shape (2,) works, for scans with any number of axes. Theorems: `C73_partial`, `C73_refuted` (in `Props/Objects`).
* **C74** (partial) sensors are independent of each other and of the arrays passed to them. Proved for SensorGeneric (attributes and defaults). Refuted for SensorScanSensorGeneric: default arrays of shape (3, 2) are shared by all sensors, and a (3, 2) array that is passed stays shared with the caller. For attributes set by None, one pair or one number it is proved. Theorems: `C74_generic_partial`, `C74_generic_default_partial`, `C74_scan_partial`, `C74_default_refuted`, `C74_argument_refuted` (in `Props/Objects`).
* **C75** (partial) adjustments of a returned configuration are used as given. Refuted for integer arrays, which the defaults are: setting a lever arm to -0.5 gives 0. Proved for float arrays; the exact behaviour is given for both. Theorems: `C75_actual`, `C75_partial`, `C75_refuted` (in `Props/Objects`).
* **C76** (partial) deformations use the lever arms of the sensor whose peaks they deform. Refuted in four ways: a deformation object used by two sensors takes the lever arms of the last one; deformations assigned (or peaks added) after construction fail with AttributeError; the default dictionary is shared by all sensors; a constructor that raises ValueError breaks the sensor that used the deformation before. Proved: exact behaviour after every program, and the property for deformations passed to one constructor only. Theorems: `C76_actual`, `C76_unset_actual`, `C76_partial`, `C76_assigned`, `C76_shared_refuted`, `C76_later_refuted`, `C76_default_refuted`, `C76_failed_refuted` (in `Props/DeformObjects`).
* **C77** (proved) a simulation is changed only through its own interface. Objects live in a heap and programs may share and change them arbitrarily; the code of the components is a parameter (any code that starts from the objects handed to it). The isolation theorem assumes that the program never called a getter of that simulation, as getters return the configuration by reference as documented (C77_adjust). Theorems: `C77_set_accepts`, `C77_set_stores`, `C77_constructed`, `C77_isolated`, `C77_measure_keeps`, `C77_adjust` (in `Props/SimObjects`).
* **C78** (proved) the metadata of a measurement are an independent record. The metadata contain the configuration after the measurement (with the generators advanced), see C80 for what this means for repeating a measurement. Theorems: `C78_content`, `C78_snapshot` (in `Props/SimObjects`).
* **C79** (partial) no random number is used twice. False of the code: each list of distortions and each simulation gets its own deep copy, so distortions that were made with one generator (which is the case for the shipped distortions with their default rng, evaluated once per signature) use the same random numbers in different stages and in different simulations (C79_stages_refuted, C79_simulations_refuted, C79_refuted; C79_simulations_actual: two simulations made from the same objects use exactly the same numbers). C79_partial: if the generators that the components can reach after construction have different seeds, no number is used twice over all later measurements. A random number is identified by seed and position; distinctness of the values is up to numpy. Theorems: `C79_simulations_actual`, `C79_stages_refuted`, `C79_simulations_refuted`, `C79_refuted`, `C79_partial` (in `Props/SimNoise`).
* **C80** (partial) a measurement can be repeated from its metadata. False of the code: the metadata are copied after the measurement, with the generators advanced (C80_refuted). C80_actual: a simulation created from the metadata has exactly the configuration after the measurement. C80_partial: for components that neither change objects nor draw random numbers it has the configuration that the measurement started with. Theorems: `C80_actual`, `C80_refuted`, `C80_partial` (in `Props/SimNoise`).
* **C81** (proved) the parameters of barrier and rise functions act as documented. For positive shape factor and denominator offset; for other values the base of the power can be negative (nan in numpy), which is outside of the model. Theorems: `C81_asymptotes`, `C81_right`, `C81_mirror`, `C81_offset`, `C81_shape_factor`, `C81_steepest`, `C81_asymmetry`, `C81_checks`, `C81_multi` (in `Props/GlfShape`).
* **C82** (proved) plots show the measured values at the voltages at which they were measured. About the arguments of the calls of matplotlib; the text of a rounded number is a parameter. Theorems: `C82_image`, `C82_image_direction`, `C82_line`, `C82_line_direction`, `C82_line_gate2`, `C82_errors` (in `Props/Plot`).
* **C83** (partial) the default configuration can be measured with all of its distortions. Proved for images with a pixel of at most 8.8 mV (sum of sides) and 1D scans of both gates with at most 22.37 mV per pixel; with numpy 2 up to 256 rows or pixels. Refuted for sweeps of one gate (1% of the scans), for 1D scans with up to 6 pixels and, with numpy 2, for more than 256 rows or pixels. The random numbers are arbitrary values in their documented ranges. Theorems: `C83_image_partial`, `C83_line_partial`, `C83_fixed_refuted`, `C83_line_coarse_refuted`, `C83_line_refuted`, `C83_image_refuted` (in `Props/DefaultNoise`).
* **C84** (partial) data shifted into a scan by dot jumps is blurred like the scan. Proved for 1D scans, and for jumps of at most one pixel along gate 2 in square images. Refuted for images: the border is generated as an image of its own, so its width is computed from its own number of pixels (or range); a border of one column is blurred along gate 2. The exact widths are proved. 1D scans are proved from the ideal data to the end of the loop over the distortions, with new noise, for both directions; images ascending. Theorems: `C84_line_partial`, `C84_axis1_actual`, `C84_axis1_one_actual`, `C84_axis0_actual`, `C84_image_partial`, `C84_axis1_refuted`, `C84_axis0_refuted`, `C84_scan_partial`, `C84_new_noise` (in `Props/JumpBlur`, `Props/JumpScans`).
* **C85** (partial) each sensor has its own peak, barrier and rise functions. Acceptance, stored configuration and error behaviour are proved for all three kinds of functions and both classes. Own functions are proved for peaks, and for one barrier function passed for both barriers. Refuted for rise functions and for sequences of two barrier functions, which the setters store without a copy; the list can even become invalid behind the check of the setter. Theorems: `C85_set`, `C85_constructed`, `C85_peaks`, `C85_isolated_partial`, `C85_barriers_separate`, `C85_barriers_adjust`, `C85_adjust`, `C85_shared_actual`, `C85_rise_refuted`, `C85_barriers_refuted`, `C85_checked_refuted` (in `Props/SensorFunctions`).
* **C86** (partial) the signal at a point does not depend on the scan it is part of. Proved for sensors without final rise and deformations, for CSDs and sensor scans together. With a final rise proved among sensor scans, and among CSDs with the same start. Refuted with a final rise for two CSDs with different starting points, and for a CSD and a sensor scan. Theorems: `C86_partial`, `C86_scan_partial`, `C86_start_partial`, `C86_refuted`, `C86_scan_refuted` (in `Props/RiseSignal`).
* **C87** (partial) the final rise begins where both barriers are fully conductive. Proved for sensor scans with equal plunger voltages (and equal occupations, or a barrier 1 that does not feel dot 2), and for the first pixel of CSDs with a fixed plunger gate. The exact point that the code uses is proved for sensor scans and both kinds of CSDs. Refuted for sensor scans with different plunger voltages and for CSDs over both plunger gates. Theorems: `C87_scan_actual`, `C87_scan_partial`, `C87_csd_actual`, `C87_csd_both_actual`, `C87_csd_partial`, `C87_scan_refuted`, `C87_csd_refuted` (in `Props/RiseSignal`).
* **C88** (partial) measurements with the extended default configuration succeed. Proved for images and lines with given sensor gate voltages up to a pixel size (and 256 rows with numpy 2), and for sensor scan images and lines up to a pixel size. Refuted for CSDs without sensor gate voltages (TypeError), for 1D scans of one plunger gate with active dot jumps (ValueError), for 1D sensor scans with the number of pixels given in the wrong one of two forms (TypeError, IndexError) and for coarse sensor scans with active telegraph noise (ValueError). Theorems: `C88_image_partial`, `C88_line_partial`, `C88_omitted_refuted`, `C88_fixed_refuted`, `C88_scan_image_partial`, `C88_scan_line_partial`, `C88_scan_int_refuted`, `C88_scan_array_refuted`, `C88_scan_coarse_refuted` (in `Props/ExtendedConfig`).
* **C89** (partial) the limits of the extended default configuration contain the closed and the open sensor. Labels of sensor scans are proved with all distortions, signals of sensor scans and of CSDs with closed sensor without distortions. Refuted for CSDs with open sensor: with both sensor gates at -0.28 V the signal at the upper plunger limits is at least 0.0599 in a diagonal scan upwards and at most 0.003 in the same scan downwards. Theorems: `C89_labels`, `C89_signal_partial`, `C89_csd_closed_partial`, `C89_csd_start_actual`, `C89_csd_refuted` (in `Props/ExtendedRegions`).
* **C90** (partial) raising a plunger voltage never removes electrons. Proved without restriction of the step for exact evaluation of the transitions (lut_entries None), for pixels of lines below the last transition and unlabelled pixels of densely sampled images. With lookup tables (default and sampled configurations) proved for steps of together at least 0.02 mV. Refuted for smaller steps: the nearest-entry table is piecewise constant, so its transitions jump upwards, and with the default configuration a step of less than 0.01 uV of one gate removes an electron. Theorems: `C90_line`, `C90_image`, `C90_default_partial`, `C90_sampled_partial`, `C90_default_refuted` (in `Props/ChargeMonotone`).
* **C91** (partial) simulations from sampled configurations can be measured. Proved for images with pixel sides of at most 0.14 V / 12, 1D scans of both plunger gates and sensor scans that sweep sensor gate 1, each with given sensor gate voltages and at most 22.37 mV per pixel (with numpy 2: at most 256 rows or pixels). Refuted, each for every sampled configuration: measurements without sensor gate voltages raise TypeError because the sampler always sets limits for them; 2 x 2 images raise IndexError; 1D scans of plunger gate 1 alone raise ValueError when the dot jumps of gate 2 are active; 1D sensor scans of sensor gate 2 alone raise ValueError when the telegraph noise of the response is active. Theorems: `C91_image_partial`, `C91_line_partial`, `C91_omitted_refuted`, `C91_coarse_refuted`, `C91_fixed_refuted`, `C91_scan_image_partial`, `C91_scan_line_partial`, `C91_scan_gate2_refuted`, `C91_scan_generic_actual` (in `Props/SampledSim`).
* **C92** (partial) sampled sensors can be closed and opened within their limits. Proved for every sampled sensor scan sensor and every sensor scan it returns: closed (mask 0, no peak labels) with both sensor gates at -0.688 V or below, with a signal of at most 0.1% of the barrier height if there are no distortions; not closed with both at -0.3 V or above; fully conductive with both at -0.07 V or above if there are no plunger voltages, and with both at -0.03 V or above if the lever arms are compensated and the dots hold at most 25 electrons (for example at plunger voltages of -0.122 V or below). Refuted: a sampled sensor without compensated lever arms is nowhere fully conductive within its limits at plunger voltages of -0.06 V and -0.2 V. Theorems: `C92_barriers`, `C92_labels`, `C92_signal`, `C92_open_partial`, `C92_open_compensated_partial`, `C92_open_low_partial`, `C92_open_refuted` (in `Props/SampledRegions`).
* **C93** (partial) scans of one configuration agree at the same voltages. Proved: two lines always agree; a line and an image agree at unlabelled pixels of images whose transitions are sampled densely compared with the pixel sides and at labelled pixels that lie on or above the transition; two such images agree at pixels with the same label. The same for the signals of simulations without distortions, and for the sampled and default configurations with explicit pixel sizes. Refuted: an unlabelled pixel of an image with elongated pixels and a labelled pixel below its transition have other electrons than a line at the same voltages. Theorems: `C93_lines`, `C93_line_image_partial`, `C93_images_partial`, `C93_measured_lines`, `C93_measured_line_image_partial`, `C93_measured_images_partial`, `C93_sampled_partial`, `C93_default_partial`, `C93_shown_partial`, `C93_default_shown_partial`, `C93_sampled_shown_partial`, `C93_refuted`, `C93_label_refuted` (in `Props/ScanAgree`).
* **C94** (proved) the Fermi filter is the documented average in every mode. For lines and images, every mode name, axis, constant, width and radius, with the errors of negative radii, missing axes and unknown modes and NaN for the width 0. Arrays with more than two axes and the rounding of integer arrays are not modelled; the filter of SciPy (`convolve1d`) is modelled by its documentation. The sum is not kept in the mode 'mirror' (C94_sum_mirror_actual). Theorems: `C94_extension`, `C94_line`, `C94_image`, `C94_decision`, `C94_default_radius`, `C94_range`, `C94_constant`, `C94_sum`, `C94_identity`, `C94_monotone`, `C94_linear`, `C94_reverse`, `C94_sign`, `C94_step`, `C94_sum_mirror_actual`, `C94_blurring` (in `Props/FermiFilter`).
* **C95** (proved) measurements do not depend on earlier measurements. For every simulation that is built from the shipped ideal CSD class, sensors and distortions, and also for the default and sampled configurations. Direct calls of distortions with freeze=True do depend on the kept values (that is their purpose) and are only covered where a measurement makes them. Theorems: `C95_measure`, `C95_scan`, `C95_history`, `C95_programs`, `C95_undistorted`, `C95_reports`, `C95_scan_reports`, `C95_default`, `C95_extended`, `C95_sampled` (in `Props/History`).
* **C96** (partial) reported distortion values describe the latest measurement. Proved for SensorGeneric, and for a scan sensor for the distortions of occupations and response. With a scan sensor, a distortion of the potentials is applied to three potentials with new draws for each and reports only the last one (C96_refuted); C96_scan_sensor_partial and C96_scan_partial say this exactly, and C96_constant_partial covers all three potentials for noise of fixed strength. For dot jumps and telegraph noise that are on, the jumps themselves are the subject of other properties; that they use no other generator than their own is proved here, also through the frozen calls of later distortions. Theorems: `C96_measure`, `C96_scan_sensor_partial`, `C96_scan_partial`, `C96_constant_partial`, `C96_refuted` (in `Props/Reports`).
* **C97** (proved) parameters of components can be changed at any time. Assignments use the attribute protocol of Python with the properties of each class as a table. Comparisons of other objects than numbers are taken to raise TypeError; nan is not modelled. Theorems: `C97_new`, `C97_assign`, `C97_exception`, `C97_last`, `C97_reports`, `C97_like_new`, `C97_gaussian`, `C97_lorentzian`, `C97_barrier`, `C97_rise`, `C97_multi`, `C97_deformation` (in `Props/Parameters`).
* **C98** (partial) dot jumps can be applied with the exported functions. Violated with numpy >= 2: the generated jumps are uint8, so index arithmetic wraps modulo 256. Images of more than 256 pixels always fail, jumps over the border fail or take a wrong pixel (`C98_refuted`, `C98_large_actual`, `C98_border_actual`). Proved with numpy < 2, with signed jumps, and for jumps inside of images of at most 256 pixels. The distortion classes convert the jumps and are not affected (C30). Theorems: `C98_first_partial`, `C98_total_partial`, `C98_again_partial`, `C98_scale_zero`, `C98_large_actual`, `C98_border_actual`, `C98_refuted`, `C98_pixelwise_partial`, `C98_pixelwise_total_partial` (in `Props/JumpsDirect`).
* **C99** (partial) printed forms identify objects. Violated: the printed form of BarrierFunctionMultiGLF lacks the closing parenthesis (`C99_multi_actual`), lever arms are rounded by numpy (`C99_rounding_actual`) and generators print without their state (`C99_refuted`). Proved for everything else by unique readability of the format strings; printing of floats is a parameter that has to distinguish them. Theorems: `C99_same_partial`, `C99_numbers`, `C99_balanced_partial`, `C99_multi`, `C99_multi_actual`, `C99_rounding_actual`, `C99_refuted` (in `Props/Printing`).
* **C100** (proved) distortions of sensor scans reach the signal and not the labels. Stage-by-stage characterisation of successful scans, exceptions of response distortions, labels of two simulations that differ in distortions, and closed form of the signal for distortions that act pixel by pixel (`C100_pixels`, without deformations and final rise). Which ranges the distortions receive is C28. Theorems: `C100_stages`, `C100_labels`, `C100_occupation_distortions`, `C100_exception`, `C100_pixels` (in `Props/ScanPipeline`).
* **C101** (proved) telegraph noise with two scales has separate lengths for bursts and pauses. Exact characterisation of the returned image together with the draws (`C101_regions`), success for scales of at least one pixel, and the exceptions for smaller scales: the scale of pauses is always checked, that of bursts only if a burst is needed (`C101_burst_scale_actual`). Scales are Python numbers (division by a numpy zero would give a ValueError instead). Theorems: `C101_regions`, `C101_total`, `C101_scale_zero`, `C101_quiet_scale`, `C101_burst_scale_actual` (in `Props/TwoScales`).
* **C102** (partial) deformed peaks have the documented shape in sensor scans. Proved for linear deformations if the sensor is used directly: the line and its angle are as documented (two sign conventions cancel, see C44), also with several peaks. Refuted for measure_sensor_scan, which moves each peak as a whole (`C102_scan_actual`, consequence of C26), and for circles, which become ellipses because the radius in volts is used as a potential (`C102_circle_actual`); circles are right for lever arms of length 1. Assumes occupations for which the middle line is computed correctly (C24). Theorems: `C102_lines_partial`, `C102_line_partial`, `C102_circle_actual`, `C102_circle_partial`, `C102_scan_actual`, `C102_scan_refuted`, `C102_circle_refuted` (in `Props/PeakShape`).
* **C103** (partial) peak labels of sensor scans mark the tops of the deformed peaks. Proved for peaks in ascending order and equal voltages at the plunger gates, and for peaks without deformations in any case. Refuted for different plunger voltages: the labels use the voltage of the first plunger gate for both when they compute the middle line (`C103_actual` states what is marked then). Other orders of deformed peaks are refuted in C53. `C103_signal` ties the conductances to the signal of the sensor used directly. Theorems: `C103_actual`, `C103_partial`, `C103_plain_partial`, `C103_signal`, `C103_refuted` (in `Props/PeakLabels`).
* **C104** (partial) samplers draw independently from the documented truncated distributions. The distributions are proved for all samplers. The documented rule for the scale of exponential samplers is refuted: it ignores that the distribution is truncated. `C104_documented_scale_actual` has the exact proportion p / (1 - (1 - p) ^ (1 / q)), which is always larger than p (10/11 instead of 9/10 in the documented example). Theorems: `C104_normal`, `C104_uniform`, `C104_lognormal`, `C104_exponential`, `C104_quantile_actual`, `C104_documented_scale_actual`, `C104_quantile_refuted` (in `Props/SamplerLaws`).
* **C105** (proved) telegraph noise switches with probability 1 / scale after each pixel. The lengths are assumed independent and geometric (`GeometricDraws`, met by a generator that reads independent streams), and the heights nonzero, which has probability 1 for a positive standard deviation. Theorems: `C105_pattern`, `C105_pixel`, `C105_burst` (in `Props/TelegraphLaw`).
* **C106** (partial) distortions are active with the configured ratio. Proved for dot jumps and for telegraph noise of the response with both kinds of sensors, and for telegraph noise of the potential with SensorGeneric. Refuted for the potentials of a scan sensor (`C106_refuted`): one number is drawn for each of the three potentials, so a scan is undisturbed with probability (1 - ratio) ^ 3 only (`C106_scan_potential_actual`; at least that, `C106_scan_potential_partial`). Measurements are assumed to succeed with probability 1. Theorems: `C106_jumps`, `C106_potential`, `C106_response`, `C106_scan_response`, `C106_scan_potential_partial`, `C106_scan_potential_actual`, `C106_refuted` (in `Props/ActivationLaw`).
* **C107** (proved) white noise is independent normal noise on every pixel. For white noise that comes last, as in both default configurations; C115_white and C115_scan_white are the versions for any place. `rng.normal` is assumed to return `sigma` times independent standard normal numbers (`ScaledDraws`, `StandardNormal`, met by a generator that reads independent streams). The distribution is stated for a fixed strength; for a sampled one `C107_added` gives the pixels in terms of the reported strength. Theorems: `C107_added`, `C107_scan_added`, `C107_succeeds`, `C107_law`, `C107_scan_law` (in `Props/WhiteNoiseLaw`).
* **C108** (proved) telegraph noise in a measurement switches once per scale on average. For telegraph noise that comes last (any place: C115_pattern, C115_scan_pattern); scale, standard deviation and height are fixed numbers and the drawn heights are not 0. In an image the number of pixels per volt is the one that the code uses (C36), in a sensor scan that of sensor gate 1 (C28). `rng.binomial` and `rng.geometric` are assumed to have the documented distributions (`TelegraphDraws`, met by a generator that reads independent streams). Theorems: `C108_pattern`, `C108_pixel`, `C108_scan_pattern`, `C108_scan_pixel` (in `Props/TelegraphSim`).
* **C109** (proved) repeated measurements have independent white noise and averaging reduces it. The statement for series allows any other distortions that do not use the generator of the noise, and a strength that is sampled for every measurement. `rng.normal` is assumed to deliver `sigma` times the next numbers of one stream (`ScaledDraws`, `GoesOn`), which are independent standard normal (`StandardNormal`); met by a generator that reads a random stream. Sums of doubles are real numbers. Theorems: `C109_series`, `C109_repeated`, `C109_scan_repeated`, `C109_mean`, `C109_scan_mean` (in `Props/Averaging`).
* **C110** (proved) the heights of dot jumps and telegraph bursts have the documented distributions. `rng.geometric(p, size=n)` followed by single draws of the height is assumed to deliver independent geometric numbers and, independently of them, heights with the documented distribution (`LengthsThenHeights`); met by a generator that reads random streams. The code draws a height for every block, also for those without a jump. Heights of dot jumps are taken modulo 256 (C57). Theorems: `C110_jump`, `C110_jump_height`, `C110_burst` (in `Props/HeightLaw`).
* **C111** (proved) dot jumps shift adjacent lines of an image together, with the documented distribution. `rng.binomial`, `rng.geometric` and `rng.poisson` are assumed to deliver independent numbers with the documented distributions (`CoinLengthsHeights`); met by a generator that reads random streams. Scale and mean are constants, the scale has at least one pixel. Shifts are taken modulo 256 (C57), the conversion from volts to pixels is the one of C36 and the voltages before the first pixel are those of C32. Theorems: `C111_columns`, `C111_columns_ge`, `C111_rows`, `C111_rows_ge` (in `Props/JumpImage`).
* **C112** (partial) reset_offset_mu_sens puts a scan sensor on the requested potential. Violated: for every valid geometric configuration, scan sensor and arguments the call raises ValueError, because the potentials of the two pixels are combined with the three offsets; the offsets stay as they were, and the sensor remembers the voltages and occupations of the call (C112_reset_actual, C112_reset_refuted). It succeeds exactly for generators that return a line of one or three pixels (C112_succeeds_iff); for one pixel the property holds (C112_reset_partial), and for three pixels the call computes one offset per pixel from the potential of that pixel (C112_three_partial). Theorems: `C112_reset_actual`, `C112_reset_refuted`, `C112_succeeds_iff`, `C112_reset_partial`, `C112_three_partial` (in `Props/ResetScan`).
* **C113** (partial) resetting a sampled sensor puts the measurement on the steepest flank. Proved for sensors of type SensorGeneric without distortions: all 1D scans, and images with an unlabelled first pixel and pixel sides of at least 0.06 mV that differ by at most a factor of 3; earlier resets do not matter (C113_last). For scan sensors it is violated: the sampler ignores the option (the possible results are the same), the offsets are zero, and every reset raises ValueError (C113_scan_actual, C113_scan_refuted). Theorems: `C113_last`, `C113_line_partial`, `C113_image_partial`, `C113_scan_actual`, `C113_scan_refuted` (in `Props/Retuning`).
* **C114** (proved) bursts of telegraph noise in a measurement have normally distributed heights. For telegraph noise that comes last (any place: C115_burst, C115_scan_burst); scale, standard deviation and height are fixed numbers, and the scale is at least one pixel. Pixels per volt as in C108. The draws of the generator are assumed to have the documented distributions (`BurstDraws`, met by a generator that reads independent streams). A set of heights that contains 0 is excluded, because pixels without noise would count, too; `C114_pixel` and `C114_scan_pixel` give the whole distribution of the difference of a pixel (a mixture of 0 and a normal distribution) and its mean. Theorems: `C114_burst`, `C114_scan_burst`, `C114_pixel`, `C114_scan_pixel` (in `Props/BurstSim`).
* **C115** (proved) noises with their own generators may be given in any order. For measurements that succeed; which exception is raised may depend on the order. Two noises are independent of each other if no call of a generator or sampler of one changes what a call of the other returns (`OwnGenerators`), and every object is used once (`Distinct`, C93). Sums of doubles are real numbers, so that rounding does not depend on the order. C115_white, C115_pattern and C115_burst (and the versions for sensor scans) are C107, C108 and C114 for noise at any place; C115_shared shows that the condition on the generators is needed. Theorems: `C115_measure`, `C115_scan`, `C115_shared`, `C115_white`, `C115_scan_white`, `C115_pattern`, `C115_scan_pattern`, `C115_burst`, `C115_scan_burst` (in `Props/NoiseOrder`).
* **C116** (proved) several white noises act like one. For strengths that are given as numbers (a sampled strength is covered for a single noise by C107_added only). The generators are independent of each other and of all other distortions, and every object is used once (`Distinct`, C93). Real numbers instead of doubles. Theorems: `C116_law`, `C116_scan_law` (in `Props/SumNoise`).
* **C117** (proved) measuring in the opposite direction mirrors the measurement. With the geometric ideal CSD, for images and lines, including all rejected requests and sensors with an empty list of peak functions. A line with a single pixel is measured at the first voltages and is excluded. Sampled points of a sweep are real numbers (rounding of linspace is not modelled). Scan sensors and distortions are not covered. Theorems: `C117_image`, `C117_line`, `C117_line_array` (in `Props/Reversed`).

## Deviations of the code found by the proofs

* C03: Refuted: TypeError as soon as a sensor limit is configured. C03_partial characterises exactly when omission works.
* C06: 2D proved (IndexError when a pixel is beyond the last TCT). 1D refuted: such pixels silently get the occupation of region 0. For images below the last transition C06_image_actual has the exact condition.
* C14: Exact description of the 1D lead mask for at most 255 electrons in every pixel (C14_mask_1d_partial). With more electrons it is violated, because the labels are unsigned 8-bit integers: C14_refuted. C14_mask_general is the exact behaviour in all cases.
* C18: Holds for denominator_offset = 1 (C18_barrier_points_partial, C18_pinch_off_separates_partial). For other values the documented right asymptote is not asymptote_right, but the points are computed from asymptote_right: the value at the pinch-off point is then not the percentage of the distance of the asymptotes (C18_refuted), and for denominator_offset > 1 there may be no point with the value (C18_points_refuted; the code returns nan). C18_barrier_points_actual says exactly when the points exist, C18_order and C18_between hold for any positive denominator offset.
* C19: Refuted for mu0 != 0; proved exactly for mu0 = 0 (C19_rise_iff).
* C22: SensorGeneric: proved for 1D scans, with the geometric ideal CSD for all of them (C22_reset_geometric); the call always succeeds. For images it needs that the first pixel has the occupation of the first pixel of the line that the reset evaluates (C22_reset_2d_partial); this can fail in images with wide and low pixels: C22_refuted. For the geometric CSD it holds in images with small pixels and correct label of the first pixel (C22_image_partial), for sampled configurations with pixel sides of at least 0.06 mV that differ by at most a factor of 3 and an unlabelled first pixel (C22_image_sampled_partial). Scan sensors: see C112.
* C24: C24_actual states the exact offsets used by the code. Proved (C24_partial) where the two deviations vanish; refuted otherwise: the occupation of dot 2 is replaced by that of dot 1, and in CSDs the voltage of sensor gate 1 is used for both sensor gates.
* C25: Refuted: with a final rise sensor_response overwrites the stored scan. Proved without a final rise and for fresh potentials.
* C26: Refuted for measure_sensor_scan: computing the labels replaces the stored sweep, so all pixels are bent with one voltage point (C26_actual, C26_refuted). Proved for direct use of the sensor.
* C27: Refuted: with a CSD configuration and plunger voltages every int resolution raises TypeError; without configuration every one-element array raises IndexError. C27_partial covers the two forms that work.
* C28: Potential distortions proved; response distortions refuted (range of sensor gate 1 is passed twice).
* C29: Consistency of both masks, nearest pixels of undeformed peaks, and the threshold of the open region for equal plunger voltages are proved, also for whole scans and images (`C29_regions_partial`, with `C29_regions_actual` for different plunger voltages); every pixel with both barriers beyond fully conductive is in the open region (`C29_open_partial`); refuted: region 2 does not imply that both barriers are fully conductive, and for different plunger voltages the threshold is computed at wrong voltages.
* C31: Refuted if both axes are swept from high to low; proved for the other three direction combinations.
* C32: Refuted: data from outside the image is taken with the step range/n instead of range/(n-1). Proved for sources inside the image; exact deviation proved.
* C35: Refuted: a scale below one pixel raises ValueError. Proved for scales of at least one pixel.
* C36: Refuted for non-square images (telegraph noise, dot jumps, blurring), proved for square images and 1D scans.
* C41: Refuted for horizontal lines given as float (ValueError); proved for int lines and (m, b) tuples.
* C43: Refuted for negative radii (jump at the radius) and for the unit of the radius; fixed point, evenness and the circle equation proved for both signs, everything else for positive radii.
* C44: Refuted: the sign is exactly opposite to the documentation. The magnitude and the negated sign are proved.
* C47: Refuted: the configuration sampler calls the distortion samplers without the multiplier, so that all distortions are those for multiplier 1. Proved for the individual samplers.
* C49: Proved for the geometric CSD with SensorGeneric and any shape-preserving distortions; refuted for an empty peak list (C49_refuted: the signal of a measured image is a number).
* C50: Refuted for lists (AttributeError); proved for all other values.
* C52: Refuted: no sensor scan with an int plunger voltage succeeds, because the label computation insists on float.
* C53: Refuted for unsorted peak lists, proved for sorted ones. C103 compares the labels with the tops of the deformed peaks in the signal.
* C54: Refuted for unsorted peak lists, proved for sorted ones without deformations.
* C55: Refuted for fixed gates, jumps along gate 2 and opposite sweep directions; proved for jumps along gate 1 in all scans without opposite sweep directions (step range/n), with new and with frozen noise; the exact behaviour for opposite directions is proved, too.
* C56: Refuted for numpy 2 (OverflowError above 256 pixels, NaN below); proved for numpy 1.
* C57: Refuted: heights are reduced modulo 256. Proved for draws below 256.
* C59: Refuted for narrowed ranges (the centre of the narrowed range is used); proved for ranges that are not narrowed.
* C62: Refuted: 2 x 2 pixels over the whole range always raise IndexError. Proved for all 1D scans and for all images with pixels up to 0.14 V / 12. For all other images the exact condition is proved (C62_image_actual: a sampled point of the last transition lies in the image or less than half a pixel outside).
* C63: Refuted without tunnel coupling: the electrons sit in the wrong dot. Proved for every transition with coupling: exact sum, monotonicity and limits; for sampled configurations also in terms of gate voltages.
* C67: Refuted: with elongated pixels a transition can pass between the sampled points, and the pixels on both sides get the electrons of one of them. Proved for all images whose pixel sides exceed the distance of the sampled points, in particular for sampled configurations with pixel sides of at least 0.06 mV that differ by at most a factor of 3, and the same for the default configurations; labelled pixels in all images.
* C68: Refuted: square images of the whole voltage range with fewer than 29 x 29 pixels raise IndexError, because the half-pixel margin around the image reaches the last of the 14 transitions; C68_whole_actual proves this for 2 to 28 and that all with at least 29 are returned. Proved: all 1D scans with at least one pixel, and all images whose pixel sides add up to at most 8.8 mV, for both sweep directions. All other images: C68_image_actual proves that exactly those raise IndexError that sample a point of the last transition in the image or less than half a pixel outside. These theorems are about the configuration without its random distortions; C83 covers it with them.
* C70: Proved for 2D and 1D scans with the generic sensor and a list of peak functions that is not empty (or None). With an empty list, which the sensor accepts, it is violated: the whole signal is the number 0 (C70_refuted, C70_empty_actual). Scan sensors: C71.
* C73: Refuted: arrays of shape (2, 1) and (1, 2) are accepted, but the potential then has a wrong shape or ValueError is raised. Proved: exactly the shape (2,) works, for scans with any number of axes.
* C74: Proved for SensorGeneric (attributes and defaults). Refuted for SensorScanSensorGeneric: default arrays of shape (3, 2) are shared by all sensors, and a (3, 2) array that is passed stays shared with the caller. For attributes set by None, one pair or one number it is proved.
* C75: Refuted for integer arrays, which the defaults are: setting a lever arm to -0.5 gives 0. Proved for float arrays; the exact behaviour is given for both.
* C76: Refuted in four ways: a deformation object used by two sensors takes the lever arms of the last one; deformations assigned (or peaks added) after construction fail with AttributeError; the default dictionary is shared by all sensors; a constructor that raises ValueError breaks the sensor that used the deformation before. Proved: exact behaviour after every program, and the property for deformations passed to one constructor only.
* C79: False of the code: each list of distortions and each simulation gets its own deep copy, so distortions that were made with one generator (which is the case for the shipped distortions with their default rng, evaluated once per signature) use the same random numbers in different stages and in different simulations (C79_stages_refuted, C79_simulations_refuted, C79_refuted; C79_simulations_actual: two simulations made from the same objects use exactly the same numbers). C79_partial: if the generators that the components can reach after construction have different seeds, no number is used twice over all later measurements. A random number is identified by seed and position; distinctness of the values is up to numpy.
* C80: False of the code: the metadata are copied after the measurement, with the generators advanced (C80_refuted). C80_actual: a simulation created from the metadata has exactly the configuration after the measurement. C80_partial: for components that neither change objects nor draw random numbers it has the configuration that the measurement started with.
* C83: Proved for images with a pixel of at most 8.8 mV (sum of sides) and 1D scans of both gates with at most 22.37 mV per pixel; with numpy 2 up to 256 rows or pixels. Refuted for sweeps of one gate (1% of the scans), for 1D scans with up to 6 pixels and, with numpy 2, for more than 256 rows or pixels. The random numbers are arbitrary values in their documented ranges.
* C84: Proved for 1D scans, and for jumps of at most one pixel along gate 2 in square images. Refuted for images: the border is generated as an image of its own, so its width is computed from its own number of pixels (or range); a border of one column is blurred along gate 2. The exact widths are proved. 1D scans are proved from the ideal data to the end of the loop over the distortions, with new noise, for both directions; images ascending.
* C85: Acceptance, stored configuration and error behaviour are proved for all three kinds of functions and both classes. Own functions are proved for peaks, and for one barrier function passed for both barriers. Refuted for rise functions and for sequences of two barrier functions, which the setters store without a copy; the list can even become invalid behind the check of the setter.
* C86: Proved for sensors without final rise and deformations, for CSDs and sensor scans together. With a final rise proved among sensor scans, and among CSDs with the same start. Refuted with a final rise for two CSDs with different starting points, and for a CSD and a sensor scan.
* C87: Proved for sensor scans with equal plunger voltages (and equal occupations, or a barrier 1 that does not feel dot 2), and for the first pixel of CSDs with a fixed plunger gate. The exact point that the code uses is proved for sensor scans and both kinds of CSDs. Refuted for sensor scans with different plunger voltages and for CSDs over both plunger gates.
* C88: Proved for images and lines with given sensor gate voltages up to a pixel size (and 256 rows with numpy 2), and for sensor scan images and lines up to a pixel size. Refuted for CSDs without sensor gate voltages (TypeError), for 1D scans of one plunger gate with active dot jumps (ValueError), for 1D sensor scans with the number of pixels given in the wrong one of two forms (TypeError, IndexError) and for coarse sensor scans with active telegraph noise (ValueError).
* C89: Labels of sensor scans are proved with all distortions, signals of sensor scans and of CSDs with closed sensor without distortions. Refuted for CSDs with open sensor: with both sensor gates at -0.28 V the signal at the upper plunger limits is at least 0.0599 in a diagonal scan upwards and at most 0.003 in the same scan downwards.
* C90: Proved without restriction of the step for exact evaluation of the transitions (lut_entries None), for pixels of lines below the last transition and unlabelled pixels of densely sampled images. With lookup tables (default and sampled configurations) proved for steps of together at least 0.02 mV. Refuted for smaller steps: the nearest-entry table is piecewise constant, so its transitions jump upwards, and with the default configuration a step of less than 0.01 uV of one gate removes an electron.
* C91: Proved for images with pixel sides of at most 0.14 V / 12, 1D scans of both plunger gates and sensor scans that sweep sensor gate 1, each with given sensor gate voltages and at most 22.37 mV per pixel (with numpy 2: at most 256 rows or pixels). Refuted, each for every sampled configuration: measurements without sensor gate voltages raise TypeError because the sampler always sets limits for them; 2 x 2 images raise IndexError; 1D scans of plunger gate 1 alone raise ValueError when the dot jumps of gate 2 are active; 1D sensor scans of sensor gate 2 alone raise ValueError when the telegraph noise of the response is active.
* C92: Proved for every sampled sensor scan sensor and every sensor scan it returns: closed (mask 0, no peak labels) with both sensor gates at -0.688 V or below, with a signal of at most 0.1% of the barrier height if there are no distortions; not closed with both at -0.3 V or above; fully conductive with both at -0.07 V or above if there are no plunger voltages, and with both at -0.03 V or above if the lever arms are compensated and the dots hold at most 25 electrons (for example at plunger voltages of -0.122 V or below). Refuted: a sampled sensor without compensated lever arms is nowhere fully conductive within its limits at plunger voltages of -0.06 V and -0.2 V.
* C93: Proved: two lines always agree; a line and an image agree at unlabelled pixels of images whose transitions are sampled densely compared with the pixel sides and at labelled pixels that lie on or above the transition; two such images agree at pixels with the same label. The same for the signals of simulations without distortions, and for the sampled and default configurations with explicit pixel sizes. Refuted: an unlabelled pixel of an image with elongated pixels and a labelled pixel below its transition have other electrons than a line at the same voltages.
* C96: Proved for SensorGeneric, and for a scan sensor for the distortions of occupations and response. With a scan sensor, a distortion of the potentials is applied to three potentials with new draws for each and reports only the last one (C96_refuted); C96_scan_sensor_partial and C96_scan_partial say this exactly, and C96_constant_partial covers all three potentials for noise of fixed strength. For dot jumps and telegraph noise that are on, the jumps themselves are the subject of other properties; that they use no other generator than their own is proved here, also through the frozen calls of later distortions.
* C98: Violated with numpy >= 2: the generated jumps are uint8, so index arithmetic wraps modulo 256. Images of more than 256 pixels always fail, jumps over the border fail or take a wrong pixel (`C98_refuted`, `C98_large_actual`, `C98_border_actual`). Proved with numpy < 2, with signed jumps, and for jumps inside of images of at most 256 pixels. The distortion classes convert the jumps and are not affected (C30).
* C99: Violated: the printed form of BarrierFunctionMultiGLF lacks the closing parenthesis (`C99_multi_actual`), lever arms are rounded by numpy (`C99_rounding_actual`) and generators print without their state (`C99_refuted`). Proved for everything else by unique readability of the format strings; printing of floats is a parameter that has to distinguish them.
* C102: Proved for linear deformations if the sensor is used directly: the line and its angle are as documented (two sign conventions cancel, see C44), also with several peaks. Refuted for measure_sensor_scan, which moves each peak as a whole (`C102_scan_actual`, consequence of C26), and for circles, which become ellipses because the radius in volts is used as a potential (`C102_circle_actual`); circles are right for lever arms of length 1. Assumes occupations for which the middle line is computed correctly (C24).
* C103: Proved for peaks in ascending order and equal voltages at the plunger gates, and for peaks without deformations in any case. Refuted for different plunger voltages: the labels use the voltage of the first plunger gate for both when they compute the middle line (`C103_actual` states what is marked then). Other orders of deformed peaks are refuted in C53. `C103_signal` ties the conductances to the signal of the sensor used directly.
* C104: The distributions are proved for all samplers. The documented rule for the scale of exponential samplers is refuted: it ignores that the distribution is truncated. `C104_documented_scale_actual` has the exact proportion p / (1 - (1 - p) ^ (1 / q)), which is always larger than p (10/11 instead of 9/10 in the documented example).
* C106: Proved for dot jumps and for telegraph noise of the response with both kinds of sensors, and for telegraph noise of the potential with SensorGeneric. Refuted for the potentials of a scan sensor (`C106_refuted`): one number is drawn for each of the three potentials, so a scan is undisturbed with probability (1 - ratio) ^ 3 only (`C106_scan_potential_actual`; at least that, `C106_scan_potential_partial`). Measurements are assumed to succeed with probability 1.
* C112: Violated: for every valid geometric configuration, scan sensor and arguments the call raises ValueError, because the potentials of the two pixels are combined with the three offsets; the offsets stay as they were, and the sensor remembers the voltages and occupations of the call (C112_reset_actual, C112_reset_refuted). It succeeds exactly for generators that return a line of one or three pixels (C112_succeeds_iff); for one pixel the property holds (C112_reset_partial), and for three pixels the call computes one offset per pixel from the potential of that pixel (C112_three_partial).
* C113: Proved for sensors of type SensorGeneric without distortions: all 1D scans, and images with an unlabelled first pixel and pixel sides of at least 0.06 mV that differ by at most a factor of 3; earlier resets do not matter (C113_last). For scan sensors it is violated: the sampler ignores the option (the possible results are the same), the offsets are zero, and every reset raises ValueError (C113_scan_actual, C113_scan_refuted).

## Seeded errors

`seeded/LOG.jsonl` has one line per wrong program: the edited definition, the edit, the claim it breaks, the theorems whose
proofs no longer go through and the theorems that were tightened because an edit had gone unnoticed. A theorem counts as
failing if its proof, or a lemma it rests on, is rejected after the edit. That the statement itself became false was not
checked separately for every line.
