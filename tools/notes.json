{
 "C01": {
  "note": ""
 },
 "C02": {
  "note": "Proved from totals and from counts without a process total; violated: a process total given with explicit counts is not ignored (tasks dropped)."
 },
 "C54": {
  "note": ""
 },
 "C04": {
  "note": "All four schemes, main and interlaced loops, every non-negative location, exact arithmetic."
 },
 "C05": {
  "note": "Conservation, in-bounds writes and exact refinement to the periodised kernel, for all meshes and catalogues in the box."
 },
 "C06": {
  "note": "Atomic additions executed in any order; exact arithmetic (no rounding)."
 },
 "C07": {
  "note": "Holds away from the faulty region BadShift; violated at the upper boundary (NGP, CIC: particle lost) and by TSC in the last but one cell (weight lost)."
 },
 "C08": {
  "note": "Refinement to the kernel sum gives equivariance under whole-cell translations with periodic wrapping."
 },
 "C09": {
  "note": "Bijection onto 0..nmesh-1 and row-major order."
 },
 "C10": {
  "note": "Congruence and injectivity for all grid numbers; symmetric Nyquist range and mirror modes for even ones; violated for every odd grid number >= 3."
 },
 "C13": {
  "note": "Proved for the main field; violated for the interlaced companion, from which the mean is never subtracted."
 },
 "C14": {
  "note": "Proved for the two-catalogue fields; violated for the single-catalogue fields (companion not scaled)."
 },
 "C15": {
  "note": "Any ordered field, any accepted range and bin number; includes the unique-bin property."
 },
 "C16": {
  "note": "Over the reals with Real.log/Real.exp; zero minimum rejected."
 },
 "C17": {
  "note": "Proved for more than five bins; violated for fewer than five (five padding bins are still written) and for exactly five (last width inconsistent with the edges)."
 },
 "C18": {
  "note": "Edges, centres and widths consistent; the documented width and maximum are violated for every even grid number."
 },
 "C19": {
  "note": "Proved for the C++ and Python setters; the main program's built-in custom binning is violated in configuration space."
 },
 "C20": {
  "note": "Violated: a rejected set_bins has already changed the range and number. Partial: edges, centres and widths are untouched on the Python side and a later accepted call restores consistency."
 },
 "C36": {
  "note": "All five forms, every bin number, both bispectrum and 3PCF loops."
 },
 "C37": {
  "note": "Violated for the full form with ell1 = 0 (row loop runs one too far, for every bin number), also for the whole measurement in a box; proved in all other cases together with the stronger fact that each entry receives its own bins' shot noise exactly once. The three-point correlation measurements are defined in every valid form."
 },
 "C38": {
  "note": "Order loop of the bispectrum, 3PCF and their plane-parallel versions; Wigner-symbol symmetry and the reality condition of the components are hypotheses."
 },
 "C39": {
  "note": "Exact square roots; np.isclose modelled with its tolerances."
 },
 "C40": {
  "note": "Linear and constant padding proved in full, both versions. Log-linear proved for same-sign non-zero end samples; violated for zero end samples (NaNs in Python; Python accepts, C++ rejects)."
 },
 "C41": {
  "note": "Result keeps the input and never grows away from either end, for every accepted array over the reals."
 },
 "C42": {
  "note": "Linear, log-linear and oscillation-safe proved; constant padding interchanges row and column extensions, so it is proved for equal extensions only."
 },
 "C43": {
  "note": "Violated: the check accepts exactly the constant arrays; every strictly monotone array is rejected."
 },
 "C44": {
  "note": "std::sort modelled by insertion sort (order of equal keys unspecified in C++)."
 },
 "C61": {
  "note": "Violated for two samples of equal sign (ValueError from np.gradient); proved for four or more samples."
 },
 "C23": {
  "note": "Python (exact arithmetic) and C++: common shift, midpoint at box centre, containment, idempotence for a reference that is another object. Violated when the catalogue is its own reference (shifted twice) and after a coordinate column was assigned (stale bounds)."
 },
 "C24": {
  "note": "Proved for numbers and sequences, distinct reference, Python and C++; box/grid paddings agree. Violated for NumPy arrays of padding factors (ValueError)."
 },
 "C25": {
  "note": "Python: in [0,L), moved by whole box lengths after the centring shift; the statement without that shift is violated. C++: whole lengths, in [0,L) except at negative multiples of L, which are sent to L (violated)."
 },
 "C26": {
  "note": "Invariant over all histories of catalogue operations without assignment of coordinate/weight columns; violated by such assignments, for every catalogue."
 },
 "C27": {
  "note": ""
 },
 "C28": {
  "note": "Violated in Python: the derived box size is never a number (bounds tuple times expand). C++ derivation proved."
 },
 "C29": {
  "note": "Restored for distinct loaded catalogues with up-to-date extents, exact arithmetic. Violated when the same object is passed as data and random: it is aligned twice and restored twice by the full offset."
 },
 "C30": {
  "note": "Counter equals memory held over histories without resizing an initialised catalogue; violated by resizing. Peak counter proved for all histories."
 },
 "C62": {
  "note": "Rejected by all operations but the periodic wrapping, which dereferences the null pointer (violated)."
 },
 "C63": {
  "note": "Exact arithmetic."
 },
 "C64": {
  "note": "Text files without HDF5, well-formed lines. Violated: missing coordinate column, short line, retry after failure."
 },
 "C65": {
  "note": "Random catalogue (centre) and survey catalogues whose randoms fit; violated for survey catalogues with wider randoms."
 },
 "C55": {
  "note": "Proved in exact arithmetic for non-negative durations, for the C++ display and for the Python log records, which agree."
 },
 "C56": {
  "note": "The program separates names with the two-character delimiter \"::\" (monitor.hpp:208). Round trip of join and split proved for every delimiter, under the exact overlap condition (C56_split_join) and, for single characters, unconditionally on the last piece (C56_split_join_char). Violated without the overlap condition: a name ending in \":\" is split wrongly (C56_overlap_violated)."
 },
 "C60": {
  "note": "Violated in two ways: the default nodes are 101 zeros followed by the percentage points, and repeated completion reads beyond the nodes. Nodes by interval are proved in exact arithmetic for intervals in (0, 100); in-bounds updates are proved when completion is reported only by the last update."
 },
 "C66": {
  "note": "Violated: the level is divided by ten and then compared with the undivided levels, so every standard level above NSET throws. Only suppression below the limit holds."
 },
 "C67": {
  "note": "Violated: the day is not carried to the month. Hours, minutes and the instant within the month are proved."
 },
 "C68": {
  "note": "Proved; the regular expression is modelled as the leftmost ${ followed by characters other than } and a closing brace."
 },
 "C31": {
  "note": "Least integer grid number reaching the cutoff, for Fourier and configuration space; Python and C++ agree where both are defined (volume and cutoff positive)."
 },
 "C32": {
  "note": "Exact criterion proved (C32_finishes_iff): validation finishes iff the first checks reject the parameters or the grid numbers derived from the cutoff define a mesh whenever they are needed. The unconditional claim is false: zero cutoff with a box and no mesh in Fourier space recurses forever (C32_zero_cutoff_violated)."
 },
 "C33": {
  "note": "Accepted parameters are well formed, user inputs are kept, and validating again changes nothing for plain paths and separable file names, for the program build. Violated: an empty file name is dropped on re-validation (C33_again_violated); the external-call build accepts unrecognised statistics with a stale number of points (C33_external_violated). The interlacing switch is read exactly (C33_interlace)."
 },
 "C34": {
  "note": "All members but \"shape\" are copied, so a copy equals the original iff the shape is the default (C34_copy), and validating the copy gives the same result (C34_copy_validated). Violated for full forms with equal degrees (C34_copy_violated)."
 },
 "C69": {
  "note": "Proved for positive given sides and positive (or missing, with positive cutoff) grid numbers; violated when two signs cancel."
 },
 "C70": {
  "note": "Proved for lines whose other words contain no parameter name, and for whole files of such lines: every parameter gets the value under its name or its default; violated by file names or remarks containing a name (C70_line_violated), which may also overflow a 16-byte buffer (C70_overflow_violated). sscanf is modelled by splitting at white space."
 },
 "C71": {
  "note": "Violated for every accepted parameter set unless a later value contains the word \"assignment\": the printed line assignment_order = n overwrites the assignment scheme. Proved: all other printed lines are read back exactly (C71_print_read_partial), for values without white space or parameter names, fitting their buffers; the cutoff is not printed."
 },
 "C35": {
  "note": "Violated: (1) a rejected assignment keeps the rejected value in the dictionary (C35_rejected_kept_violated, for every state); (2) an accepted assignment which unsets the box leaves the previous C++ box (C35_unset_box_violated for every such assignment, C35_diverge_violated concrete). Proved part: after any history whose last assignment is accepted, every set entry of the dictionary equals the C++ parameter (C35_history_partial), and a positive mesh reaches C++ (C35_mesh_partial). A cutoff without a mesh reaches C++ (C35_cutoff_partial)."
 },
 "C72": {
  "note": "Violated: catalogue.bounds[ax] is a (min, max) tuple, so multiplying by the float expand raises TypeError whenever a box side is unset; and even with spans the derived box would only be written in the nested dictionary, never into the C++ parameters, because _validate() does not re-parse."
 },
 "C73": {
  "note": "Violated: _set_ngrid_from_cutoff reads the entry space of the raw dictionary, which is filled in only by the later _validate(); without it the construction raises KeyError for every such dictionary."
 },
 "C21": {
  "note": "Violated: modes are first put into fine samples of width 1e-5 (or 0.1), and a fine sample goes to the bin containing its lower edge, so a mode in a bin whose lower edge is not a multiple of the width can be counted in the previous bin or none (C21_lower_edge_violated, every non-multiple edge); modes beyond the sampled range are dropped (C21_beyond_violated). Proved parts, for every thread schedule: the exact content of every bin (C21_bins_hold_partial), and the full property when the edges are multiples of the width (C21_aligned_partial)."
 },
 "C22": {
  "note": "For every order of processing cells; hypothesis on the magnitude (dominates each component) is shown for the real Euclidean magnitude in C22_magnitude."
 },
 "C59": {
  "note": "Violated: the volume of the first field is not compared (the second is compared twice); holds if volumes are derived from box sizes."
 },
 "C11": {
  "note": "Violated: on an axis with one cell the window is zero, and odd grid numbers make it uneven because the index shift sends (n-1)/2 to -(n+1)/2. Positivity proved for at least two cells per axis, evenness for even grid numbers. History independence is proved in full, and the window is proved to be the Fourier transform of the assignment weights averaged over particle positions."
 },
 "C12": {
  "note": "Closed forms without interlacing equal the position-averaged power of the stencil weights, for every scheme and mode; the factor is in (0,1]."
 },
 "C57": {
  "note": "The Legendre function of the GSL library is an arbitrary function."
 },
 "C74": {
  "note": "Violated: zero on the 3x3x3 mesh for the mode (1,1,2). Positive whenever all grid numbers are even."
 },
 "C45": {
  "note": "C++ layer: transform size (power of two at least the factor times the samples), no-extrapolation case and centring of the samples proved. Violated in the Python outer layer: a factor below 1 gives a shrunken size which is not rejected (negative n_ext; the slice is empty)."
 },
 "C46": {
  "note": "GSL log-gamma is assumed correct (hypothesis LgOk: it returns log-modulus and phase of Gamma)."
 },
 "C47": {
  "note": "Proved for odd sizes or for the low-ringing pivot. Violated for even sizes without low-ringing: for some pivot the alternating samples are annihilated. Direct low-ringing pivot covered while pi/logres < 100 (below the switch to the Stirling series)."
 },
 "C48": {
  "note": "Reciprocal grid and involution proved. Violated for extended grids: post_sampts_extrap is filled from pre_sampts out of bounds."
 },
 "C49": {
  "note": "Violated by default (no extrapolation) and in the native layer: the array of the caller is multiplied in place. Proved for outer extrapolation. DoubleSphericalBesselTransform is not covered here."
 },
 "C75": {
  "note": "GSL log-gamma assumed correct (LgOk)."
 },
 "C76": {
  "note": "Every pole is rejected; violated in the other direction: odd non-positive integers, where the gamma functions are regular, are rejected as well."
 },
 "C77": {
  "note": "C++ transform_cosmological_multipole; GSL log-gamma assumed correct (LgOk)."
 },
 "C78": {
  "note": "Violated: the resize is guarded by a condition that has already been excluded, so an output vector that is too short is never resized and is written out of bounds. Proved for outputs already of the right size."
 },
 "C50": {
  "note": "Violated in part: the comparison ignores the middle degree (index[:-2] instead of index[:-1]), so distinct multipoles such as (0,0,2) and (0,2,2) compare neither less nor greater nor equal, and sorted order depends on input order. Proved: strict weak order for all multipoles of one kind, __lt__ and __gt__ are opposite, trichotomy and unique sorting when outer degrees determine the multipole."
 },
 "C51": {
  "note": "Interpolation and quadrature weights are parameters; interpolation reproduces samples at increasing sample points. Window of any number of multipoles."
 },
 "C52": {
  "note": "For all formulae, windows and sample points (interpolation and quadrature are arbitrary linear maps of the samples). Trivial window: built-in formulae."
 },
 "C79": {
  "note": "Violated: the string form of a single two-digit degree and abbreviated forms of two-digit or negative degrees are misread. Proved for the remaining cases."
 },
 "C80": {
  "note": "Violated: the subset check is in the wrong direction. Sufficient points with one more multipole are rejected; missing ones pass the check and give KeyError later. Proved: whatever was constructed can convolve."
 },
 "C81": {
  "note": "Violated: the keys of samples are not converted, so tuples, strings and integers raise KeyError."
 },
 "C82": {
  "note": "Violated for sample points given as an array, where the pseudo-index ic is converted to a multipole and raises ValueError in every call that computes the constraint. Proved for sample points given as a dictionary."
 },
 "C83": {
  "note": "Proved when window or correlation function is isotropic (degree L = 0 only). Violated otherwise: products of two anisotropic multipoles are left out of the formula."
 },
 "C84": {
  "note": "Any formula, window and integral constraint."
 },
 "C86": {
  "note": "Violated: the terms are weighted by N H^2 instead of its inverse. Proved when the monopole is the only common multipole."
 },
 "C53": {
  "note": "Violated: subselect(inplace=False) raises UnboundLocalError unless a tuple of indices is given, and then returns a window whose attribute r is an array; an upper bound of zero selects everything; a dictionary of index ranges raises (or selects nothing where slices are hashable); partial, raw-keyed or half-open dictionaries of ranges raise. Proved: in place with the other forms, for all windows, ranges and slices."
 },
 "C85": {
  "note": "Violated for the default make_loglin=True: a Boolean is an integer, so the window is resampled to one point. Proved: samples before resampling, acceptance of well-sized tables, resampling to a given number of points, no resampling when not needed."
 },
 "C03": {
  "note": "Model/WinMat.lean: gen_winconv_mat on all ranks, with arrival order of Gatherv as argument. Proved for every number of processes P and root r with P <= dim + r (closed form of the allocation: rank r gets (dim + r) / P tasks): columns are the convolved basis vectors (plain, diag, concat), other ranks None; M v = convolution of v for linear convolutions, instantiated for the bispectrum convolution. Violated: without communicator always TypeError (missing argument diag); default root without task when P > dim (float receive buffer for complex messages, MPI error); default extrap=5 makes the convolution non-linear so that M v differs."
 },
 "C58": {
  "note": "Clustering weights scaled by a common non-zero factor, for the conventions particle, mesh and mesh-mixed (with none there is no normalisation): power spectrum, correlation function, bispectrum and three-point correlation function of survey-type catalogues with the failure preserved, and the two- and three-point window functions with particle and mesh normalisation, for any alpha and wide-angle order."
 },
 "C87": {
  "note": "Holds for the power spectrum. Violated for the bispectrum: the code adds alpha^3 times the sum over random particles where the self-contribution (and threept.hpp) subtracts it; the difference is proved exactly."
 },
 "C88": {
  "note": "Meshes with at least two cells on each axis."
 },
 "C89": {
  "note": "Total systematic weight non-zero (alpha is NaN otherwise). Raw power spectrum, bispectrum and three-point correlation function."
 },
 "C90": {
  "note": "No interlacing, as stated."
 },
 "C91": {
  "note": "No interlacing, as stated."
 },
 "C92": {
  "note": "Holds without interlacing; with interlacing holds away from the Nyquist planes on even meshes and is violated at the Nyquist mode whenever the companion field has a contribution there."
 },
 "C93": {
  "note": "Holds without interlacing; with interlacing holds if no particle is in the faulty region of the companion field (C07), and is violated by a particle in it (power changes from 0 to 1/4)."
 },
 "C94": {
  "note": "Violated: the particle normalisation is always computed and throws when all redshift densities vanish, under every convention; mesh-mixed with sim or random catalogues gives a zero factor. Proved in part: where the driver does not stop, conventions other than particle do not depend on the redshift densities."
 },
 "C95": {
  "note": "Violated: overrides are validated one by one, so valid combinations are rejected (another padding scale; a row index beyond the old number of bins). Proved: accepted overrides are all in effect; overrides of the template are rejected exactly for two paddings. Calls without a parameter set are rejected exactly for missing arguments, and otherwise every argument is in the entry of its name (C95_two_point_partial, C95_three_point_partial)."
 },
 "C96": {
  "note": "Violated: a bispectrum between two power spectra turns the interlacing of the second off. Proved: which entries are kept."
 },
 "C97": {
  "note": "Violated for one bin. Proved for two or more bins."
 },
 "C98": {
  "note": "Violated: the dictionary is stored, not copied. Proved for sets with different dictionaries."
 },
 "C99": {
  "note": "Proved for non-zero volumes and boxes; violated in that a volume of zero falls back to the box size although a volume is given."
 },
 "C100": {
  "note": "Success for non-empty arrays of equal lengths, with the exact particles, totals and extents; rejection otherwise. On rejection the C++ catalogue keeps the marker of its source (the model returns only the error)."
 },
 "C101": {
  "note": "Sum over triangles derived from the transforms by orthogonality of phases, in survey and box; the effective wavenumbers and mode numbers are recorded only if some order is computed."
 },
 "C102": {
  "note": "Hypotheses on the Legendre functions and the Wigner symbols (both external) are their textbook symmetries; couplings exactly at the threshold 1e-9 are excluded; horizontal wavenumbers below 1e-9 are excluded by the mesh condition."
 },
 "C103": {
  "note": "Conditions as in C102; the shot-noise column is not covered."
 },
 "C104": {
  "note": "Double spherical Bessel transforms are given weights and interpolation satisfies the knot property; resampling of the input is not modelled."
 },
 "C105": {
  "note": "Catalogue fields appear as the modelled mesh fields (C05-C08 describe them); special functions are parameters. Line contents (bins recorded) need at least one computed order."
 },
 "C106": {
  "note": "Proved for even ell1 + ell2 (survey, box, window). Violated for odd ell1 + ell2 in survey and window: the parity factor (-1)^(ell1+ell2) is applied both in field.cpp:3180-3181 and in threept.cpp:1040/1240, so the sign is reversed; a concrete window of two particles has non-zero shot noise of the wrong sign."
 },
 "C107": {
  "note": "Number and mean length are those of the order (0,0) and so need its coupling not to be skipped; the rounding of lengths to fine bins (1e-5 in Fourier space below 10, 0.1 in configuration space below 100000) is part of the statement. The window of random particles is included (C107_window)."
 },
 "C108": {
  "note": "Two-point correlation function in survey and box, three-point shot noise in box and window: proved. Survey three-point shot noise: proved for bins without the zero separation; violated with it, because threept.cpp:207 adds the cubed random weights with + alpha^3 instead of - alpha^3 (see C87). Two-point windows: C108_window_pairs."
 },
 "C109": {
  "note": "Survey and box, for every measurement which returns rows. The full form with ell1 = 0 and ell2 = 0 terms is excluded by the code itself, which writes out of bounds there (C37)."
 },
 "C110": {
  "note": "Without interlacing. With interlacing the transform is not Hermitian at the Nyquist modes (C92), which enter the correlation in the shot noise."
 },
 "C111": {
  "note": "All measurements proved (the interlaced case excludes the faulty region of C07). Violated with wide-angle corrections: C111_wide_angle_violated."
 },
 "C112": {
  "note": "Meshes of at least two cells per axis (the window of an axis of one cell vanishes and the code divides by it)."
 },
 "C113": {
  "note": "Exact arithmetic; agreement with particle normalisation for nearest-grid-point assignment."
 },
 "C114": {
  "note": "With the low-ringing condition (default) and degrees differing by two, the points returned for the second dimension are those of the first: wrong at every index (C114_second_points_violated, for the true gamma function). Right for the first dimension, and for both without the condition or with equal degrees and biases."
 },
 "C115": {
  "note": "Full for arrays without extrapolation; the round trip has the conditions of C77 (odd number of points without low-ringing, or low-ringing with equal degrees and biases, since only the points of the first dimension are returned)."
 },
 "C116": {
  "note": "Violated without extrapolation, the default: the rows of the array are multiplied in place. Proved unchanged with extrapolation (C116_unchanged_partial)."
 },
 "C117": {
  "note": "Proved for degrees of one digit, tags without digits first and without dots (C117_distinct_partial; C117_program_distinct_partial for the program). Violated for tags with a dot (with_suffix replaces what follows), for degrees of several digits, for bins followed by tags which begin with a digit, for wide-angle windows (names of the two interfaces differ) and for paths cut at 1023 characters."
 },
 "C118": {
  "note": "Proved for recognised values; violated for other values of save, which raise an error after the measurement so that it is lost."
 },
 "C119": {
  "note": "Proved for all four tables; violated for the labels of the program when the degrees take more than seven characters."
 },
 "C120": {
  "note": "Round trip proved for files of the full form; violated for files of the diagonal form with a triangular number of bins, which are loaded without an error."
 },
 "C121": {
  "note": "Nearest pivot with one given; without one, exact for logarithmic spacings above pi/100 and within a relative 1e-15 below (C121_lowring_close covers every spacing). LgOk: the log-gamma function of the library is a logarithm of the gamma function."
 },
 "C122": {
  "note": "Proved for three or more geometric points; the samples are real, as the documentation assumes."
 },
 "C123": {
  "note": "Measurements of the same pair keep the two catalogues displaced together, so with given lines of sight any later survey measurement receives what it would have received first (induction over the earlier calls). Violated when the lines of sight are computed (they are taken from the positions displaced by the previous measurement), when a window function was measured before (the random catalogue alone is displaced), when a missing density was inserted for another box, and when a box is overfull. The catalogues of the caller are displaced."
 },
 "C124": {
  "note": "Converted exactly when all six columns hold floats, and displaced coordinate by coordinate then (partial). Integer columns (from whole-number text columns or an integer weight) make conversion fail, and a displacement failing half-way leaves some coordinates displaced (violated)."
 },
 "C125": {
  "note": "Proved for mappings whose new names are not already columns of the file (partial); a mapping onto an existing column name is rejected, and the table_kwargs dictionary of the caller is overwritten for text formats (violated)."
 },
 "C126": {
  "note": "Special functions enter as hypotheses (Special): the values of the GSL associated Legendre functions and of the Wigner symbols with a zero degree; both hold for exact functions (C146). The addition theorem itself is proved for all degrees. Lines of sight and the mesh are resolved above the thresholds of 1e-9 in the harmonics. The correlation function is a sum over pairs of particles for nearest-grid-point assignment without interlacing (C126_correlation_function) and a transform of powers of modes for every scheme (C126_correlation_modes). The two-point window of random particles is included (C126_window)."
 },
 "C127": {
  "note": "Bins must end 1e-5 (the rounding of wavenumbers) below the Nyquist wavenumber; the dipole of one particle in a box at the Nyquist modes is -1 (violated). Two-point windows are real too (C127_window_real)."
 },
 "C128": {
  "note": "C128_override is exact for validated parameters without environment variables in paths, for builds without GPU and with separable file names. C128_as_file_partial leaves out the wisdom directory and tags which enter the path of the binned vectors, for which the claim is refuted."
 },
 "C129": {
  "note": "Proved for an arbitrary measurement function; the violations are concrete runs evaluated by the kernel, and C129_custom_violated and C129_no_parameters_violated hold for every run."
 },
 "C130": {
  "note": "Survey: proved for every alignment option. Window: proved for centred random particles whose extents are below three box sizes. Violated: in a box the Python package translates the particles to the middle of the box and the program does not (equal up to one periodic translation, C130_box_partial); a padded window is centred by the Python package (C130_padded_window_violated); at three box sizes the program leaves particles on the upper edge (C130_wide_window_violated)."
 },
 "C131": {
  "note": "Round trip for windows whose sample points are a dictionary, and for sessions starting with a constructed window; array sample points, paths without the .npz suffix and windows from subselect(inplace=False) do not load back."
 },
 "C132": {
  "note": "Proved for Multipole keys of equal length; string keys sort differently from the multipoles."
 },
 "C133": {
  "note": "Decision logic of the input wavenumbers of BispecWinConv and of the interpolation of the samples at new ones. Partial: the number of points is kept only if it is the same for all multipoles (C133_number_violated), and extra samples are rejected after respacing (C133_extra_samples_violated)."
 },
 "C134": {
  "note": "C134_values refines convolve, with array objects, to a function of values; C134_trivial_window_partial composes construction, backward transform, convolution and forward transform for the built-in two-point formula without extrapolation; C134_constructs_partial shows construction succeeds for logarithmically spaced wavenumbers. Without extrapolation the arrays of the caller are multiplied in place (C134_mutated_violated)."
 },
 "C135": {
  "note": "BispecWinConv from construction to result. C135_values: for every state of the arrays, formula and transforms the result equals a specification computed from the values alone. C135_unchanged_partial: arrays kept when the transforms extrapolate or the samples are interpolated first. C135_trivial_window_partial: a trivial window returns the input for multipoles of equal degrees and, without lowring, for all. C135_constructs_partial: the object is constructed for logarithmically spaced wavenumbers. C135_lowring_violated: with lowring (the default) the (2, 0, 2) multipole is multiplied by a constant other than one. C135_mutated_violated: without extrapolation the arrays of the caller are multiplied in place. Exact arithmetic; interpolation weights exact at their knots."
 },
 "C136": {
  "note": "Model of both resampling functions with squeezing of the arguments, sizes given as numbers or sequences, and the requirements of the splines; the splines are linear maps which reproduce samples and constants. The two-dimensional statement is for one array of points or two of the same length; others are rejected (violated). A tuple of different sizes leaves a window whose separations do not match its samples (violated)."
 },
 "C137": {
  "note": "Wigner symbols over the reals by the formulae of Racah; everything for all degrees, except projection, exactness and the comparison with the table, which are about the five multipoles of the built-in formula (whole table)."
 },
 "C138": {
  "note": "Proved for two-point measurements of surveys and boxes, for shot noise of three-point measurements and for the bispectrum below the Nyquist wavenumber. Partial: the window function needs alpha = 1, since the companion field is not multiplied by alpha (C14); particles in the faulty region of the companion (C07) are excluded."
 },
 "C139": {
  "note": "Defined for all non-negative arguments; exact at nodes and beyond the table; accuracy 1/2000 everywhere and 7e-7 away from the ends for every degree; copies agree. C139_origin_violated: natural boundary condition at x = 0 makes j_0 wrong by more than 2e-5 at x = 1/40. Library routines enter through their definitions over the reals."
 },
 "C140": {
  "note": "Wigner symbols enter through their symmetries and their known values when a degree vanishes (Special3); Legendre functions at their true values; lines of sight either zero, along z or inclined by more than 1e-9; box multipoles without interlacing; bins below the Nyquist wavenumber."
 },
 "C141": {
  "note": "LgOk: the log-gamma function of the library is a logarithm of the gamma function, where it is used; the series is compared with Mathlib gamma function without any assumption."
 },
 "C142": {
  "note": "The code violates the documentation of _check_conv_range for an array compared with a dictionary (C142_mixed_violated; no caller does this). Everything else is proved."
 },
 "C143": {
  "note": "Proved for files without braces in their path (C143_text_partial); violated otherwise: KeyError or ValueError is raised instead of logging the warning (C143_name_violated, C143_brace_violated)."
 },
 "C144": {
  "note": "The warning and the bookkeeping are proved. Violated: the defaults are returned with the text as well, against the documentation (C144_fetch_violated)."
 },
 "C145": {
  "note": "Grid counts and peaks for all histories; memory exact up to 56 bytes per particle by which a reloaded catalogue shrank, exact without reloading. Violated: initialise_particles sets ntotal before releasing the old array, so reloading with another number of particles makes the count drift, with a spurious warning or an understated peak."
 },
 "C146": {
  "note": "Racah formula taken as the definition of the values returned by GSL and sympy; floating-point error of GSL not modelled. Bounds: sum of degrees up to 30000 (rejection) and 38 (no order lost)."
 },
 "C147": {
  "note": "Proved for the two-point statistics of surveys (all of each row) and boxes, and for raw bispectrum multipoles with a vanishing degree, on top of C05, C07, C107, C126 and C140. Not covered: shot noise of the bispectrum, multipoles with three non-zero degrees (rotational invariance of the coupled harmonics is not formalised), three-point correlation functions, particles in the faulty region of the interlaced field."
 },
 "C148": {
  "note": "Proved: in every file saved by Python there is exactly one line of the normalisation factor and it is the factor used; line-by-line agreement with the file of the program except the brackets of extents, the case of the interlacing flag and a remark on three-point files (C148_same_file_partial).  Violations with witnesses: extents printed with other brackets; mesh-mixed with a box or random catalogue is a NameError in Python while the program uses and reports zero; a convention in capital letters is a NameError."
 },
 "C149": {
  "note": "Proved for options in lower-case letters: the survey catalogues handed over are those of the program with the C++ parameters (with C130), the factor used is the one selected by the convention, and names of three-point files are formed.  Violated for every accepted set with capital letters: an alignment such as Centre is accepted and the catalogues are silently not aligned; a padding scale or convention ends in a NameError; a form ends in a NameError when the measurement is saved; witnesses of accepted sets are given."
 },
 "C150": {
  "note": "Mesh: least even cubic cover proved. Exact criterion proved for the derived parameters of any accepted set: they are accepted iff the planner scheme is not `estimate` and, with grid padding, the padding factor is below the number of cells. Violated otherwise: validation turns the wisdom switch into an empty path which the second validation reads as a path, and the padding check is repeated with another mesh; program and Python compute the factor for every survey two-point statistic."
 },
 "C151": {
  "note": "Proved for the functions declared `except +`, and for the particle normalisation factors of both kinds. Violated for the others: three-point measurements end the process exactly for degrees that are no triangle or have an odd sum (accepted as parameters whatever they are, proved), survey two-point measurements exactly when the normalisation parameters are rejected (C150), transforms exactly at poles of the gamma function. Cython behaviour (noexcept default for external functions, table of exception types) is trusted."
 },
 "C152": {
  "note": "C152_same_file_partial: options in lower-case letters, entries set, mesh set, degrees of at most seven digits in all, same source text. C152_window_partial: the same for windows, with the random catalogue centred and spanning less than three boxes (otherwise C130_padded_window_violated, C130_wide_window_violated) and a convention other than mesh-mixed. C152_program_accepts is without such hypotheses. The examples carry sets evaluated with rational numbers over to the real numbers (Lemmas/ParamsCast). C152_box_partial: the same for simulations whose particles surround the middle of the box (otherwise C130_box_violated) and have densities which are not all zero. C152_box_density_violated: for every simulation without densities the program fails, whichever convention is chosen, while Python fills in the mean density and saves a file."
 },
 "C153": {
  "note": "Bispectra of surveys and boxes for every ordered binning. Partial for two-point statistics: edges must be whole multiples of the fine sampling (1e-5 up to 10, or 0.1 up to 100000); C153_fine_bin_violated has a bin of separations narrower than the sampling in which nothing is counted although a vector is recorded."
 },
 "C154": {
  "note": "Reading back is for every list of records. Program and Python: same bins and edges row by row, same rows up to a permutation. Partial: the order of the vectors within a bin depends on the schedule (C154_order_violated)."
 },
 "C155": {
  "note": "Proved for every unit u > 0: the factors of normParticles, normMesh, normMeshes and their three-point versions and of the driver scale as a volume or its square (or fail alike); the raw bispectrum of surveys and boxes scales as a volume squared for all bins; power spectrum, correlation function, shot noise of the bispectrum, three-point correlation function (survey and box) and the two- and three-point windows without wide-angle corrections for bins whose edges are whole multiples of the fine sampling step in both units. Violated: the steps 1e-5, 0.1 and 1 of the fine sampling are absolute numbers (C155_fine_bin_violated), vectors shorter than 1e-9 have no harmonics (C155_direction_violated; hypotheses ResolvedK, ResolvedR exclude meshes with such steps), and the wide-angle kernel leaves the cell at the origin as it is (C155_wide_angle_violated; C155_wide_angle_partial for all other separations)."
 },
 "C156": {
  "note": "Proved for every run with exit status 0 of the modelled program. Violations: C156_ends_violated (default expansion, simulation), C156_density_violated (default mean densities zero when the box is derived), C156_flat_violated (no extent on an axis). Not covered: HDF5 catalogues."
 },
 "C157": {
  "note": "Proved for all catalogues with true bounds and all boxes. C157_silent_centre_partial: safety of silence needs the reference to enclose the catalogue. Violations: C157_centre_violated (data beside the randoms), C157_pad_violated (data below the box), C157_periodise_violated (extent equal to the box). Padding by mesh cells and by NumPy arrays is not covered (C24)."
 },
 "C158": {
  "note": "Proved for all complex arguments, without rounding. A bound on the error of the approximation for moderate arguments is not part of the claim."
 },
 "C159": {
  "note": "C159_normalisation, C159_survey, C159_window and C159_box prove the claim for the models of the normalisations, of the four survey measurements, of both window functions and of the four measurements in a box. C159_weightless_violated: a data particle whose clustering weight alone is zero adds nothing to the fields but halves the data-to-random ratio and the normalisation."
 },
 "C160": {
  "note": "C160_normalisation, C160_powspec, C160_bispec, C160_3pcf, C160_window for any two catalogues with the same distribution of sample weight; C160_shot gives the shot noise of a divided particle. The correlation function and the two-point window have the shot noise subtracted inside the transform and are therefore not covered."
 },
 "C161": {
  "note": "C161_outcome, C161_validation, C161_marks and C161_state are without restriction. C161_other_partial: loggers other than that of setup_logger do not matter if they are enabled neither for information nor for status messages, or if no message is about C++. C161_plain_logger_violated: with a logging.Logger (the documented type) enabled for information messages no measurement function returns results. Checked against the standard library source: Logger._log raises TypeError for the keyword cpp_state."
 },
 "C162": {
  "note": "Partial: proved for catalogues whose middle is a whole number of cells from the middle of the box, and for interlaced two-point statistics also half a cell more on every axis (no particle at a negative multiple of the box size nor, with interlacing, in the faulty region of C07); C162_violated shows that otherwise the two measure different power."
 },
 "C163": {
  "note": "Partial: warnings are proved for programs that do not assign warnings.showwarning; C163_warnings_violated shows that after such an assignment (warnings.catch_warnings on exit) no further setup_logger captures warnings. The standard library is modelled from its documented behaviour."
 },
 "C164": {
  "note": "Proved for every form except that bispectra in the row form stop short of 100 % (between 2/3 and 2/3 + 1/n), because the first field is transformed once but announced per bin. C164_interlaced: if interlacing reached a measurement, the second transform of each forward one would push the count beyond the announced one and end in InvalidDataError; C164_validated composes with C33: validation switches interlacing off for three-point statistics. Progress is an exact fraction (the code has a float, for which a/a = 1 and rounding is monotone)."
 },
 "C165": {
  "note": "Booleans and integers are accepted, read back and acted upon (C165_accepted_partial), and after any history an accepted setting agrees in the dictionary and the C++ member (C165_agree). Violated: every Python float, documented in the template, is refused with a RuntimeError by the read-back int(...), while the program takes it (C165_float_violated); the refused float stays, so that every later assignment to other entries is refused too (C165_refused_stays_violated); words such as off pass validation in the program and make three-point measurements fail at their first term (C165_words_violated)."
 },
 "C166": {
  "note": "The bar, percentage and completion hold for all values (exact arithmetic: with floats the percentage can be one lower, e.g. 0.29f * 100.). Violated: an update moves past at most one node, so that after a jump over several nodes the following updates each show a line however little the progress has grown (C166_spacing_violated)."
 },
 "C167": {
  "note": "Table part proved for all tables. Violated: the test for the message of equal degrees never matches, so the skipping branch is unreachable and the script raises. Names proved for three single digits and for numbers separated by commas."
 },
 "C168": {
  "note": "Proved for templates and modifications without repeated names; the violations cover repeated names (which value is used is proved for every number of repetitions of one parameter), reuse of the list, switches and empty entries. Nested keys are modelled: the entry set and the frame are proved; lists and floats of the Python template are not modelled."
 },
 "C169": {
  "note": "Proved for two-point measurements of two or more bins. Violated for three-point measurements (columns 2 to 8 of the ten saved) and for a single bin (the table is squeezed)."
 },
 "C170": {
  "note": "Proved for all coefficient functions and lists. Violated when there is no term (saved, then ValueError) or a list is missing (TypeError)."
 }
}