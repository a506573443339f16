{"id": "C01", "title": "Task allocation is complete and balanced", "statement": "Dividing a number of tasks among a number of processes always finishes, gives exactly one count per process, the counts add up to the number of tasks, no two counts differ by more than one, and the only inputs rejected are non-integers and non-positive numbers.", "quantifier": "all positive task totals and all positive process totals (including more processes than tasks)", "why_tests_cant": "Tests sample a few (tasks, processes) pairs; the rounding in the running quotient must be right for every pair.", "anchors": ["src/triumvirate/_mpitools.py:allocate_tasks"]}
{"id": "C02", "title": "Distributed task segments tile the task list", "statement": "The index segments handed to the processes are consecutive, disjoint and cover every task exactly once, whether derived from totals or from explicit per-process counts; as documented, a process total given together with explicit counts is ignored.", "quantifier": "all task/process totals, all lists of per-process counts, and any process total given with them", "why_tests_cant": "A dropped or doubly-executed task shows up only for particular pairs; a test on one pair cannot exclude others.", "anchors": ["src/triumvirate/_mpitools.py:distribute_tasks"]}
{"id": "C03", "title": "Window convolution matrix does not depend on the number of processes", "statement": "The convolution matrix generated in parallel is, for every process count and every pattern of segment sizes, the same as the one generated by a single process; and multiplying it with a sample vector gives the same result as convolving that vector directly.", "quantifier": "all process counts, all matrix dimensions, all linear convolutions and all input vectors", "why_tests_cant": "Depends on the number of MPI ranks and on segment sizes; tests run with one or two ranks.", "anchors": ["src/triumvirate/winconv.py:BispecWinConv.gen_winconv_mat", "src/triumvirate/_mpitools.py"]}
{"id": "C04", "title": "Mesh assignment weights form a partition of unity", "statement": "For each of the four assignment schemes the per-axis weights of a particle are non-negative and sum to exactly one.", "quantifier": "all particle positions in the box, all box sizes, all grid numbers", "why_tests_cant": "Continuous range of positions and the branch at half-cell offsets.", "anchors": ["src/triumvirate/src/field.cpp:assign_weighted_field_to_mesh_ngp/cic/tsc/pcs"]}
{"id": "C05", "title": "Mesh assignment conserves the total weight and stays in bounds", "statement": "After assigning a weighted catalogue to the mesh, the sum of the mesh field times the cell volume equals the sum of the particle weights, and every mesh cell written lies inside the allocated mesh.", "quantifier": "all catalogues with positions in [0, L) on each axis, all weights, all box sizes, grid numbers large enough for the scheme, all four schemes", "why_tests_cant": "A particle leaking at a particular boundary cell is invisible unless a test happens to hit it.", "anchors": ["src/triumvirate/src/field.cpp:MeshField::assign_weighted_field_to_mesh*"]}
{"id": "C06", "title": "Mesh assignment does not depend on thread scheduling or particle order", "statement": "The mesh field obtained by the parallel assignment loop is the same for every order in which the particles are processed by the threads.", "quantifier": "all catalogues and all interleavings of the (atomic) cell updates", "why_tests_cant": "Schedules cannot be enumerated by tests.", "anchors": ["src/triumvirate/src/field.cpp:MeshField::assign_weighted_field_to_mesh*"]}
{"id": "C07", "title": "Interlaced mesh conserves weight", "statement": "With interlacing enabled the half-cell-shifted companion mesh receives, like the main mesh, exactly the total particle weight and only at cells inside the mesh.", "quantifier": "all catalogues with positions in [0, L), all schemes and grid numbers", "why_tests_cant": "The defects appear only for particles in the last cell of an axis or exactly on the half-cell boundary.", "anchors": ["src/triumvirate/src/field.cpp:MeshField::assign_weighted_field_to_mesh* (field_s branches)"]}
{"id": "C08", "title": "Mesh assignment commutes with whole-cell periodic translation", "statement": "Translating all particles by a whole number of grid cells (periodically) translates the mesh field by the same number of cells (periodically).", "quantifier": "all catalogues in the box, all whole-cell shifts, all four schemes", "why_tests_cant": "Requires all positions and shifts including those crossing the periodic boundary.", "anchors": ["src/triumvirate/src/field.cpp:MeshField::assign_weighted_field_to_mesh*"]}
{"id": "C09", "title": "Mesh cell indexing is a bijection", "statement": "The flattened cell index is in range for every triplet of axis indices, distinct triplets get distinct cells, every cell is reached, and it is in row-major (last axis fastest) order.", "quantifier": "all grid dimensions and all index triplets", "why_tests_cant": "Must hold for every mesh shape, including non-cubic ones.", "anchors": ["src/triumvirate/src/field.cpp:MeshField::ret_grid_index", "src/triumvirate/src/maths.cpp:get_grid_index"]}
{"id": "C10", "title": "Fourier mode ordering", "statement": "On each axis the physical wavevector assigned to the FFT index is congruent to that index modulo the grid number, runs over one full period, and (for the even grid numbers produced by the program) lies in the symmetric Nyquist range so that every mode other than the Nyquist one is paired with its negative.", "quantifier": "all grid numbers and all indices", "why_tests_cant": "Must hold for every grid number; odd numbers behave differently from even ones.", "anchors": ["src/triumvirate/src/field.cpp:shift_grid_indices_fourier,get_grid_wavevector", "src/triumvirate/src/maths.cpp"]}
{"id": "C11", "title": "Assignment window never vanishes and is history independent", "statement": "The assignment-window compensation never divides by zero for any mode of the mesh, its value lies in (0,1], it is even in the wavevector, and the cached value used after any sequence of earlier requests equals the freshly computed one.", "quantifier": "all meshes, modes, assignment orders and histories of window requests", "why_tests_cant": "Histories of cache use and all modes are not enumerable.", "anchors": ["src/triumvirate/src/field.cpp:calc_assignment_window_in_fourier,compute_assignment_window_in_fourier,apply_assignment_compensation"]}
{"id": "C12", "title": "Shot-noise aliasing function is the alias-summed window power and positive", "statement": "The closed-form aliasing factors used for each assignment scheme equal the discretely-summed squared assignment weights transform (averaged over particle positions within a cell) and are strictly positive for every mode, so dividing by them is safe.", "quantifier": "all wavenumbers and all four schemes", "why_tests_cant": "Identity of functions on a continuum.", "anchors": ["src/triumvirate/src/field.cpp:calc_shotnoise_aliasing and helpers"]}
{"id": "C13", "title": "Fluctuation field of a periodic box has zero mean", "statement": "Subtracting the mean number density from the assigned field gives a field that sums to zero over the box, so the zero mode carries no power.", "quantifier": "all catalogues in the box, box sizes, grid numbers and schemes", "why_tests_cant": "Holds because of exact weight conservation on every input.", "anchors": ["src/triumvirate/src/field.cpp:compute_unweighted_field_fluctuations_insitu"]}
{"id": "C14", "title": "Data and random weights are combined identically in the main and interlaced fields", "statement": "A weighted field built from one catalogue with a scaling factor applies the same scaling to the interlaced companion as to the main field.", "quantifier": "all catalogues and scaling factors", "why_tests_cant": "Only a relation between two internal arrays; tests with factor 1 or interlacing off cannot see it.", "anchors": ["src/triumvirate/src/field.cpp:compute_ylm_wgtd_field,compute_ylm_wgtd_quad_field"]}
{"id": "C15", "title": "Linear binning is a partition of the range", "statement": "Linear binning gives exactly n bins with n+1 increasing, equally spaced edges running from the minimum to the maximum, each centre the midpoint and each width the difference of its edges, and every value in [min, max) falls in exactly one bin.", "quantifier": "all ranges with min < max and all positive bin numbers", "why_tests_cant": "For every n and every real range.", "anchors": ["src/triumvirate/src/dataobjs.cpp:Binning::set_bins,compute_binning", "src/triumvirate/dataobjs.pyx:Binning"]}
{"id": "C16", "title": "Logarithmic binning is a partition of the range", "statement": "Logarithmic binning gives n bins with n+1 increasing edges in constant ratio from the minimum to the maximum, with centres and widths consistent with the edges, and rejects a zero minimum.", "quantifier": "all ranges with 0 < min < max and all positive bin numbers", "why_tests_cant": "Real-analysis identity for every n.", "anchors": ["src/triumvirate/src/dataobjs.cpp:Binning::compute_binning (log)"]}
{"id": "C17", "title": "Padded binning has the requested number of bins", "statement": "Padded binning yields the requested number of bins with consistent, increasing edges that begin at zero and end at the maximum for every bin number accepted by the binning call.", "quantifier": "all bin numbers accepted by the setter, all maxima above the padding", "why_tests_cant": "Needs all bin numbers; small ones behave differently.", "anchors": ["src/triumvirate/src/dataobjs.cpp:Binning::compute_binning (linpad/logpad)"]}
{"id": "C18", "title": "Grid-based binning has the documented width and maximum", "statement": "Binning set from a mesh has bin width equal to the grid resolution (or fundamental wavenumber) and maximum equal to half the box size (or Nyquist wavenumber), as documented.", "quantifier": "all box sizes and grid numbers", "why_tests_cant": "Claim over all meshes; existing tests compare to the implementation's own numbers.", "anchors": ["src/triumvirate/src/dataobjs.cpp:Binning::set_bins(boxsize_max, ngrid_min)", "src/triumvirate/dataobjs.pyx:Binning.set_grid_based_bins"]}
{"id": "C19", "title": "Custom binning keeps edges, centres, widths and bin number consistent", "statement": "Binning defined by custom edges has one fewer bins than edges with centres and widths derived from them; the main program's built-in custom binning has as many centres and widths as bins and one more edge.", "quantifier": "all edge lists of length at least two; all bin numbers", "why_tests_cant": "Relation must hold for every list and bin number.", "anchors": ["src/triumvirate/src/dataobjs.cpp:Binning::set_bins(bin_edges)", "src/triumvirate/dataobjs.pyx:Binning.set_custom_bins", "src/triumvirate/main/triumvirate.cpp:_set_custom_bins"]}
{"id": "C20", "title": "A failed binning update leaves the binning unchanged", "statement": "If setting bins is rejected, the binning object still describes the same bins as before (range, number, edges, centres and widths mutually consistent).", "quantifier": "all histories of binning calls, successful or rejected", "why_tests_cant": "Quantifies over histories with failures at any point.", "anchors": ["src/triumvirate/dataobjs.pyx:Binning.set_bins,set_custom_bins", "src/triumvirate/src/dataobjs.cpp:Binning::set_bins"]}
{"id": "C21", "title": "Each Fourier mode or separation is counted in exactly the bin containing it", "statement": "In two-point measurements every mesh mode whose wavenumber lies in the binning range is counted in the unique bin whose [lower, upper) interval contains its wavenumber, and in no other.", "quantifier": "all wavenumbers and all increasing bin edges", "why_tests_cant": "Misassignment happens only for modes close to bin edges.", "anchors": ["src/triumvirate/src/field.cpp:FieldStats::compute_ylm_wgtd_2pt_stats_in_fourier"]}
{"id": "C22", "title": "Binned-vector records are complete, unique and ordered", "statement": "Recording binned vectors returns exactly one record for each mesh vector whose length lies in a bin, none for others, ordered by bin, for every thread schedule.", "quantifier": "all meshes, all binnings and all schedules of the recording loop", "why_tests_cant": "Schedules and meshes cannot be enumerated.", "anchors": ["src/triumvirate/src/field.cpp:FieldStats::record_binned_vectors", "src/triumvirate/fieldmesh.py:record_binned_vectors"]}
{"id": "C23", "title": "Centring a catalogue", "statement": "Centring places the midpoint of the reference catalogue's extents at the box centre, shifts both catalogues by one common vector so all separations within and between them are preserved, keeps every particle of the reference in the box whenever its extent fits, and repeating it changes nothing.", "quantifier": "all non-empty catalogues and box sizes; catalogue with or without a distinct reference", "why_tests_cant": "For every set of positions; aliasing of the two catalogues is a special case that tests miss.", "anchors": ["src/triumvirate/catalogue.py:ParticleCatalogue.centre", "src/triumvirate/src/particles.cpp:centre_in_box"]}
{"id": "C24", "title": "Padding a catalogue", "statement": "Padding places the reference catalogue's minimum coordinates exactly at the requested padding from the box origin, preserves all separations, and with percentage and grid padding describing the same distance gives the same result.", "quantifier": "all non-empty catalogues, box sizes, grid numbers and padding amounts", "why_tests_cant": "For every set of positions and padding.", "anchors": ["src/triumvirate/catalogue.py:ParticleCatalogue.pad", "src/triumvirate/src/particles.cpp:pad_in_box,pad_grids"]}
{"id": "C25", "title": "Periodic wrapping puts every particle in the box", "statement": "Periodic wrapping moves each coordinate by a whole number of box lengths into [0, L).", "quantifier": "all coordinates (including negative multiples of the box size) and all positive box sizes, in both the Python and C++ implementations", "why_tests_cant": "Exceptional points form a measure-zero set.", "anchors": ["src/triumvirate/catalogue.py:ParticleCatalogue.periodise", "src/triumvirate/src/particles.cpp:offset_coords_for_periodicity"]}
{"id": "C26", "title": "Reported catalogue bounds are always the true extents", "statement": "After any sequence of catalogue operations the reported bounds equal the minimum and maximum of the current coordinates on each axis, and the reported totals are those of the current particles.", "quantifier": "all histories of offset, centre, pad, periodise and column assignment", "why_tests_cant": "Quantifies over operation histories.", "anchors": ["src/triumvirate/catalogue.py:ParticleCatalogue.__setitem__,offset_coords,centre,pad,periodise,_calc_bounds"]}
{"id": "C27", "title": "Lines of sight are unit vectors parallel to the positions", "statement": "The computed line of sight of each particle has unit length and points along its position, except for a particle at the origin whose line of sight is zero; rescaling positions by a positive factor leaves it unchanged.", "quantifier": "all positions", "why_tests_cant": "Continuum of positions and the zero vector.", "anchors": ["src/triumvirate/catalogue.py:ParticleCatalogue.compute_los"]}
{"id": "C28", "title": "Box size is derived from the catalogue when not given", "statement": "When the box size is not supplied, a measurement derives it by multiplying the catalogue's extent on each axis by the expansion factor.", "quantifier": "all catalogues and expansion factors", "why_tests_cant": "No test exercises the branch; claim is over every catalogue.", "anchors": ["src/triumvirate/twopt.py:_compute_2pt_stats_survey_like,_compute_2pt_stats_sim_like", "src/triumvirate/catalogue.py:ParticleCatalogue._calc_bounds"]}
{"id": "C29", "title": "Normalisation on a mesh leaves catalogues unchanged", "statement": "Computing a normalisation factor by mesh assignment leaves particle positions of the catalogues as they were before the call.", "quantifier": "all catalogues, box sizes and padding", "why_tests_cant": "Side effects over all inputs.", "anchors": ["src/triumvirate/src/twopt.cpp:calc_powspec_normalisation_from_meshes"]}
{"id": "C30", "title": "Memory accounting returns to its starting value", "statement": "After any sequence of loading, re-loading and releasing a catalogue's particle data the tracked memory equals the memory actually held, so it returns to zero once released, and the reported maximum is the running maximum.", "quantifier": "all histories of initialise/release calls with arbitrary particle numbers", "why_tests_cant": "Quantifies over histories.", "anchors": ["src/triumvirate/src/particles.cpp:initialise_particles,reset_particles,finalise_particles", "src/triumvirate/src/monitor.cpp:update_maxmem"]}
{"id": "C31", "title": "Grid number from cutoff is even, sufficient and minimal", "statement": "The grid number derived from a cutoff is even, has a Nyquist wavenumber (or grid spacing) resolving the cutoff, and no smaller even number does; the Python and C++ derivations agree.", "quantifier": "all positive box sizes and cutoffs, both spaces", "why_tests_cant": "Ceiling and parity interplay over a continuum of box sizes.", "anchors": ["src/triumvirate/parameters.pyx:_set_ngrid_from_cutoff", "src/triumvirate/src/parameters.cpp:ParameterSet::set_ngrid_from_cutoff"]}
{"id": "C32", "title": "Parameter validation terminates", "statement": "Validating any parameter set finishes, either accepting or rejecting it.", "quantifier": "all parameter values", "why_tests_cant": "Non-termination appears only for a particular combination of values.", "anchors": ["src/triumvirate/src/parameters.cpp:ParameterSet::validate,set_ngrid_from_cutoff"]}
{"id": "C33", "title": "Accepted parameter sets are well-formed", "statement": "Whenever validation accepts a parameter set, the derived parameters (N-point order, space, shape, assignment order, interlacing, mesh size and volume) are the documented functions of the inputs, three-point statistics never use interlacing, and bin numbers, bin range and row/diagonal index are consistent; validating again changes nothing.", "quantifier": "all parameter sets", "why_tests_cant": "Large product space of categorical and numeric parameters.", "anchors": ["src/triumvirate/src/parameters.cpp:ParameterSet::validate"]}
{"id": "C34", "title": "Copies of a parameter set equal the original", "statement": "Copying a parameter set yields a parameter set with the same values for all parameters.", "quantifier": "all parameter sets", "why_tests_cant": "One forgotten field goes unnoticed when its value is the default.", "anchors": ["src/triumvirate/src/parameters.cpp:ParameterSet::ParameterSet(const ParameterSet&)", "src/triumvirate/include/parameters.hpp"]}
{"id": "C35", "title": "A rejected parameter assignment leaves the parameter set unchanged", "statement": "If assigning or updating a parameter raises an error, the parameter set still has its previous values, and the Python view and the underlying C++ parameters never diverge.", "quantifier": "all histories of item/attribute assignments and updates, accepted or rejected", "why_tests_cant": "Quantifies over histories with failures at any point.", "anchors": ["src/triumvirate/parameters.pyx:ParameterSet.__setitem__,__setattr__,update,_parse_params,_validate"]}
{"id": "C36", "title": "Three-point data-vector layout is a bijection", "statement": "For each form (diagonal, off-diagonal, row, full, upper-triangular) the map from bin pairs to data-vector positions is a bijection between the bin pairs of that form and 0..dim-1, in row-major order.", "quantifier": "all bin numbers, index offsets and forms", "why_tests_cant": "For every bin number.", "anchors": ["src/triumvirate/src/threept.cpp:compute_bispec (dv_dim and index maps)"]}
{"id": "C37", "title": "Three-point shot-noise correction writes stay inside the data vector", "statement": "Every entry written when adding shot-noise corrections lies inside the allocated data vector.", "quantifier": "all bin numbers, forms and multipole degrees", "why_tests_cant": "Writing one past the end usually does not crash.", "anchors": ["src/triumvirate/src/threept.cpp:compute_bispec,compute_bispec_in_gpp_box,..."]}
{"id": "C38", "title": "Redundant spherical orders are each counted exactly once", "statement": "The sum over spherical orders evaluates one member of each {m, -m} pair with the mirror factor accounting for the other, so every triplet with non-vanishing coupling contributes exactly once.", "quantifier": "all multipole degree triplets and all orders", "why_tests_cant": "All degrees.", "anchors": ["src/triumvirate/src/threept.cpp:compute_bispec (term loop), SphericalOrderTriplet"]}
{"id": "C39", "title": "Reshaping a flattened three-point table", "statement": "Reshaping a flattened three-point data table gives a square matrix that is symmetric in the upper-triangular form, recovers the table when flattened again, agrees with the layout produced by the measurement, and tables of impossible length are rejected.", "quantifier": "all table lengths and contents", "why_tests_cant": "All lengths; consistency between two implementations of a layout.", "anchors": ["src/triumvirate/_arrayops.py:reshape_threept_datatab", "src/triumvirate/src/threept.cpp"]}
{"id": "C40", "title": "1-d extrapolation preserves the samples and the law", "statement": "Extrapolation returns the input samples unchanged in the middle of an array longer by twice the extension, linear (log-linear) extrapolation of a linear (geometric) sequence is that sequence, constant padding is constant, and the Python and C++ versions agree.", "quantifier": "all arrays of length at least two and all extension lengths", "why_tests_cant": "All lengths and contents.", "anchors": ["src/triumvirate/_arrayops.py:extrap_pad,extrap_lin,extrap_loglin", "src/triumvirate/src/arrayops.cpp:extrap_*"]}
{"id": "C41", "title": "Oscillation-safe extrapolation never diverges", "statement": "The oscillation-safe log-linear extrapolation never produces samples larger in magnitude than the end samples.", "quantifier": "all arrays and extension lengths", "why_tests_cant": "All contents.", "anchors": ["src/triumvirate/_arrayops.py:extrap_loglin_oscil"]}
{"id": "C42", "title": "2-d extrapolation has the requested shape and keeps the samples", "statement": "2-d extrapolation by given row and column extensions gives an array enlarged by exactly these on each side with the input in the middle; extrapolating rows first or columns first gives the same linear extrapolation.", "quantifier": "all matrices and all (possibly different) row/column extensions", "why_tests_cant": "Swapped extensions are invisible when they are equal.", "anchors": ["src/triumvirate/_arrayops.py:extrap2d_pad,extrap2d_lin,extrap2d_loglin"]}
{"id": "C43", "title": "Sorted input arrays are accepted", "statement": "Array checks that require sortedness accept exactly the arrays that are monotonically sorted.", "quantifier": "all 1-d and 2-d arrays", "why_tests_cant": "Characterisation over all arrays.", "anchors": ["src/triumvirate/_arrayops.py:_check_1d_array,_check_2d_array", "src/triumvirate/src/arrayops.cpp:check_1d_array"]}
{"id": "C44", "title": "Index sorting returns a sorting permutation", "statement": "Index sorting returns a permutation of all indices which sorts the data.", "quantifier": "all arrays", "why_tests_cant": "All lengths and contents.", "anchors": ["src/triumvirate/src/arrayops.cpp:get_sorted_indices"]}
{"id": "C45", "title": "FFTLog transform size", "statement": "The internal transform size is the smallest power of two at least the expansion factor times the sample size, and the extended samples keep the original ones centred, for every even sample size.", "quantifier": "all sample sizes and expansion factors", "why_tests_cant": "All sizes.", "anchors": ["src/triumvirate/src/fftlog.cpp:HankelTransform::initialise", "src/triumvirate/transforms.py:SphericalBesselTransform"]}
{"id": "C46", "title": "FFTLog transform of real data is real", "statement": "The transform of real samples is real for every sample number, order, bias and pivot.", "quantifier": "all real sample vectors and transform settings", "why_tests_cant": "All vectors.", "anchors": ["src/triumvirate/src/fftlog.cpp:compute_kernel_coefficients,biased_transform"]}
{"id": "C47", "title": "FFTLog forward then backward transform is the identity", "statement": "Applying the transform with opposite bias and the matching reciprocal sample points to the output recovers the input samples, given the low-ringing pivot; without it an even sample size may break the identity.", "quantifier": "all sample vectors, sizes, orders and biases", "why_tests_cant": "All vectors and sizes.", "anchors": ["src/triumvirate/src/fftlog.cpp:HankelTransform::biased_transform,calc_lowring_pivot"]}
{"id": "C48", "title": "FFTLog sample points are reciprocal", "statement": "The output sample points are increasing, logarithmically spaced like the input with product with the reversed input points constant, applying it twice returns the original points, and the extended output points continue the same spacing.", "quantifier": "all log-linear sample points, pivots and extension lengths", "why_tests_cant": "All sizes.", "anchors": ["src/triumvirate/src/fftlog.cpp:HankelTransform::initialise"]}
{"id": "C49", "title": "Transforms do not alter the caller's arrays", "statement": "Transforming an array leaves the caller's array unchanged, so transforming the same array twice gives the same result.", "quantifier": "all sample arrays and extrapolation settings", "why_tests_cant": "Aliasing effects over all settings.", "anchors": ["src/triumvirate/transforms.py:SphericalBesselTransform.transform,DoubleSphericalBesselTransform.transform"]}
{"id": "C50", "title": "Multipole ordering is a strict total order", "statement": "Multipoles compare consistently: exactly one of less-than, equal and greater-than holds for any two multipoles of one kind, so sorting is well-defined and independent of input order.", "quantifier": "all pairs/triplets of multipole degrees", "why_tests_cant": "All degrees.", "anchors": ["src/triumvirate/winconv.py:Multipole"]}
{"id": "C51", "title": "Built-in two-point window convolution formula is correct", "statement": "The built-in two-point convolution formula gives the multipoles of the product of window and correlation function, for every window and correlation multipole function (up to the degrees included).", "quantifier": "all multipole functions of the window and the correlation function", "why_tests_cant": "Polynomial identity over all functions.", "anchors": ["src/triumvirate/winconv.py:NAMED_FORMULAE", "src/triumvirate/winconv.py:TwoPCFWinConv.convolve"]}
{"id": "C52", "title": "Window convolution is linear and trivial for a trivial window", "statement": "Convolution is linear in the model multipoles, and a window with unit monopole and vanishing higher multipoles returns the input multipoles unchanged.", "quantifier": "all sample arrays and multipole sets", "why_tests_cant": "All vectors.", "anchors": ["src/triumvirate/winconv.py:TwoPCFWinConv.convolve,ThreePCFWinConv.convolve"]}
{"id": "C53", "title": "Sub-selecting window samples", "statement": "Sub-selecting a window returns (or keeps) the samples in the requested range for every multipole, leaving the original untouched when not in place.", "quantifier": "all windows and ranges", "why_tests_cant": "All ranges and call forms.", "anchors": ["src/triumvirate/winconv.py:ThreePointWindow.subselect"]}
{"id": "C54", "title": "Restored warnings are unique and ordered", "statement": "Re-issuing collected warnings issues each distinct warning exactly once in order of first occurrence.", "quantifier": "all lists of warnings", "why_tests_cant": "All lists.", "anchors": ["src/triumvirate/_mpitools.py:restore_warnings"]}
{"id": "C55", "title": "Elapsed time display is exact", "statement": "The displayed hours:minutes:seconds value denotes the elapsed time, with minutes and seconds below sixty and two digits, and distinct whole-second durations have distinct displays.", "quantifier": "all non-negative durations", "why_tests_cant": "All durations.", "anchors": ["src/triumvirate/src/monitor.cpp:show_elapsed_time", "src/triumvirate/logger.py"]}
{"id": "C56", "title": "String splitting and joining are inverse", "statement": "Joining the pieces of a split string restores it (up to a single trailing delimiter), splitting a joined list of non-empty delimiter-free pieces restores the list, and splitting always terminates; the file-extension test holds exactly for suffixes.", "quantifier": "all strings and delimiters", "why_tests_cant": "All strings.", "anchors": ["src/triumvirate/src/monitor.cpp:split_string,join_strings,has_extension"]}
{"id": "C57", "title": "Reduced spherical harmonics obey the conjugation symmetry", "statement": "The reduced spherical harmonic of order -m is (-1)^m times the complex conjugate of that of order m, which underlies the halving of the order sum.", "quantifier": "all degrees, orders and directions", "why_tests_cant": "All degrees and directions.", "anchors": ["src/triumvirate/src/maths.cpp:calc_reduced_spherical_harmonic"]}
{"id": "C58", "title": "Power spectrum is invariant under rescaling of weights", "statement": "Rescaling all clustering weights of data and randoms by a common factor leaves the normalised power spectrum, normalised shot noise, and normalised bispectrum unchanged.", "quantifier": "all catalogues, weights and scale factors", "why_tests_cant": "All catalogues.", "anchors": ["src/triumvirate/src/twopt.cpp:normalisation, shot noise", "src/triumvirate/src/threept.cpp"]}
{"id": "C59", "title": "Field compatibility check is sound", "statement": "If two mesh fields are reported compatible with the statistics object then they all share box size, grid number and volume.", "quantifier": "all pairs of mesh fields", "why_tests_cant": "All combinations of mesh settings.", "anchors": ["src/triumvirate/src/field.cpp:FieldStats::if_fields_compatible"]}
{"id": "C60", "title": "Progress bar nodes", "statement": "The progress bar's default nodes are the percentage points, nodes set by interval strictly increase to one, and updating progress never reads beyond the nodes for any sequence of updates.", "quantifier": "all intervals and all sequences of progress updates", "why_tests_cant": "Sequences of updates.", "anchors": ["src/triumvirate/src/monitor.cpp:ProgressBar"]}
{"id": "C61", "title": "Oscillation-safe extrapolation accepts short arrays", "statement": "The oscillation-safe log-linear extrapolation accepts every one-dimensional array that passes the shape check (at least two samples), as the linear and padding extrapolations do.", "quantifier": "all arrays with at least two samples and all extension sizes", "why_tests_cant": "Which lengths and sign patterns are accepted depends on array slices for every input.", "anchors": ["src/triumvirate/_arrayops.py:extrap_loglin_oscil", "src/triumvirate/_arrayops.py:_check_1d_array"]}
{"id": "C62", "title": "Operations on released particle data are rejected", "statement": "Any coordinate or weight operation on a C++ catalogue whose particle data have been released reports the missing data instead of accessing memory.", "quantifier": "all catalogues and operations, after any release", "why_tests_cant": "Needs every operation after a release.", "anchors": ["src/triumvirate/src/particles.cpp:offset_coords, offset_coords_for_periodicity, calc_pos_extents, calc_total_weights, centre_in_box"]}
{"id": "C63", "title": "Dedicated normalisation mesh holds both catalogues", "statement": "The box of the dedicated normalisation mesh is a whole, even number of cells of the requested size, is at least the largest extent of either catalogue enlarged by the padding, and exceeds that by less than two cells.", "quantifier": "all catalogue extents, paddings and cell sizes", "why_tests_cant": "Continuous extents and the parity rounding.", "anchors": ["src/triumvirate/src/twopt.cpp:calc_powspec_normalisation_from_meshes (mixed-mesh overload)"]}
{"id": "C64", "title": "Text catalogue loading", "statement": "Loading a text catalogue gives one particle for each data line in order, over all its files, with the columns named by the user wherever they are, the documented defaults for missing optional columns and true totals and extents; a missing coordinate column or malformed line is reported; and after a failed attempt the catalogue can be loaded again.", "quantifier": "all column lists, all contents of the files, all numbers of files", "why_tests_cant": "Column orders and file contents are unbounded.", "anchors": ["src/triumvirate/src/particles.cpp:load_catalogue_file"]}
{"id": "C65", "title": "Derived box contains the aligned catalogues", "statement": "When the program derives the box size from the catalogues, all particles of all catalogues are inside the box after the alignment.", "quantifier": "all catalogues and expansion factors of at least one, for survey, simulation and random catalogues", "why_tests_cant": "Depends on the relative extents of data and random catalogues.", "anchors": ["src/triumvirate/main/triumvirate.cpp (box alignment)", "src/triumvirate/src/parameters.cpp:set_boxsize_from_expand"]}
{"id": "C66", "title": "Log labels", "statement": "A message logged at a standard level at or above the limit is printed with that level's label; one below the limit is not printed.", "quantifier": "all levels and limits", "why_tests_cant": "The generic logging function is reachable through any level and limit.", "anchors": ["src/triumvirate/src/monitor.cpp:Logger::log"]}
{"id": "C67", "title": "Build time in UTC", "statement": "The reported build time is a valid calendar date and time denoting the build instant.", "quantifier": "all build times and time zone offsets below a day", "why_tests_cant": "Depends on the date and time zone of the build.", "anchors": ["src/triumvirate/src/monitor.cpp:get_build_datetime"]}
{"id": "C68", "title": "Environment variables in paths", "statement": "Each ${NAME} in a path is replaced by the value if the variable is set and kept otherwise, values are not expanded again, and other text is unchanged.", "quantifier": "all paths and environments", "why_tests_cant": "All strings and environments.", "anchors": ["src/triumvirate/src/monitor.cpp:expand_envar_in_path"]}
{"id": "C69", "title": "Accepted boxes and meshes are usable", "statement": "Whenever validation accepts a parameter set with a box and a mesh, all box sides and all grid numbers are positive.", "quantifier": "all parameter sets", "why_tests_cant": "Only products of sides and of grid numbers are checked, so signs can cancel; tests use positive sides.", "anchors": ["src/triumvirate/src/parameters.cpp:ParameterSet::validate"]}
{"id": "C70", "title": "A line of a parameter file sets only the parameter it names", "statement": "Reading a line 'name = value' changes the value of the named parameter only.", "quantifier": "all lines and all previously scanned values", "why_tests_cant": "Depends on whether any parameter name occurs anywhere in a line, including file names and trailing remarks.", "anchors": ["src/triumvirate/src/parameters.cpp:ParameterSet::read_from_file"]}
{"id": "C71", "title": "The file of used parameters can be read back", "statement": "Reading the used-parameter file printed for an accepted parameter set gives an accepted parameter set with the same values.", "quantifier": "all accepted parameter sets", "why_tests_cant": "Quantifies over all parameter sets; the printed file is not read back in tests.", "anchors": ["src/triumvirate/src/parameters.cpp:ParameterSet::print_to_file,read_from_file"]}
{"id": "C72", "title": "The box derived from the catalogue is used", "statement": "When the box size is unset, the measurement routines set the box size to the expanded extent of the catalogue and measure with it.", "quantifier": "all catalogues and parameter sets with an unset box side", "why_tests_cant": "Tests give a box size; the derived value must reach both the Python dictionary and the C++ parameters.", "anchors": ["src/triumvirate/twopt.py:_compute_2pt_stats_survey_like,_compute_2pt_stats_sim_like", "src/triumvirate/threept.py:_compute_3pt_stats_survey_like,_compute_3pt_stats_sim_like", "src/triumvirate/parameters.pyx:ParameterSet._validate"]}
{"id": "C73", "title": "A cutoff can replace the grid numbers", "statement": "A parameter dictionary with a box size and a Nyquist cutoff but without grid numbers is accepted, and the grid numbers are derived.", "quantifier": "all parameter dictionaries with a positive volume and unset grid numbers", "why_tests_cant": "Quantifies over all dictionaries; depends on the order in which derived entries are filled in.", "anchors": ["src/triumvirate/parameters.pyx:ParameterSet._parse_params,_set_ngrid_from_cutoff"]}
{"id": "C74", "title": "Interlaced shot-noise aliasing factor is positive", "statement": "With interlacing enabled, the isotropic approximation of the shot-noise aliasing factor, by which each mode of the power spectrum and of its shot noise is divided, is strictly positive for every mode of the mesh.", "quantifier": "all meshes, modes and assignment schemes", "why_tests_cant": "All meshes and modes; the zero appears only for particular combinations of odd grid numbers.", "anchors": ["src/triumvirate/src/field.cpp:calc_shotnoise_aliasing_interlaced_isoapprox,get_shotnoise_aliasing_sin2_cos2_isoapprox"]}
{"id": "C75", "title": "Power laws are transformed exactly by FFTLog", "statement": "Every log-periodic power law (exponent an imaginary multiple of the fundamental log-frequency, below the Nyquist one) sampled on log-spaced points is mapped, at every output point, to the analytic Mellin kernel at that frequency times the conjugate power law of the output point.", "quantifier": "all orders, biases, pivots, log-spaced sample points and log-frequencies below the Nyquist frequency", "why_tests_cant": "Quantifies over all reals; a test compares finitely many samples with a tolerance.", "anchors": ["src/triumvirate/src/fftlog.cpp:HankelTransform::compute_kernel_coeff,biased_transform,initialise"]}
{"id": "C76", "title": "Orders and biases are rejected exactly at the poles of the gamma functions", "statement": "The Hankel transform constructor raises for an order and bias exactly when one of the gamma functions of the kernel has a pole at zero frequency.", "quantifier": "all real orders and biases", "why_tests_cant": "The rejected set is an infinite union of lines in the plane of orders and biases.", "anchors": ["src/triumvirate/src/fftlog.cpp:HankelTransform::HankelTransform"]}
{"id": "C77", "title": "Multipole transform forward then backward is the identity", "statement": "Transforming a cosmological multipole from configuration to Fourier space and back, with the backward transform initialised at the output points and pivot of the forward one, returns the samples, including the powers of i and of 2 pi.", "quantifier": "all degrees, samples, log-spaced positive sample points with odd size or low-ringing pivot", "why_tests_cant": "All sample vectors and sizes; depends on exact cancellation of phases.", "anchors": ["src/triumvirate/src/fftlog.cpp:SphericalBesselTransform::transform_cosmological_multipole", "src/triumvirate/transforms.py:SphericalBesselTransform.transform_cosmo_multipoles"]}
{"id": "C78", "title": "The C++ spherical Bessel transform sizes its output", "statement": "The spherical Bessel transform accepts an output vector of any size and resizes it to the sample size.", "quantifier": "all initialised transforms, input vectors and output sizes", "why_tests_cant": "All sizes; an output vector that is too short is written out of bounds, which may go unnoticed.", "anchors": ["src/triumvirate/src/fftlog.cpp:SphericalBesselTransform::biased_transform"]}
{"id": "C79", "title": "Multipoles are read back from their string forms", "statement": "The string form of a multipole, and its abbreviated form, are read back as the same multipole.", "quantifier": "all multipoles (any number of degrees, any degrees)", "why_tests_cant": "All degrees, including two-digit and negative ones.", "anchors": ["src/triumvirate/winconv.py:Multipole.__init__,__str__,abstr"]}
{"id": "C80", "title": "Sample points of a window convolution are checked for what the formula requires", "statement": "Construction succeeds exactly when the sample points include every multipole required by the formula; afterwards convolution of samples with matching sizes does not fail.", "quantifier": "all formulae, windows, sample points and samples", "why_tests_cant": "All combinations of multipole sets.", "anchors": ["src/triumvirate/winconv.py:WinConvBase.__init__,initialise_sampts"]}
{"id": "C81", "title": "Samples for convolution may be keyed by any multipole representation", "statement": "Convolution finds samples under any documented representation of a multipole key (multipole, tuple, string or integer), as construction does.", "quantifier": "all windows and samples", "why_tests_cant": "All key representations and formulae.", "anchors": ["src/triumvirate/winconv.py:TwoPCFWinConv.convolve,ThreePCFWinConv.convolve"]}
{"id": "C82", "title": "A constant three-point correlation function is removed by the integral constraint", "statement": "With the integral constraint computed from the samples, the convolution of a constant three-point correlation function vanishes in every multipole, for every window and every documented form of the sample points.", "quantifier": "all windows, sample points and constants", "why_tests_cant": "All windows and call forms.", "anchors": ["src/triumvirate/winconv.py:calc_threept_ic,ThreePCFWinConv.convolve"]}
{"id": "C83", "title": "Built-in three-point window convolution formula is correct", "statement": "The built-in three-point convolution formula gives the tripolar multipoles of the product of the window and the correlation function less the integral constraint, for the multipoles included.", "quantifier": "all multipole functions of the window and the correlation function", "why_tests_cant": "Identity between integrals over all functions.", "anchors": ["src/triumvirate/winconv.py:NAMED_FORMULAE", "src/triumvirate/winconv.py:ThreePCFWinConv.convolve"]}
{"id": "C84", "title": "Diagonal convolution is the diagonal of the convolution", "statement": "Convolving the diagonal of three-point samples gives the diagonal of the convolution of the samples, at output points which are sample points.", "quantifier": "all formulae, windows, samples and sample points", "why_tests_cant": "All sample matrices.", "anchors": ["src/triumvirate/winconv.py:ThreePCFWinConv.convolve,convolve_diag"]}
{"id": "C85", "title": "Construction of a three-point window", "statement": "A three-point window built from flattened tables holds, for every multipole, the separations and alpha squared times the tabulated sample of each pair of separations, with the diagonal of the samples. If the separations are not logarithmically spaced and resampling is requested, then every multipole is resampled at logarithmically spaced separations over the same range, as many as before or as many as requested; otherwise the samples are left alone.", "quantifier": "all tables, all multipoles, all contrasts, all values of make_loglin, all interpolations reproducing their samples", "why_tests_cant": "The default make_loglin=True is a Boolean, which passes the check for an integer; tests use tables which are logarithmically spaced already.", "anchors": ["src/triumvirate/winconv.py:ThreePointWindow.__init__", "src/triumvirate/winconv.py:ThreePointWindow.resample", "src/triumvirate/transforms.py:resample_lglin"]}
{"id": "C86", "title": "The integral constraint makes the windowed monopole integrate to zero", "statement": "With the integral constraint computed from the samples, the windowed three-point monopole integrates to zero over both separations.", "quantifier": "all windows and correlation functions", "why_tests_cant": "All functions; an error in the weight of higher multipoles is not visible for a monopole.", "anchors": ["src/triumvirate/winconv.py:calc_threept_ic,ThreePCFWinConv.convolve"]}
{"id": "C87", "title": "Shot noise amplitude is the self-contribution of the fluctuation field", "statement": "The amplitude of the power-spectrum (bispectrum) shot noise from a pair of catalogues equals the sum over all particles of the harmonic times the square (cube) of the weight with which the particle enters the fluctuation field, i.e. w for data and -alpha w for randoms, as documented in threept.hpp.", "quantifier": "all catalogues, weights and orders", "why_tests_cant": "Tests compare with stored reference results which were computed by the same code.", "anchors": ["src/triumvirate/src/twopt.cpp:calc_ylm_wgtd_shotnoise_amp_for_powspec", "src/triumvirate/src/threept.cpp:calc_ylm_wgtd_shotnoise_amp_for_bispec", "src/triumvirate/include/threept.hpp"]}
{"id": "C88", "title": "Raw monopole power is real and non-negative", "statement": "With positive normalisation, every bin of the raw power spectrum monopole and of its shot noise is real and non-negative, with or without interlacing, for every assignment scheme, from survey-type catalogues and in a periodic box.", "quantifier": "all catalogues, meshes, bins", "why_tests_cant": "All catalogues.", "anchors": ["src/triumvirate/src/twopt.cpp:compute_powspec", "src/triumvirate/src/field.cpp:compute_ylm_wgtd_2pt_stats_in_fourier"]}
{"id": "C89", "title": "No clustering signal from identical catalogues", "statement": "If the data and random catalogues are the same, the raw power spectrum and the raw bispectrum vanish in every bin and at every multipole.", "quantifier": "all catalogues, meshes, multipoles", "why_tests_cant": "All catalogues.", "anchors": ["src/triumvirate/src/twopt.cpp:compute_powspec", "src/triumvirate/src/threept.cpp:compute_bispec", "src/triumvirate/src/field.cpp:compute_ylm_wgtd_field"]}
{"id": "C90", "title": "Forward and inverse Fourier transforms of a mesh field are inverse to each other", "statement": "Without interlacing, applying fourier_transform and then inv_fourier_transform to a mesh field restores every cell.", "quantifier": "all meshes and fields", "why_tests_cant": "All meshes.", "anchors": ["src/triumvirate/src/field.cpp:fourier_transform", "src/triumvirate/src/field.cpp:inv_fourier_transform"]}
{"id": "C91", "title": "Parseval's identity on the mesh", "statement": "Without interlacing, the sum over modes of the squared modulus of the transformed field over the volume equals the sum over cells of the squared modulus of the field times the cell volume.", "quantifier": "all meshes and fields", "why_tests_cant": "All meshes.", "anchors": ["src/triumvirate/src/field.cpp:fourier_transform"]}
{"id": "C92", "title": "Fourier transform of a real field is Hermitian", "statement": "The transform of a real field at the mirror image of a mode is the complex conjugate of the transform at the mode.", "quantifier": "all meshes, real fields and modes", "why_tests_cant": "All meshes.", "anchors": ["src/triumvirate/src/field.cpp:fourier_transform"]}
{"id": "C93", "title": "Power spectrum in a periodic box is invariant under translation", "statement": "Translating all particles in a periodic box by a whole number of cells along each axis (with periodic wrapping) leaves the measured power spectrum unchanged.", "quantifier": "all catalogues in a box, meshes and translations", "why_tests_cant": "All catalogues and translations.", "anchors": ["src/triumvirate/src/twopt.cpp:compute_powspec_in_gpp_box", "src/triumvirate/src/field.cpp"]}
{"id": "C94", "title": "Normalisation convention governs the normalisation alone", "statement": "In the C++ program, the normalisation factor used is the one selected by the convention, is finite and non-zero, and its availability does not depend on quantities which only other conventions use.", "quantifier": "all conventions and catalogue types", "why_tests_cant": "Combination of options.", "anchors": ["src/triumvirate/main/triumvirate.cpp:B.4 Constants"]}
{"id": "C95", "title": "Overriding arguments take effect together", "statement": "A measurement called with arguments which override entries of its parameter set (or of the template, if there is none) uses exactly the parameters with all overrides in effect, and it is accepted whenever those parameters are valid.", "quantifier": "for all parameter sets, all sampling and measurement overrides, and both kinds of measurement", "why_tests_cant": "the tests call measurements with a few fixed overrides; whether an intermediate state is rejected depends on every combination of old and new values", "anchors": ["src/triumvirate/parameters.pyx:640", "src/triumvirate/parameters.pyx:782", "src/triumvirate/twopt.py:59", "src/triumvirate/threept.py:57"]}
{"id": "C96", "title": "Measurements leave the parameter set of the caller as it was", "statement": "A measurement does not change the parameter set passed to it, so that the result of a measurement does not depend on the measurements made earlier with the same parameter set.", "quantifier": "for all parameter sets and all sequences of measurements", "why_tests_cant": "tests make one measurement per parameter set; the effect shows only in sequences of different measurements", "anchors": ["src/triumvirate/twopt.py:121", "src/triumvirate/threept.py:147", "src/triumvirate/parameters.pyx:560"]}
{"id": "C97", "title": "Binned vectors can be recorded for every binning", "statement": "Given a valid binning, a positive box size and positive grid numbers, and no parameter set, the vectors in the bins are recorded; without the box size or the grid numbers a ValueError is raised.", "quantifier": "for all binnings with at least one bin, all boxes and meshes", "why_tests_cant": "tests use one binning with many bins; single-bin binnings and other edge cases are not run", "anchors": ["src/triumvirate/fieldmesh.py:60", "src/parameters.cpp:1141"]}
{"id": "C98", "title": "Parameter sets constructed from one dictionary are independent", "statement": "Constructing a parameter set from a dictionary does not change that dictionary, and assignments in one of several parameter sets constructed from it change no other.", "quantifier": "for all dictionaries, parameter sets and assignments", "why_tests_cant": "tests construct one parameter set per dictionary; aliasing shows only with two live sets and a later assignment", "anchors": ["src/triumvirate/parameters.pyx:134", "src/triumvirate/parameters.pyx:168"]}
{"id": "C99", "title": "Mean density of a catalogue in a volume", "statement": "After compute_mean_density each particle has the density ntotal divided by the volume; the volume is the one given, or the product of the box sizes only when no volume is given; no other column, bound or total is changed; with neither a TypeError is raised.", "quantifier": "for all catalogues, volumes and box sizes", "why_tests_cant": "tests check one catalogue with one box", "anchors": ["src/triumvirate/catalogue.py:460"]}
{"id": "C100", "title": "Particle data loaded from arrays", "statement": "ParticleCatalogue::load_particle_data with six non-empty arrays of equal lengths yields a catalogue holding exactly those particles in order, each with total weight the product of its sample and clustering weights, with total weights and coordinate extents that are true of those particles, and leaves other catalogues unchanged; arrays of different lengths, or empty ones, are rejected.", "quantifier": "all catalogues and histories, all arrays of all lengths", "why_tests_cant": "Tests load a handful of arrays; the claim is for every length and content, and includes that nothing else changes.", "anchors": ["src/triumvirate/src/particles.cpp:512-563", "src/triumvirate/src/particles.cpp:570-640"]}
{"id": "C101", "title": "Raw bispectrum entries are means over closed triangles", "statement": "Each raw entry of compute_bispec is the normalisation factor times the sum over the computed orders of the coupling times the mean, over pairs of Fourier modes in the two bins of the entry and the third mode closing the triangle on the periodic mesh, of the product of the window-compensated weighted fields and the two harmonics; the mode numbers and effective wavenumbers are those of the two bins.", "quantifier": "for all catalogues, meshes, assignment schemes, interlacing settings, degrees, multipoles, binnings and forms", "why_tests_cant": "tests compare a few measurements with stored results of the same code; an error in a volume factor or in the transform conventions is reproduced by both", "anchors": ["src/triumvirate/src/threept.cpp:445", "src/triumvirate/src/field.cpp:1792", "src/triumvirate/src/field.cpp:1657"]}
{"id": "C102", "title": "Computing one of two opposite triplets of orders is exact", "statement": "With the symmetries of the Legendre functions and Wigner symbols, on meshes of even sides and for bins below the Nyquist wavenumber (with interlacing, pairs of bins whose sum is below it), each raw bispectrum entry equals the normalisation times the sum over ALL triplets of orders (m1, m2, M) of coupling times component, although the code computes only one of each two opposite triplets and adds a multiple of the complex conjugate.", "quantifier": "for all catalogues, degrees, multipoles, bins and forms", "why_tests_cant": "the full sum is never computed by the code, so no test can compare with it", "anchors": ["src/triumvirate/src/threept.cpp:357", "src/triumvirate/src/threept.cpp:416"]}
{"id": "C103", "title": "Exchange symmetry and reality of the raw bispectrum", "statement": "Under the conditions of C102, exchanging the degrees and the bins leaves the raw bispectrum unchanged entry by entry, in all forms; and the raw bispectrum is real at even and imaginary at odd multipoles.", "quantifier": "for all catalogues, degrees, multipoles, bins and pairs of forms", "why_tests_cant": "tests do not run pairs of measurements with exchanged degrees", "anchors": ["src/triumvirate/src/threept.cpp:357", "src/triumvirate/src/threept.cpp:445"]}
{"id": "C104", "title": "Convolved bispectrum multipoles are transforms of convolved three-point multipoles", "statement": "BispecWinConv.convolve transforms the input multipoles to configuration space, convolves them there, transforms the result back and samples it at k_out: at output wavenumbers which are sample points of the transform, the output equals the transform (real and imaginary parts), first axis with first axis.", "quantifier": "all windows, formulae, transforms, inputs and output wavenumbers", "why_tests_cant": "Axis order and interpolation at sample points for all arrays; a transposition is invisible for symmetric inputs.", "anchors": ["src/triumvirate/winconv.py:BispecWinConv.convolve"]}
{"id": "C105", "title": "Each three-point correlation entry is a Bessel-weighted sum over closed triangles", "statement": "Each raw entry returned by compute_3pcf, compute_3pcf_in_gpp_box and compute_3pcf_window (without wide-angle corrections) is the normalisation times the sum over the computed orders of couplings times sums over closed triangles of Fourier modes of the compensated fields, two sides weighted by spherical harmonics and by spherical Bessel functions at the effective separations of the two bins of that entry; the line records the centres, effective separations and pair counts of those same two bins.", "quantifier": "all catalogues, meshes, schemes, interlacing, degrees, forms, bins and entries", "why_tests_cant": "The convolution identity and the bookkeeping of rows, columns and positions hold for every mesh and catalogue; tests compare with a stored run.", "anchors": ["src/triumvirate/src/threept.cpp:compute_3pcf", "src/triumvirate/src/threept.cpp:compute_3pcf_in_gpp_box", "src/triumvirate/src/threept.cpp:compute_3pcf_window", "src/triumvirate/src/field.cpp:inv_fourier_transform_sjl_ylm_wgtd_field"]}
{"id": "C106", "title": "The three-point shot noise is the self-pair contribution at equal separations", "statement": "The shot noise of the three-point correlation function vanishes at entries of two different bins, and at equal bins equals the normalisation times the coupled mean, over the shell of separations, of the correlation of the density at the vertex with the squared-weight density at the two coinciding corners, less its own shot noise, with the harmonics of the direction from the vertex; for even and odd ell1 + ell2.", "quantifier": "all catalogues, meshes, degrees, forms and entries; survey, box and window", "why_tests_cant": "The sign of the parity factor is visible only for odd ell1 + ell2, which no test measures.", "anchors": ["src/triumvirate/src/threept.cpp:compute_3pcf", "src/triumvirate/src/threept.cpp:compute_3pcf_window", "src/triumvirate/src/field.cpp:compute_uncoupled_shotnoise_for_3pcf", "src/triumvirate/include/field.hpp"]}
{"id": "C107", "title": "Each two-point measurement is the mean over the modes or separations of its bin", "statement": "Each line returned by compute_powspec, compute_corrfunc and their periodic-box versions describes one bin: its centre, the number of modes (separations) of the mesh in the bin, their mean wavenumber (separation), and the normalisation times the coupled sum over orders of the mean over exactly those modes (separations) of the compensated power (of the shot noise; of the correlation less shot noise) times the harmonic of the mode (separation).", "quantifier": "all catalogues, meshes, schemes, interlacing, degrees and bins", "why_tests_cant": "The refinement from fine-binned accumulation to sums over the modes of a bin holds for every mesh and catalogue; tests compare with a stored run.", "anchors": ["src/triumvirate/src/twopt.cpp:compute_powspec", "src/triumvirate/src/twopt.cpp:compute_corrfunc", "src/triumvirate/src/twopt.cpp:compute_powspec_in_gpp_box", "src/triumvirate/src/twopt.cpp:compute_corrfunc_in_gpp_box", "src/triumvirate/src/field.cpp:compute_ylm_wgtd_2pt_stats_in_fourier"]}
{"id": "C108", "title": "Correlation functions and three-point shot noise count pairs of different particles", "statement": "With nearest-grid-point assignment and no interlacing, the two-point correlation function, and the shot noise of the three-point correlation function at equal bins, are the (coupled, harmonic-weighted) numbers of weighted pairs of DIFFERENT particles at each separation on the mesh per cell volume, with no contribution of a particle paired with itself: after subtraction of the shot noise, for surveys (randoms weighted by -alpha), periodic boxes (less the mean) and windows.", "quantifier": "all catalogues in the box, meshes, degrees, bins and normalisations", "why_tests_cant": "Exact cancellation of self-pairs is an algebraic identity over all catalogues and meshes; a wrong sign of one shot-noise term changes results only in bins with the zero separation.", "anchors": ["src/triumvirate/src/twopt.cpp:compute_corrfunc", "src/triumvirate/src/threept.cpp:calc_ylm_wgtd_shotnoise_amp_for_bispec", "src/triumvirate/src/field.cpp:compute_uncoupled_shotnoise_for_3pcf"]}
{"id": "C109", "title": "Bispectrum shot noise is the sum of the contributions of coinciding corners", "statement": "Each shot-noise entry of compute_bispec and compute_bispec_in_gpp_box is the normalisation times the sum over the computed spherical orders of the coupling times four contributions: all three corners coinciding (only without degrees at both sides); two corners coinciding with the power of fluctuations and squared weights, less its own shot noise, averaged over exactly the modes of the row bin (only without second degree) or of the column bin (only without first degree); and the remaining pair coinciding with the correlation less its shot noise, integrated over the separations of the mesh with both harmonics and spherical Bessel functions at the mean wavenumbers of the two bins of that entry.", "quantifier": "all catalogues, meshes, schemes, interlacing, degrees, forms and entries of measurements which complete", "why_tests_cant": "Which bin, degree and wavenumber enters which of the four terms depends on the form and on the entry; regression data cover few combinations.", "anchors": ["src/triumvirate/src/threept.cpp:compute_bispec", "src/triumvirate/src/threept.cpp:compute_bispec_in_gpp_box", "src/triumvirate/src/field.cpp:compute_uncoupled_shotnoise_for_bispec_per_bin", "src/triumvirate/src/field.cpp:compute_ylm_wgtd_2pt_stats_in_fourier"]}
{"id": "C110", "title": "Computing half of the spherical orders is exact for the shot noise", "statement": "Without interlacing, on meshes of even sides and (for the bispectrum) in bins below the Nyquist wavenumber, the shot noise of compute_bispec, compute_bispec_in_gpp_box, compute_3pcf, compute_3pcf_in_gpp_box and compute_3pcf_window, and the raw bispectrum in a box, equal the sum over ALL spherical orders although only one of each two opposite triplets is computed. The bispectrum shot noise is real at even and imaginary at odd multipoles; that of the three-point correlation function is real. Exchanging the degrees and the bins leaves the bispectrum shot noise unchanged.", "quantifier": "all catalogues, meshes of even sides, schemes, degrees, forms and entries", "why_tests_cant": "The two kinds of mirror factor (with and without parity) agree at even multipoles, which are the ones in regression data; a swap is seen only at odd multipoles.", "anchors": ["src/triumvirate/src/threept.cpp:compute_bispec", "src/triumvirate/src/threept.cpp:compute_3pcf", "src/triumvirate/src/threept.cpp:compute_3pcf_window", "src/triumvirate/src/threept.cpp:compute_bispec_in_gpp_box"]}
{"id": "C111", "title": "Displacing the catalogues in the box leaves every measurement unchanged", "statement": "Displacing all particles of the data and random catalogues by the same whole number of cells on each axis of the box, with periodic wrapping and with unchanged lines of sight and weights, leaves unchanged the power spectrum, correlation function and window function of a survey, the raw bispectrum and its shot noise, the raw three-point correlation function and its shot noise (survey, periodic box) and the three-point window function. With wide-angle corrections this FAILS: the kernel weights by the wrapped distance of the cell from the corner of the box, which depends on where the catalogue is placed, not by the distance from the observer.", "quantifier": "all catalogues, displacements, meshes, schemes, multipoles, forms and entries; with interlacing, particles outside the region in which the companion field is faulty", "why_tests_cant": "Regression data place a catalogue in the box once; the dependence on the placement is not seen.", "anchors": ["src/triumvirate/src/twopt.cpp:compute_powspec", "src/triumvirate/src/twopt.cpp:compute_corrfunc_window", "src/triumvirate/src/threept.cpp:compute_bispec", "src/triumvirate/src/threept.cpp:compute_3pcf", "src/triumvirate/src/threept.cpp:compute_3pcf_window", "src/triumvirate/src/field.cpp:apply_wide_angle_pow_law_kernel"]}
{"id": "C112", "title": "Wide-angle corrections weight the field at the vertex by a power of the distance", "statement": "With wide-angle corrections of orders (i, j) each raw entry of compute_3pcf_window is the same sum over closed triangles as without, with the third field replaced by the Fourier modes of the field in configuration space weighted by r^(-i-j) of its cells (cells closer than 1e-6 unweighted). Orders (0, 0) give exactly the window without corrections, and only i + j matters.", "quantifier": "all catalogues, meshes with at least two cells per axis, orders and entries", "why_tests_cant": "A kernel applied to the wrong field, with the wrong power or at the origin changes numbers which no reference checks.", "anchors": ["src/triumvirate/src/field.cpp:apply_wide_angle_pow_law_kernel", "src/triumvirate/src/threept.cpp:compute_3pcf_window"]}
{"id": "C113", "title": "Normalisation factors count pairs and triples of particles", "statement": "For every assignment scheme the mesh normalisation of the power spectrum is the cell volume over alpha^2 times the sum over pairs of particles of their weights and their overlap on the mesh; that of the bispectrum counts triples; the mixed-mesh one counts pairs of one data and one random particle after alignment. The mesh normalisation never exceeds V/(alpha W)^2, with equality only for a uniform density, and equals the normalisation from particles when the densities recorded with the particles are those of the mesh. The shot noise from particles is the monopole amplitude.", "quantifier": "all catalogues in the box, meshes, schemes, alpha", "why_tests_cant": "Reference values are computed with the same code; a missing cell volume or power of alpha rescales every result by a constant.", "anchors": ["src/triumvirate/src/field.cpp:calc_grid_based_powlaw_norm", "src/triumvirate/src/twopt.cpp:calc_powspec_normalisation_from_mesh", "src/triumvirate/src/twopt.cpp:calc_powspec_normalisation_from_meshes", "src/triumvirate/src/threept.cpp:calc_bispec_normalisation_from_mesh", "src/triumvirate/src/twopt.cpp:calc_powspec_shotnoise_from_particles"]}
{"id": "C114", "title": "Returned sample points of the double transform are those of its values", "statement": "DoubleSphericalBesselTransform.transform returns, for each of the two dimensions, the sample points at which the one-dimensional transform of that dimension gives its values.", "quantifier": "all degrees, biases, sample points, pivots, arrays", "why_tests_cant": "Tests use equal degrees or no low-ringing condition, where the points of both dimensions coincide.", "anchors": ["src/triumvirate/transforms.py:DoubleSphericalBesselTransform.__init__", "src/triumvirate/transforms.py:DoubleSphericalBesselTransform.transform"]}
{"id": "C115", "title": "The double transform is the product of two one-dimensional transforms", "statement": "Without extrapolation, the double transform of an array is the double sum over its elements with the matrices of the two one-dimensional transforms, the first along the rows and the second along the columns; separable arrays have separable transforms; interchanging degrees, biases and dimensions transposes the result; forward and backward transforms of cosmological multipoles are inverse to each other at the reciprocal points with the same pivot.", "quantifier": "all degrees, biases, log-spaced sample points (3 or more), arrays", "why_tests_cant": "A transposition is invisible for symmetric test arrays or equal degrees.", "anchors": ["src/triumvirate/transforms.py:DoubleSphericalBesselTransform.transform", "src/triumvirate/transforms.py:DoubleSphericalBesselTransform.transform_cosmo_multipoles"]}
{"id": "C116", "title": "The double transform does not change the array of the caller", "statement": "Transforming an array leaves the array object of the caller as it was.", "quantifier": "all arrays, degrees, extrapolation modes", "why_tests_cant": "Tests build the array afresh for every transform.", "anchors": ["src/triumvirate/transforms.py:DoubleSphericalBesselTransform.transform", "src/triumvirate/transforms.py:SphericalBesselTransform.transform"]}
{"id": "C117", "title": "Saved measurements go to distinct files", "statement": "Two measurements saved with different statistics, degrees, forms of binning, wide-angle orders, bins or tags go to different files; the Python functions and the C++ program write the same measurement to a file of the same name.", "quantifier": "all parameter sets the functions accept, all tags and directories", "why_tests_cant": "Tests save one measurement to a temporary directory; collisions need particular pairs of parameter sets.", "anchors": ["src/triumvirate/threept.py:compute_bispec", "src/triumvirate/threept.py:compute_3pcf_window", "src/triumvirate/twopt.py:compute_powspec", "src/triumvirate/main/triumvirate.cpp", "src/triumvirate/include/io.hpp"]}
{"id": "C118", "title": "Saving returns the measurement and writes the file asked for", "statement": "A measurement which succeeds is returned; with save false no file is written; with a suffix the file of the measurement is written in that format; other values of save are rejected before the measurement is made.", "quantifier": "all parameters, results and values of save", "why_tests_cant": "Unrecognised values of save are found only at the end of a long measurement.", "anchors": ["src/triumvirate/twopt.py:_compute_2pt_stats_survey_like", "src/triumvirate/threept.py:_compute_3pt_stats_survey_like"]}
{"id": "C119", "title": "Every column of a saved table holds what its label says", "statement": "The table of a saved measurement has one row per bin (or pair of bins), and the column under each label holds the quantity the label stands for, in the same order in Python and C++; the labels name the degrees of the multipole.", "quantifier": "all results of matching lengths, all degrees", "why_tests_cant": "Tests compare a table with a stored one; swapped columns of equal magnitude or wrong labels pass.", "anchors": ["src/triumvirate/_twopt.pyx", "src/triumvirate/_threept.pyx", "src/triumvirate/src/io.cpp"]}
{"id": "C120", "title": "Windows saved as text files are read back", "statement": "Three-point windows saved in the full form are loaded by load_from_textfiles with the effective separations of the bins, the samples at the right pairs of bins (the lower triangle filled in if the first two degrees agree), the shot noise subtracted if asked for, scaled by alpha squared; files of another form are rejected.", "quantifier": "all sets of multipoles, numbers of bins, values, alpha, formats of numbers which are read back as rounded numbers", "why_tests_cant": "The layout of the file and of the reshaping are separate pieces of code which must agree for every number of bins.", "anchors": ["src/triumvirate/winconv.py:ThreePointWindow.load_from_textfiles", "src/triumvirate/threept.py:compute_3pcf_window"]}
{"id": "C121", "title": "The low-ringing pivot is the nearest one", "statement": "With the low-ringing condition asked for and a positive pivot given, the pivot used makes the kernel real at the Nyquist frequency, is within half a logarithmic spacing of the one given, and no pivot which meets the condition is nearer. With none given it is between 1 and the ratio of neighbouring points; it is the only pivot there which meets the condition for logarithmic spacings above pi/100, and for smaller ones, where an asymptotic series stands for the gamma function, it is within a relative 1e-15 of a pivot which meets it.", "quantifier": "all orders, biases, log-spaced points, pivots", "why_tests_cant": "Any pivot meeting the condition gives a consistent transform, so comparing transforms does not show that the nearest one is chosen.", "anchors": ["src/triumvirate/src/fftlog.cpp:HankelTransform::calc_lowring_pivot", "src/triumvirate/src/maths.cpp:eval_gamma_lnratio"]}
{"id": "C122", "title": "The transform with extrapolation is that of the continued samples", "statement": "With extrapolation, the FFTLog transform of real samples is the part at the original points of the transform, without extrapolation and about the same pivot, of the samples continued at both ends by zeros, by the last samples, linearly or as power laws, at the continued points.", "quantifier": "all orders, biases, log-spaced points, expansion factors, modes of extrapolation and real samples (of one sign for power laws)", "why_tests_cant": "Tests use functions which are negligible or smooth at the ends, where a wrong continuation changes little.", "anchors": ["src/triumvirate/src/fftlog.cpp:HankelTransform::biased_transform", "src/triumvirate/src/arrayops.cpp"]}
{"id": "C123", "title": "A measurement does not depend on what was measured before", "statement": "What a Python measurement function hands over to the algorithm (particles and lines of sight) is the same whether or not other measurements were made before from the same catalogue objects.", "quantifier": "all catalogues, boxes, alignments and sequences of earlier measurements", "why_tests_cant": "Tests make one measurement from freshly loaded catalogues; the catalogues are displaced in place, and the effect shows only in a later measurement.", "anchors": ["src/triumvirate/twopt.py:_compute_2pt_stats_survey_like", "src/triumvirate/twopt.py:_compute_2pt_stats_sim_like", "src/triumvirate/twopt.py:compute_corrfunc_window", "src/triumvirate/threept.py:_compute_3pt_stats_survey_like", "src/triumvirate/catalogue.py:ParticleCatalogue.compute_los"]}
{"id": "C124", "title": "Columns of integers are treated as the numbers they are", "statement": "A catalogue whose columns hold given numbers can be displaced and handed over to the algorithm with exactly those numbers (displaced by the given amounts), whether the numbers are stored as integers or as floats.", "quantifier": "all tables and displacements", "why_tests_cant": "The test catalogues hold floats in every column, and text files in which every entry of a column is a whole number do not occur among them.", "anchors": ["src/triumvirate/catalogue.py:ParticleCatalogue._convert_to_cpp_catalogue", "src/triumvirate/catalogue.py:ParticleCatalogue.offset_coords", "src/triumvirate/catalogue.py:ParticleCatalogue.__init__", "src/triumvirate/_particles.pyx:_ParticleCatalogue.__cinit__"]}
{"id": "C125", "title": "A catalogue read from file has the named columns of the file", "statement": "After reading a file with a name mapping, the column of each default name holds the column of the file that the mapping assigns to it (or, if unmapped, the column of that name), absent optional columns hold their default values in every row, a file without the coordinates is rejected, and the arguments of the caller are not changed.", "quantifier": "all files, mappings and keyword arguments", "why_tests_cant": "Tests read one file with one mapping; collisions of names and arguments reused between calls are not tried.", "anchors": ["src/triumvirate/catalogue.py:ParticleCatalogue.read_from_file"]}
{"id": "C126", "title": "Two-point multipoles are Legendre moments about the lines of sight", "statement": "With the special functions at their true values, the power spectrum multipole of degree ELL is 2 ELL + 1 times the mean over the modes k of the bin of the product of the two fluctuations, where each particle of the first carries the Legendre polynomial of the angle between k and its own line of sight; the shot noise is the corresponding sum of squared weights, the correlation function weights pairs of different particles by the Legendre polynomial of the angle between the separation and the line of sight, and in a box (or with all lines of sight along z) the polynomial is that of the angle to the z axis.", "quantifier": "all degrees, catalogues, lines of sight, schemes, meshes and bins", "why_tests_cant": "Tests compare low degrees with stored numbers; a wrong order, sign or conjugate in the sum over orders cancels for symmetric catalogues and the monopole.", "anchors": ["src/twopt.cpp:compute_powspec", "src/twopt.cpp:compute_corrfunc", "src/twopt.cpp:compute_powspec_in_gpp_box", "src/maths.cpp:SphericalHarmonicCalculator::calc_reduced_spherical_harmonic"]}
{"id": "C127", "title": "Even power multipoles are real, odd ones imaginary, and odd ones vanish in a box", "statement": "In bins below the Nyquist wavenumber (by the rounding of wavenumbers) power spectrum multipoles of a survey are real for even degree and imaginary for odd degree, with no shot noise at odd degrees, and odd multipoles in a box are zero; correlation function multipoles are real. At the Nyquist wavenumber, whose modes lack an opposite on the mesh, this fails.", "quantifier": "all degrees, catalogues, lines of sight, schemes, interlacing and bins", "why_tests_cant": "Measurements are compared with stored complex numbers; no test asks for vanishing parts, nor for bins that reach the Nyquist modes.", "anchors": ["src/twopt.cpp:compute_powspec", "src/twopt.cpp:compute_powspec_in_gpp_box", "src/twopt.cpp:compute_corrfunc", "src/field.cpp:FieldStats::compute_ylm_wgtd_2pt_stats_in_fourier"]}
{"id": "C128", "title": "Environment variables override parameters as if they stood in the file", "statement": "The program's TRV_OVERRIDE_* variables are accepted exactly if the verbosity is a number, the planner scheme is known and makes wisdom whenever a wisdom directory is set; then only the overridden parameters, the planner flag and the names of the wisdom files change. The result is that of a file holding the overriding values. The latter fails for the wisdom directory (no slash is added, so wisdom files land beside it) and for the tag when the default path of the binned vectors holds the tag.", "quantifier": "all accepted parameter sets and all values of the variables", "why_tests_cant": "No test sets the override variables; the combinations with derived paths are unbounded.", "anchors": ["src/parameters.cpp:override_paramset_by_envvars", "src/parameters.cpp:ParameterSet::validate"]}
{"id": "C129", "title": "The program's exit status tells whether all files asked for were written", "statement": "A run which exits with status 0 has completed the measurement and has written exactly the used parameters, the measurement (for a statistic which is measured) and the binned vectors (if asked for), with the parameters read whenever a box is given; a run which does not writes at most the used parameters, and the measurement only if the binned vectors cannot be written; the only other status is 1. Failures: a parameter file which cannot be opened ends the program by an exception; an output file which cannot be opened is written through a null pointer; the used parameters lack the derived box; custom bins in Fourier space never lead to a measurement; padded bins are not numbers when the box is derived.", "quantifier": "all arguments, disks, parameter files, environments and measurements", "why_tests_cant": "The tests do not run the program; outcomes depend on every combination of file availability and parameters.", "anchors": ["src/triumvirate/main/triumvirate.cpp:main", "src/io.cpp:make_write_dir", "src/dataobjs.cpp:Binning::Binning"]}
{"id": "C130", "title": "The program and the Python package hand the same particles to the algorithms", "statement": "Given the same catalogues, box, mesh and alignment options, the command-line program and the Python measurement functions hand the same particles (positions after alignment, densities, weights, in the same order) and the same lines of sight to the measurement algorithms: for surveys with every alignment option, and for windows of random particles aligned at the centre. For simulations in a box the particles are those of the program moved by one translation of the periodic box.", "quantifier": "all catalogues with at least one particle, boxes, meshes and alignment options", "why_tests_cant": "Requires running both front ends on all catalogues and comparing internal particle data; the tests of the package only exercise one front end with one catalogue.", "anchors": ["main/triumvirate.cpp:338-485", "src/triumvirate/twopt.py:435-545", "src/triumvirate/twopt.py:985-1062", "src/triumvirate/twopt.py:1440-1490", "src/triumvirate/catalogue.py:490-690", "src/triumvirate/src/particles.cpp:658-886"]}
{"id": "C131", "title": "Saved windows load back as they were", "statement": "A window saved with `ThreePointWindow.save` and loaded with `load_from_file` is the same window (multipoles, sample points, samples, subtraction flag, sources) whenever its sample points are a dictionary, from the path given if that ends in .npz and from that path with .npz appended otherwise, and in any session of subselections in place, resamplings, saves and loads starting with a constructed window the path gives the window as it was when last saved there. Failures: sample points given as an array do not load back (ValueError, or a number for one point); the path given is not the path written when it lacks the suffix; windows returned by `subselect` without `inplace` never load back.", "quantifier": "all windows, paths, disks and sequences of operations", "why_tests_cant": "The tests save and load one window at one path; sessions are unbounded sequences of operations and paths.", "anchors": ["src/triumvirate/winconv.py:1072-1119", "src/triumvirate/winconv.py:856-1070"]}
{"id": "C132", "title": "The sources of a window are aligned with its multipoles", "statement": "When `ThreePointWindow.load_from_textfiles` loads a dictionary of files the i-th source is the file of the i-th multipole, whatever the order of the dictionary, when the keys are `Multipole` objects. With strings for keys the files are sorted as strings and the multipoles by degree, so that the windows of '022' and '110' are given each other's file.", "quantifier": "all dictionaries of files, formats, columns and options", "why_tests_cant": "Depends on the sorting of arbitrary sets of keys of several types.", "anchors": ["src/triumvirate/winconv.py:949-1031"]}
{"id": "C133", "title": "Wavenumbers of bispectra are respaced in the same range at the same number of points", "statement": "`BispecWinConv` keeps input wavenumbers which are all logarithmically spaced, with the samples passed to `convolve`; rejects arrays of fewer than two wavenumbers and arrays with zeros or mixed signs at the ends; and otherwise replaces the wavenumbers of each multipole by as many logarithmically spaced ones in the same range, with the samples interpolated at them (so unchanged at every wavenumber kept). Failures: every multipole gets the number of wavenumbers of the multipole first found not to be logarithmically spaced; samples of multipoles without wavenumbers, otherwise passed over, then raise KeyError.", "quantifier": "all formulae, wavenumbers, samples and interpolations exact at their knots", "why_tests_cant": "The leaked loop variable shows only for dictionaries of arrays of different lengths, one of which is not logarithmically spaced.", "anchors": ["src/triumvirate/winconv.py:2489-2525", "src/triumvirate/winconv.py:2629-2642"]}
{"id": "C134", "title": "Power spectra are convolved through correlation functions, leaving the input as it was", "statement": "`PowspecWinConv.convolve` returns the forward transforms of the window-convolved backward transforms of the samples it is given, a function of the values of the samples, whenever the transforms work on new arrays or no two multipoles share an array object; it modifies no array of the caller when the transforms extrapolate in the outer layer; and without extrapolation a window with monopole one and other multipoles zero returns the input power spectra at the input wavenumbers. Failure: without extrapolation, or with it in the native layer, every array of the caller is multiplied by the wavenumbers to the power 3/2, and the correlation functions returned with `ret_xi` by the separations to the power 3/2.", "quantifier": "all formulae, samples, array objects, transforms, exact interpolations and states of the memory", "why_tests_cant": "Repeated calls with the same arrays and every combination of transform options would have to be compared; the identity holds for every array of samples.", "anchors": ["src/triumvirate/winconv.py:1881-2121", "src/triumvirate/transforms.py:106-246"]}
{"id": "C135", "title": "Bispectra are convolved through correlation functions, leaving the input as it was", "statement": "`BispecWinConv.convolve` returns the forward transforms of the window-convolved backward transforms of the samples it is given (interpolated at the respaced wavenumbers if these are respaced), a function of the values of the samples, whenever the transforms work on copies, no two multipoles share an array object, or the samples are interpolated first; it modifies no array of the caller when the transforms extrapolate or the samples are interpolated; and without extrapolation a window with monopole one and other multipoles zero, with no integral constraint, returns the input bispectra at the input wavenumbers for multipoles of equal degrees, and for all multipoles when the pivot is not adjusted. Failures: with the pivot adjusted against ringing (the default) the bispectrum of degrees (2, 0, 2) comes back multiplied by a constant which is not one, since the separations of both dimensions are those of the transform of the first degree; without extrapolation every array of the caller is multiplied by the wavenumbers of its columns to the power 3/2 (at logarithmically spaced wavenumbers only).", "quantifier": "all formulae, samples, array objects, transforms, exact interpolations and states of the memory", "why_tests_cant": "The factor shows only for multipoles of unequal degrees with the adjusted pivot; the identity holds for every array of samples and every number of wavenumbers.", "anchors": ["src/triumvirate/winconv.py:2369-2676", "src/triumvirate/transforms.py:341-499"]}
{"id": "C136", "title": "Resampling keeps the range, the samples at points kept, and evenly spaced samples", "statement": "`resample_lglin` and `resample_lin` (and with them `ThreePointWindow.resample`) return, in each dimension, the number of points asked for (the original number by default), increasing, evenly spaced in the logarithm or linearly, from the first original point to the last; samples at points which are kept are kept; samples at points which are already evenly spaced are returned as they are, so that resampling twice is resampling once; samples of functions which the spline reproduces (constants among them) become samples of these functions. Failures: two arrays of sample points of different lengths are rejected for every array of samples; a window resampled with a tuple of different numbers keeps the separations of the first dimension only, which then do not match the columns of its samples.", "quantifier": "all sample points, samples, sizes, spline degrees and exact interpolations", "why_tests_cant": "The documented example uses one array of points for both dimensions and one number; the statement is about every number and spacing of points.", "anchors": ["src/triumvirate/transforms.py:526-704", "src/triumvirate/winconv.py:1229-1264"]}
{"id": "C137", "title": "Coefficients of three-point window convolution terms", "statement": "`calc_threept_winconv_coeff` returns a number precisely when the degrees of the window and of the correlation multipole satisfy the triangle condition and have an even sum (others, which `Multipole` accepts, divide by a vanishing 3j symbol); the number is rational. The monopole of either factor has coefficient one into the multipole of the other and zero into any other; 'ic' has minus the coefficient of the correlation monopole; coefficients which are not zero satisfy the selection rules. For the five multipoles of the built-in formula the coefficient is the multipole of the product of the basis functions averaged over directions, so that the formula with all pairs is exact for anisotropic windows and correlation functions alike. Every coefficient in the built-in table equals the computed one; the table leaves out no pair with an isotropic factor, and leaves out pairs of anisotropic multipoles with coefficients which are not zero for every windowed multipole.", "quantifier": "all degrees; the whole built-in table; all windows and correlation functions with the five multipoles", "why_tests_cant": "The repository has no test comparing the table with the function, and Wigner symbols are evaluated symbolically for given degrees only.", "anchors": ["src/triumvirate/winconv.py:395-488", "src/triumvirate/winconv.py:137-164"]}
{"id": "C138", "title": "Interlaced measurements are blind to half-cell displacements", "statement": "With interlacing, displacing all particles by the same odd number of half-cells on every axis (with periodic wrapping, with unchanged lines of sight and weights, and away from the region in which the companion field is faulty) leaves the power spectrum and the correlation function of a survey and of a periodic box unchanged, the two-point window function with alpha = 1, the shot noise of the bispectrum and of the three-point correlation function, and the bispectrum in bins whose upper edges add up to at most the Nyquist wavenumber. In other words the interlaced field removes images of odd order exactly.", "quantifier": "all catalogues, meshes, assignment schemes, degrees and binnings", "why_tests_cant": "Tests compare with stored measurements at one grid alignment; the cancellation is an identity of sums over all particles and modes.", "anchors": ["src/triumvirate/src/field.cpp:677-1110", "src/triumvirate/src/field.cpp:1496-1655", "src/triumvirate/src/twopt.cpp:388-901"]}
{"id": "C139", "title": "Values of interpolated spherical Bessel functions", "statement": "A spherical Bessel calculator of any degree l returns a value exactly for arguments that are not negative. The value equals j_l at multiples of 1/20 and from max(1000, l^2) on. Elsewhere it differs from j_l by at most 1/2000, and by at most 7e-7 at distance 1 or more from both ends of the table; that accuracy is lost next to the origin, where for l = 0 the error exceeds 2e-5. Copies give the same values.", "quantifier": "all degrees, all arguments", "why_tests_cant": "Tests sample a few degrees and arguments; the bounds need the error analysis of the natural spline with 20 001 or more nodes and hold for a continuum of arguments.", "anchors": ["src/triumvirate/src/maths.cpp:305-375", "src/triumvirate/include/maths.hpp:262-311"]}
{"id": "C140", "title": "Three-point multipoles with a vanishing degree are Legendre moments of triangles", "statement": "The raw bispectrum multipole of degrees (l, l, 0) is (2l+1) times the mean over closed triangles, with two sides in the two bins, of the product of the fluctuations at the three sides and the Legendre polynomial of degree l of the angle between the two binned sides: no spherical harmonics, no choice of axes and no dependence on lines of sight. The multipole of degrees (l, 0, l) or (0, l, l) is the same mean with each particle at the third side given the Legendre polynomial of the angle between its own line of sight and the first or second side; in a periodic box, of the angle between the side and the z axis. The shot noise of the multipoles (l, l, 0), l > 0, is one integral over non-zero separations of a correlation and two spherical Bessel functions.", "quantifier": "all catalogues, degrees, binnings, schemes, meshes of even sides, bins below the Nyquist wavenumber", "why_tests_cant": "A test can compare one degree on one catalogue with a tolerance; the identity is exact for every degree and every catalogue and needs the addition theorem over all orders.", "anchors": ["src/triumvirate/src/threept.cpp:357", "src/triumvirate/src/threept.cpp:416", "src/triumvirate/src/threept.cpp:compute_3pcf", "src/triumvirate/src/threept.cpp:compute_3pcf_window", "src/triumvirate/src/threept.cpp:compute_bispec", "src/triumvirate/src/threept.cpp:compute_bispec_in_gpp_box"]}
{"id": "C141", "title": "The logarithm of a ratio of gamma functions", "statement": "The exponential of the logarithm computed by eval_gamma_lnratio(mu, nu) is Gamma((mu+1+nu)/2)/Gamma((mu+1-nu)/2): exactly if the imaginary part y of nu is below 100, where the library's log-gamma function is used, and with a relative error of at most 7/y^7 < 1e-13 from 100 on, where an asymptotic series replaces it, for every order and for real parts of either sign.", "quantifier": "all real mu, all complex nu (no pole of either gamma function)", "why_tests_cant": "The series is used for a continuum of arguments, including negative real parts where the textbook bounds do not apply; a sample shows neither the worst case nor the absence of jumps of the phase.", "anchors": ["src/triumvirate/src/maths.cpp:130-157"]}
{"id": "C142", "title": "Warnings about the range of convolution", "statement": "After initialise_sampts there is a ConvolutionRangeWarning about a term of the formula of a multipole, on the root process only, exactly if some output point of the multipole lies, beyond a relative 1e-5, outside the points of the window or of the correlation function which the term reads; the checks change nothing else and raise only for empty arrays. With enforce_coverage and no output points given, the points chosen lie within every array read, are logarithmically spaced, as many as in the shortest array, and cause no warning where the ranges overlap; where two ranges are apart there is a warning. Documented arguments of the check raise ValueError when an array is compared with a dictionary.", "quantifier": "all formulae, windows, sample points (positive for the enforced choice), processes", "why_tests_cant": "Whether a warning is missed depends on every combination of formula, term and sample points; the enforced choice is not exercised by any caller in the package.", "anchors": ["src/triumvirate/winconv.py:_check_conv_range", "src/triumvirate/winconv.py:_find_conv_range", "src/triumvirate/winconv.py:WinConvBase.initialise_sampts"]}
{"id": "C143", "title": "The text of logged warnings", "statement": "A captured warning is logged as its message, unchanged whatever braces it has, followed by file, line number, category and line of source, and formatting it raises nothing.", "quantifier": "all messages, categories, files, lines", "why_tests_cant": "The text passes through str.format twice: only special characters in the parts which a test does not vary show what is escaped. Violated for files with braces in their path.", "anchors": ["src/triumvirate/logger.py:_format_warning"]}
{"id": "C144", "title": "The template of parameters and the warning about unchanged defaults", "statement": "fetch_paramset_template returns text or dictionary as asked for (and raises ValueError for other formats), and as defaults the entries which are neither None nor containers. A measurement without a parameter set warns about exactly the defaults of the template which the caller has not given, each with the value used; the bookkeeping never makes a measurement fail and does not change the parameters.", "quantifier": "all overrides of sampling and measurement parameters, all templates for fetching", "why_tests_cant": "Each of the overrides is removed from the list separately, next to the assignment; a missing removal shows only for that override.", "anchors": ["src/triumvirate/parameters.pyx:fetch_paramset_template", "src/triumvirate/parameters.pyx:_modify_sampling_parameters", "src/triumvirate/parameters.pyx:_modify_measurement_parameters", "src/triumvirate/twopt.py:_amalgamate_parameters", "src/triumvirate/threept.py:_amalgamate_parameters"]}
{"id": "C145", "title": "Accounting of memory and mesh grids", "statement": "After any history of constructing, using and destroying mesh fields, field statistics, catalogues and temporary arrays, the global counts of complex, real and complex-equivalent grids and of memory are those of the objects alive, and the reported maxima are the peaks over the history; a completed run of the program ends with a count of zero and never warns of uncleared memory.", "quantifier": "all histories, mesh sizes, numbers of particles", "why_tests_cant": "Each increment is matched by a decrement elsewhere under another flag; a mismatch shows only for particular orders of calls and no test reads the counters. Violated for memory: a catalogue loaded again discounts the new number of particles instead of the old one.", "anchors": ["src/triumvirate/src/monitor.cpp:update_maxmem", "src/triumvirate/src/monitor.cpp:update_maxcntgrid", "src/triumvirate/src/particles.cpp:ParticleCatalogue::initialise_particles", "src/triumvirate/src/field.cpp:MeshField::~MeshField", "src/triumvirate/src/field.cpp:FieldStats::~FieldStats", "src/triumvirate/main/triumvirate.cpp:main"]}
{"id": "C146", "title": "Degrees of three-point multipoles are rejected exactly when the Wigner symbol vanishes, and no spherical order is lost to a threshold", "statement": "With exact associated Legendre functions and Wigner 3-j symbols (Racah's formula): (a) the special functions have every symmetry and value which C102, C103, C110, C126, C127 and C140 assume; (b) the symbols of orders zero by which the C++ code validates degrees equal those by which the Python code computes window convolution coefficients, vanish exactly when the degrees cannot form a triangle or have an odd sum, and have a closed form otherwise; (c) bispectrum and three-point correlation function measurements (survey, box, window) raise the invalid-parameter error exactly for such degrees, the threshold 1e-9 rejecting no others; (d) a coupling coefficient which is not zero is above the threshold under which an order is skipped, so that measured bispectra and shot noise are sums over all orders.", "quantifier": "all degrees with sum at most 30000 for (c) and 38 for (d), all degrees for (a) and (b); all orders, catalogues, meshes, bins and forms", "why_tests_cant": "tests use a few degrees; thresholds on symbols that decrease with the degrees can only be judged by bounds on all symbols", "anchors": ["src/triumvirate/src/maths.cpp:wigner_3j", "src/triumvirate/src/threept.cpp:validate_multipole_coupling", "src/triumvirate/src/threept.cpp:calc_coupling_coeff_3pt", "src/triumvirate/winconv.py:calc_threept_winconv_coeff"]}
{"id": "C147", "title": "Measurements do not depend on the naming of the axes", "statement": "If the axes of the box (sides and grid numbers), of the particle positions and of the lines of sight are exchanged by any of the permutations, everything measured by compute_powspec and compute_corrfunc for a survey (bin centres, mean wavenumbers or separations, counts, raw values and shot noise, of every degree) is the same, for every assignment scheme, with and without interlacing; so are the raw bispectrum multipoles of which a degree vanishes; and in a periodic box the monopoles under every exchange and all multipoles under those which leave the line of sight (the third axis) as it is.", "quantifier": "all permutations of the axes, meshes (unequal sides and grid numbers), catalogues of particles in the box (outside the region where the interlaced field is faulty, C07), resolved lines of sight, schemes, degrees, bins", "why_tests_cant": "A test compares a catalogue on one mesh, usually cubic, where an exchanged pair of grid numbers or sides goes unnoticed; the invariance is about all meshes and catalogues.", "anchors": ["src/triumvirate/src/twopt.cpp:compute_powspec", "src/triumvirate/src/twopt.cpp:compute_corrfunc", "src/triumvirate/src/twopt.cpp:compute_powspec_in_gpp_box", "src/triumvirate/src/twopt.cpp:compute_corrfunc_in_gpp_box", "src/triumvirate/src/threept.cpp:compute_bispec", "src/triumvirate/src/field.cpp:MeshField::assign_weighted_field_to_mesh"]}
{"id": "C148", "title": "Saved files report the normalisation used, and Python and the program save the same lines", "statement": "A text file saved by a Python measurement function holds exactly one line with the normalisation factor, and this is the factor (of the convention chosen: particle, mesh, mesh-mixed or none) with which the measurement in the same file was computed; the same holds for the file written by the program; and for the same catalogues, parameters and measurement the two files have the same lines in the same order (catalogues, box, mesh, factors, labels, table).", "quantifier": "all catalogues and their attributes, parameters, statistics of two and three points, conventions, factors, measurements of any number of bins", "why_tests_cant": "A test compares stored files for one configuration; that the reported factor is the one used is about every convention and catalogue type.", "anchors": ["src/triumvirate/twopt.py:_print_measurement_header", "src/triumvirate/threept.py:_print_measurement_header", "src/triumvirate/src/io.cpp:print_measurement_header_to_file", "src/triumvirate/src/io.cpp:print_measurement_datatab_to_file", "src/triumvirate/triumvirate.cpp:main"]}
{"id": "C149", "title": "Options are understood in the same letter case by the parameters and by the measurements", "statement": "If a parameter set accepts the value of a textual option (alignment, padding scale, normalisation convention, form of the three-point statistics), the Python measurement functions act on it as the C++ parameters say: the catalogues are aligned as the program aligns them, the normalisation factor is the one of the convention, and the name of the output file is formed.", "quantifier": "all parameter sets accepted after any assignment, catalogues, factors", "why_tests_cant": "Tests spell the options as documented; the parameter set accepts every spelling, and nothing reports that a differently spelt option is ignored.", "anchors": ["src/triumvirate/parameters.pyx:_parse_params", "src/triumvirate/twopt.py:_compute_2pt_stats_survey_like", "src/triumvirate/threept.py:_compute_3pt_stats_survey_like", "src/triumvirate/threept.py:_get_measurement_filename"]}
{"id": "C150", "title": "A survey two-point measurement with accepted parameters can be normalised", "statement": "For a pair of catalogues with an extent, the mesh of the mixed-mesh normalisation is the smallest cubic one with an even number of cells of the given size per side covering the padded largest extent of the two; and its parameters, derived from parameters that were accepted, are accepted too, so that no survey two-point measurement fails because of it.", "quantifier": "all accepted parameter sets, catalogue extents, paddings, cell sizes and assignment schemes", "why_tests_cant": "The factor is computed whatever normalisation is asked for, and whether it can be depends on the planner scheme and on the padding relative to the extent of the catalogues, which tests fix.", "anchors": ["src/triumvirate/src/twopt.cpp:calc_powspec_normalisation_from_meshes", "src/triumvirate/src/parameters.cpp:validate", "src/triumvirate/main/triumvirate.cpp:main", "src/triumvirate/twopt.py:_compute_2pt_stats_survey_like"]}
{"id": "C151", "title": "A failure of the C++ library is an exception in Python", "statement": "Whenever a C++ function called by the Python package throws, the call raises the corresponding Python exception (ValueError for an invalid parameter, RuntimeError for invalid data), and the process is never ended: for the normalisation factors, the measurements of two- and three-point statistics with accepted parameters, and the construction of transforms.", "quantifier": "all C++ functions called, outcomes, catalogues, accepted parameter sets, degrees, orders and biases", "why_tests_cant": "A test which ended the interpreter would report nothing; which calls are declared to throw is written in other files than the throwing code.", "anchors": ["src/triumvirate/_twopt.pyx", "src/triumvirate/_threept.pyx", "src/triumvirate/_fftlog.pxd", "src/triumvirate/parameters.pxd", "src/triumvirate/src/threept.cpp:compute_bispec", "src/triumvirate/src/fftlog.cpp:HankelTransform"]}
{"id": "C152", "title": "The same survey, simulation or window gives the same file from the program and from Python", "statement": "For the same particles in memory and the same parameters, a survey measurement, or a measurement of the window of a centred random catalogue spanning less than three boxes, or a measurement of a simulation whose particles have densities and surround the middle of the box, by the program and by the Python function either fail with the same C++ failure or save files which agree line by line, except for the brackets around the extents, the letter case of the interlacing flag and the remark on the mixed-mesh factor of three-point statistics. Whatever parameters the Python set accepts for a measurement, the program accepts with the same derived values. (A simulation without densities makes the program fail while Python saves a file.)", "quantifier": "all paired catalogues with particles and all random catalogues and simulations, all Python parameter sets and histories accepted with the options in lower case, all four statistics of surveys and simulations and all three windows, all behaviours (results or failures) of the normalisation and measurement algorithms", "why_tests_cant": "A test compares two files for one catalogue and one parameter set; the claim is for every catalogue, every accepted parameter set and every result of the algorithms, and covers the alignment, the copy of the columns to C++, the totals, the choice of the factor and every line of the header.", "anchors": ["src/triumvirate/twopt.py:_compute_2pt_stats_survey_like", "src/triumvirate/threept.py:_compute_3pt_stats_survey_like", "src/triumvirate/main/triumvirate.cpp:main", "src/triumvirate/_particles.pyx:_ParticleCatalogue.__cinit__", "src/triumvirate/parameters.pyx:ParameterSet._validate", "src/triumvirate/twopt.py:compute_corrfunc_window", "src/triumvirate/threept.py:compute_3pcf_window", "src/triumvirate/twopt.py:_compute_2pt_stats_sim_like", "src/triumvirate/threept.py:_compute_3pt_stats_sim_like"]}
{"id": "C153", "title": "Recorded vectors are those which the measurements count", "statement": "For the bins of a measurement, the numbers of modes (or separations) and the effective wavenumbers (or separations) it reports are the numbers and mean lengths of the vectors which record_binned_vectors returns for those bins on the same mesh, for every schedule of the threads.", "quantifier": "all meshes, all ordered bins (on the fine sampling grid for two-point statistics), all catalogues, all schedules of the recording threads", "why_tests_cant": "The two computations visit the mesh in different ways: one restricts the index ranges and compares unrounded lengths, the other samples the lengths finely and adds up; a test compares them for one mesh and binning, where rounding rarely matters.", "anchors": ["src/triumvirate/src/field.cpp:FieldStats::record_binned_vectors", "src/triumvirate/src/field.cpp:FieldStats::compute_ylm_wgtd_2pt_stats_in_fourier", "src/triumvirate/src/field.cpp:FieldStats::compute_ylm_wgtd_2pt_stats_in_config", "src/triumvirate/src/threept.cpp:compute_bispec", "src/triumvirate/fieldmesh.py:record_binned_vectors"]}
{"id": "C154", "title": "The file of binned vectors", "statement": "The file of binned vectors saved by the program is read back by numpy.loadtxt as the records, in order, with the floats rounded as printed and with as many rows as its header says; it agrees with the array which record_binned_vectors returns in Python for the same bins and mesh.", "quantifier": "all meshes, bins, number formats which are read back, and schedules of the threads in both runs", "why_tests_cant": "A test reads one file back; the agreement with Python is for every schedule of the threads of both runs, which a test cannot control.", "anchors": ["src/triumvirate/src/io.cpp:print_binned_vectors_to_file", "src/triumvirate/src/field.cpp:FieldStats::record_binned_vectors", "src/triumvirate/_field.pyx:_record_binned_vectors", "src/triumvirate/main/triumvirate.cpp:main"]}
{"id": "C155", "title": "Measurements do not depend on the unit of length", "statement": "If the box, the positions, the number densities, the offsets and the bins are all expressed in another unit of length, every measurement describes the same quantities in that unit: numbers of modes and separations are unchanged, bins and effective lengths are converted, the normalised power spectrum has the unit of a volume, the bispectrum that of a volume squared, and the correlation functions have none; the normalisation factors of every convention but none are converted accordingly, and a measurement that fails fails in every unit.", "quantifier": "all units, meshes, assignment schemes with and without interlacing, catalogues, boxes, multipoles, shapes of the data vector and bins (on the fine sampling grid in both units where the shot noise or a two-point statistic is concerned)", "why_tests_cant": "A test runs one catalogue in one unit; hidden absolute lengths (fine sampling steps, thresholds) show only for particular bins in particular units.", "anchors": ["src/triumvirate/src/twopt.cpp:compute_powspec", "src/triumvirate/src/twopt.cpp:compute_corrfunc", "src/triumvirate/src/twopt.cpp:compute_powspec_in_gpp_box", "src/triumvirate/src/twopt.cpp:compute_corrfunc_in_gpp_box", "src/triumvirate/src/threept.cpp:compute_bispec", "src/triumvirate/src/threept.cpp:compute_bispec_in_gpp_box", "src/triumvirate/src/threept.cpp:compute_3pcf", "src/triumvirate/src/threept.cpp:compute_3pcf_in_gpp_box", "src/triumvirate/src/field.cpp:assign_weighted_field_to_mesh", "src/triumvirate/src/field.cpp:compute_ylm_wgtd_2pt_stats_in_fourier", "src/triumvirate/src/maths.cpp:calc_reduced_spherical_harmonic", "src/triumvirate/main/triumvirate.cpp:main"]}
{"id": "C156", "title": "A completed run has measured the catalogues, box and mesh its parameters describe", "statement": "A run of the program which exits with status 0 has read every file named in its catalogue lists and hands to the measurement one particle per data line, in order, with the documented column defaults: data and randoms of a survey moved by one common vector, a simulation wrapped into the box, lines of sight to the positions as read. A box which is not given is the extent of the catalogue times the expansion factor; a mesh which is not given is on each axis the least even number of cells which resolves the cutoff; both are otherwise as given. Failures: with the default expansion factor the two extreme particles of a simulation fall on the same coordinate of the derived box; default mean densities are zero when the box is derived; a catalogue without extent on an axis is measured in an empty box on an empty mesh with status 0.", "quantifier": "all arguments, disks, parameter files, environments, overrides and measurement functions", "why_tests_cant": "Quantifies over all parameter files and catalogue files, and over the combinations of derived box, derived mesh and alignment.", "anchors": ["src/triumvirate/main/triumvirate.cpp:main", "src/triumvirate/src/particles.cpp:load_catalogue_file,offset_coords_for_periodicity", "src/triumvirate/src/parameters.cpp:set_boxsize_from_expand,set_ngrid_from_cutoff"]}
{"id": "C157", "title": "Warnings of box alignment are given when, and only when, particles leave the box", "statement": "`ParticleCatalogue.centre` names in its warnings exactly those axes on which particles of the reference catalogue (the catalogue itself if none is given) are left outside the box, and names the other catalogue only if particles of it are; when the reference encloses the catalogue and there is no warning, no particle is outside. `pad` warns, after the shift, of exactly the axes on which particles of either catalogue lie beyond the upper end of the box, and without such a warning and with non-negative padding only particles of the catalogue itself below the lower end can be outside. `periodise` warns of exactly the axes on which two particles are further apart than the box, and moves the particles by one common displacement on axes on which all are closer than the box. Silence about the catalogue itself is not safe (violated): data which the reference does not enclose leave the box unannounced, and the two ends of a catalogue as wide as a periodic box are put on one point.", "quantifier": "all catalogues with true bounds, all box sizes (positive for periodise), all scalar/sequence paddings, all pairs of distinct catalogues", "why_tests_cant": "tests check that some warning is raised for one small box; the equivalence with particles outside is over all positions, sizes and pairs of catalogues", "anchors": ["src/triumvirate/catalogue.py:ParticleCatalogue._check_bounds_in_boxsize", "src/triumvirate/catalogue.py:ParticleCatalogue.centre", "src/triumvirate/catalogue.py:ParticleCatalogue.pad", "src/triumvirate/catalogue.py:ParticleCatalogue.periodise"]}
{"id": "C158", "title": "The Lanczos approximation has the poles, signs and symmetries of the gamma function", "statement": "`eval_gamma_lanczos` calls itself at most once; it divides by zero exactly at the poles of the gamma function (whole numbers not above zero) and returns a value different from zero everywhere else; it satisfies Euler's reflection formula exactly off the line Re z = 1/2 (whole numbers excepted), so that to the left of this line its relative error is the inverse of that at the reflected argument; conjugate arguments have conjugate values; at real arguments the value is real with the sign of the gamma function; and along z+1, z+2, ... its ratio to the gamma function tends to the first coefficient of the series, 0.999999999999809932277.", "quantifier": "all complex arguments", "why_tests_cant": "there are no tests of the function; zeros and poles over the whole plane and the limit cannot be found by sampling", "anchors": ["src/triumvirate/src/maths.cpp:eval_lanczos_approx_series", "src/triumvirate/src/maths.cpp:eval_gamma_lanczos"]}
{"id": "C159", "title": "A measurement depends only on its particles of non-zero sample weight, not on their order", "statement": "Reordering the particles of the data and random catalogues, or adding or removing particles whose sample weight is zero, leaves every normalisation factor, the power spectrum, the correlation function, the bispectrum, the three-point correlation function and the window functions unchanged; for periodic boxes the order of the particles is immaterial. A particle whose clustering weight alone is zero should likewise be immaterial, but is not: it enters the data-to-random ratio and through it the normalisation.", "quantifier": "all pairs of catalogues with the same particles of non-zero sample weight, all parameter sets and meshes", "why_tests_cant": "The orders and the weightless particles that may be added to a catalogue are unbounded; a test compares a few shufflings.", "anchors": ["src/triumvirate/src/twopt.cpp:compute_powspec", "src/triumvirate/src/twopt.cpp:compute_corrfunc", "src/triumvirate/src/twopt.cpp:compute_corrfunc_window", "src/triumvirate/src/threept.cpp:compute_bispec", "src/triumvirate/src/threept.cpp:compute_3pcf", "src/triumvirate/src/threept.cpp:compute_3pcf_window", "src/triumvirate/src/particles.cpp:calc_total"]}
{"id": "C160", "title": "Raw measurements depend on the total sample weight of coincident particles, not on how it is divided", "statement": "If two pairs of catalogues have the same total sample weight at every position, line of sight, number density and clustering weight, every normalisation factor, the raw power spectrum, the raw bispectrum, the raw three-point correlation function and the raw three-point window (with effective bins and counts) are the same; only the shot noise tells the difference, a particle divided into n equal ones contributing an n-th of its two-point and an n-squared-th of its three-point amplitude.", "quantifier": "all pairs of catalogues with the same distribution of sample weight, all parameter sets and meshes, all n", "why_tests_cant": "There are unboundedly many ways to divide the weights of unboundedly many particles.", "anchors": ["src/triumvirate/src/twopt.cpp:compute_powspec", "src/triumvirate/src/twopt.cpp:calc_powspec_normalisation_from_particles", "src/triumvirate/src/threept.cpp:compute_bispec", "src/triumvirate/src/threept.cpp:compute_3pcf", "src/triumvirate/src/threept.cpp:compute_3pcf_window", "src/triumvirate/src/field.cpp:compute_ylm_wgtd_field"]}
{"id": "C161", "title": "Logging does not change the outcome of a measurement, and shows where it failed", "statement": "Without a logger, or with the adapter returned by setup_logger at any level, a measurement function returns or raises exactly what it would without logging; the validation of parameters does so with every logger. With that adapter enabled for status messages the log has as many returns from C++ as entries into C++, one fewer exactly when an announced C++ call failed. (With a logging.Logger, the documented type, enabled for information messages, no measurement function ever returns: the keyword cpp_state makes it raise TypeError, as only AttributeError is caught.)", "quantifier": "all loggers and levels, all sequences of statements with log calls, all behaviours of what the measurement functions do between the log calls, all six measurement functions (survey, simulation, window; two- and three-point)", "why_tests_cant": "Tests run the functions without a logger or with one logger at one level; the claim is for every kind of logger, every level, and every place where a measurement can fail.", "anchors": ["src/triumvirate/logger.py:_CppLogAdapter.process", "src/triumvirate/logger.py:setup_logger", "src/triumvirate/twopt.py:_compute_2pt_stats_survey_like", "src/triumvirate/twopt.py:_compute_2pt_stats_sim_like", "src/triumvirate/twopt.py:compute_corrfunc_window", "src/triumvirate/threept.py:_compute_3pt_stats_survey_like", "src/triumvirate/parameters.pyx:ParameterSet._validate"]}
{"id": "C162", "title": "Program and Python functions measure the same multipoles in the same periodic box", "statement": "For a simulation with periodic box, the program (positions folded into the box as read) and the Python functions (positions centred in the box and folded) measure the same multipoles and shot noise of the power spectrum, the two-point correlation function, the bispectrum and the three-point correlation function. This holds if the middle of the particles is a whole number of mesh cells from the middle of the box (for two-point statistics with interlacing also with half a cell more on every axis) and fails otherwise: the two place the particles differently relative to the mesh.", "quantifier": "all catalogues, box sizes, meshes, assignment schemes, bins and degrees, with and without interlacing", "why_tests_cant": "Tests compare Python output with stored numbers for one catalogue; whether a rigid displacement of the catalogue relative to the mesh leaves every multipole unchanged depends on all positions, schemes and modes.", "anchors": ["src/triumvirate/main/triumvirate.cpp:main", "src/triumvirate/src/particles.cpp:ParticleCatalogue::offset_coords_for_periodicity", "src/triumvirate/catalogue.py:ParticleCatalogue.periodise", "src/triumvirate/twopt.py:_compute_2pt_stats_sim_like", "src/triumvirate/threept.py:_compute_3pt_stats_sim_like"]}
{"id": "C163", "title": "The logger can be set up at any time and repeatedly", "statement": "After setup_logger(n), whatever was logged, attached, captured or set up before, a message of level at least n is written exactly once, to the standard output, and a message of lower level not at all; handlers attached to the root logger before receive nothing until one is attached again. A warning is written exactly once, to the log in the style of the package, if n is at most 30, and otherwise nowhere; logging.captureWarnings(False) brings back the original display of warnings however often the logger was set up. (Once warnings.showwarning has been put back by other means, further calls of setup_logger never capture warnings again.)", "quantifier": "all initial states, all sequences of operations on the logging facility, all levels and messages", "why_tests_cant": "The facility is global mutable state of the process; tests set it up once, and duplicated or lost lines depend on the whole history of set-ups, handlers and captures.", "anchors": ["src/triumvirate/logger.py:setup_logger"]}
{"id": "C164", "title": "The progress bar of a three-point measurement completes and never makes it fail", "statement": "With the progress bar on, or shown at an interval in (0, 100) per cent, every three-point measurement (bispectrum, three-point correlation function, their box versions, window function) runs to its end without an error from the bar, for any number of terms and any count of transforms made earlier in the process, and the bar of each term ends at exactly 100 per cent; with the bar off or on a task other than the root one the count of transforms is the same; an unreadable setting is an error of the first term.", "quantifier": "all five measurements, all forms and numbers of bins, all numbers of terms, all earlier counts, all settings of the bar, all parameter sets that pass validation", "why_tests_cant": "Whether the announced number of transforms matches those counted is an identity in the number of bins, form and routine; tests run with the bar off, and a mismatch shows only as an exception or a bar that stops short.", "anchors": ["src/triumvirate/src/threept.cpp:compute_bispec", "src/triumvirate/src/threept.cpp:compute_3pcf", "src/triumvirate/src/threept.cpp:compute_bispec_in_gpp_box", "src/triumvirate/src/threept.cpp:compute_3pcf_in_gpp_box", "src/triumvirate/src/threept.cpp:compute_3pcf_window", "src/triumvirate/src/monitor.cpp:ProgressBar::update", "src/triumvirate/src/field.cpp:MeshField::fourier_transform"]}
{"id": "C165", "title": "The documented progress-bar settings are accepted and mean the same in Python and in the program", "statement": "A switch or a percentage given for the progress bar, as the parameter template documents (true, false or a float interval), is accepted by the Python parameter set and by the program, is read back as the same setting, and makes three-point measurements show progress accordingly; a setting that is refused leaves the parameter set usable; a setting that cannot be read is refused with the parameters, not in the middle of a measurement.", "quantifier": "all Booleans, integers, float texts and words, all earlier states of the parameter set, all histories of assignments", "why_tests_cant": "Tests only use the switch off; the failing settings differ by the text of a number, and a refused setting shows its effect only in later assignments to other entries.", "anchors": ["src/triumvirate/parameters.pyx:ParameterSet._validate", "src/triumvirate/parameters.pyx:ParameterSet._parse_params", "src/triumvirate/src/parameters.cpp:override_paramset_by_envvars", "src/triumvirate/src/monitor.cpp:set_nodes_by_str", "src/triumvirate/src/threept.cpp:compute_bispec"]}
{"id": "C166", "title": "The progress line shows the progress, and completion is always shown", "statement": "For progress between zero and one the line of a progress bar has exactly as many cells as the width of the bar, of which the whole number below the share of the progress are filled; the percentage is the whole number below, never falls and is 100 exactly at completion; whatever nodes are set and whatever was shown before, the update to completion writes the full bar with 100 % and ends the line, and no earlier update ends one; lines are shown at the interval asked for.", "quantifier": "all progress values in [0, 1], all widths, all nodes ending at one, all sequences of updates, all names", "why_tests_cant": "The line is only seen on a terminal and no test reads it; that completion is shown for every set of nodes and every earlier sequence of updates is an invariant of the next-node index.", "anchors": ["src/triumvirate/src/monitor.cpp:ProgressBar::update", "src/triumvirate/src/monitor.cpp:ProgressBar::set_nodes", "src/triumvirate/src/monitor.cpp:set_nodes_by_str"]}
{"id": "C167", "title": "Exchange of the axes of a saved three-point measurement", "statement": "Exchanging the two coordinate axes of a saved three-point table keeps every row with its coordinates exchanged and its measurement unchanged, puts the rows in the order of their bin centres, moves the entry at each pair of bins to the opposite pair, and done twice gives the table back. The file name has its first two degrees exchanged; a measurement with equal first degrees is meant to be skipped, but the script looks for a message that is never raised and ends in an exception.", "quantifier": "every table over a linear order, every number of bins with increasing centres, every statistic name and digits", "why_tests_cant": "The number of bins, the tables and the names are unbounded; the unreachable branch depends on the text of a message", "anchors": ["apps/io/exchange_coord_axes.py:transpose_datatab", "apps/io/exchange_coord_axes.py:transpose_stat_str", "apps/io/exchange_coord_axes.py:main"]}
{"id": "C168", "title": "Parameter files generated from a template", "statement": "A parameter file generated from a template gives each modified parameter the value asked for and every other parameter the value of the template, with comments and parameters in their places. This fails when a parameter is on two lines of the template (the value asked for has no effect), when it is given three times in a row (the second value is used), when the list of modifications is used again (it has been emptied), for switches of the Python template (any text turns them on) and for entries left empty there (a type error).", "quantifier": "every template, every list of modifications, every parameter name and value", "why_tests_cant": "Templates and lists of modifications are unbounded; the order of repeated entries matters only from three on", "anchors": ["apps/io/gen_param_file.py:gen_cpp_params", "apps/io/gen_param_file.py:setitem_nested_dict", "apps/io/gen_param_file.py:gen_python_params"]}
{"id": "C169", "title": "Saved measurements combined into data vectors", "statement": "Reading a saved measurement for the combination of data vectors gives the bin centres, effective coordinates, counts, raw statistic and shot noise that were saved, and components are combined in the order given with their entries aligned. This holds for two-point measurements of two or more bins; from three-point measurements the wrong columns are read (counts for bin centres, and a raw statistic made of a count and a real part), and measurements of a single bin cannot be combined.", "quantifier": "every number of bins, all values of the measurements, every list of components", "why_tests_cant": "The number of bins and the values are unbounded, and the misread columns give numbers, not errors", "anchors": ["apps/io/comb_data_vectors.py:read_measurements", "apps/io/comb_data_vectors.py:combine_components", "src/triumvirate/src/io.cpp:print_measurement_datatab_to_file"]}
{"id": "C170", "title": "List of window convolution terms of a multipole", "statement": "The script that lists window convolution terms gives exactly the pairs of a window multipole and an unwindowed multipole with a coefficient that is not zero, in the order asked for, whatever the order in which the multipoles are given. When no pair has a term it saves an empty file and then fails, and it fails when one of the two lists is not given though neither is required.", "quantifier": "every coefficient function, all lists of multipoles, every sorting option", "why_tests_cant": "Lists of multipoles and coefficients are unbounded; independence of the order concerns all permutations", "anchors": ["apps/calculators/gen_wc_coeffs.py:main", "apps/calculators/gen_wc_coeffs.py:configure"]}
