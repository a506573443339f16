{
 "claims": [
  {
   "property": "C01",
   "status": "proved",
   "theorems": [
    "Trv.Mpi.C01_allocate_complete_balanced",
    "Trv.Mpi.C01_allocate_rejections"
   ],
   "note": ""
  },
  {
   "property": "C02",
   "status": "partial",
   "theorems": [
    "Trv.Mpi.C02_distribute_from_totals",
    "Trv.Mpi.C02_distribute_from_counts_partial",
    "Trv.Mpi.C02_proc_total_not_ignored_violated",
    "Trv.Mpi.C02_proc_total_drops_tasks_violated"
   ],
   "note": "Proved from totals and from counts without a process total; violated: a process total given with explicit counts is not ignored (tasks dropped)."
  },
  {
   "property": "C03",
   "status": "partial",
   "theorems": [
    "Trv.Wc.C03_parallel_matrix_partial",
    "Trv.Wc.C03_parallel_diag_partial",
    "Trv.Wc.C03_parallel_concat_partial",
    "Trv.Wc.C03_process_count_irrelevant_partial",
    "Trv.Wc.C03_serial_violated",
    "Trv.Wc.C03_idle_root_violated",
    "Trv.Wc.C03_convolved_vector",
    "Trv.Wc.C03_matrix_times_vector_partial",
    "Trv.Wc.C03_bispectrum_matrix_partial",
    "Trv.Wc.C03_default_extrapolation_violated"
   ],
   "note": "Model/WinMat.lean: gen_winconv_mat on all ranks, with arrival order of Gatherv as argument. Proved for every number of processes P and root r with P <= dim + r (closed form of the allocation: rank r gets (dim + r) / P tasks): columns are the convolved basis vectors (plain, diag, concat), other ranks None; M v = convolution of v for linear convolutions, instantiated for the bispectrum convolution. Violated: without communicator always TypeError (missing argument diag); default root without task when P > dim (float receive buffer for complex messages, MPI error); default extrap=5 makes the convolution non-linear so that M v differs."
  },
  {
   "property": "C04",
   "status": "proved",
   "theorems": [
    "Trv.Mesh.C04_partition_of_unity"
   ],
   "note": "All four schemes, main and interlaced loops, every non-negative location, exact arithmetic."
  },
  {
   "property": "C05",
   "status": "proved",
   "theorems": [
    "Trv.Mesh.C05_assignment_is_kernel_sum",
    "Trv.Mesh.C05_conserves_weight_in_bounds"
   ],
   "note": "Conservation, in-bounds writes and exact refinement to the periodised kernel, for all meshes and catalogues in the box."
  },
  {
   "property": "C06",
   "status": "proved",
   "theorems": [
    "Trv.Mesh.C06_schedule_independent",
    "Trv.Mesh.C06_particle_order_independent"
   ],
   "note": "Atomic additions executed in any order; exact arithmetic (no rounding)."
  },
  {
   "property": "C07",
   "status": "partial",
   "theorems": [
    "Trv.Mesh.C07_interlaced_conserves_partial",
    "Trv.Mesh.C07_boundary_particle_lost_violated",
    "Trv.Mesh.C07_tsc_loses_weight_violated"
   ],
   "note": "Holds away from the faulty region BadShift; violated at the upper boundary (NGP, CIC: particle lost) and by TSC in the last but one cell (weight lost)."
  },
  {
   "property": "C08",
   "status": "proved",
   "theorems": [
    "Trv.Mesh.C08_translation_equivariant"
   ],
   "note": "Refinement to the kernel sum gives equivariance under whole-cell translations with periodic wrapping."
  },
  {
   "property": "C09",
   "status": "proved",
   "theorems": [
    "Trv.Mesh.C09_grid_index_bijection",
    "Trv.Mesh.C09_grid_index_row_major"
   ],
   "note": "Bijection onto 0..nmesh-1 and row-major order."
  },
  {
   "property": "C10",
   "status": "partial",
   "theorems": [
    "Trv.Mesh.C10_mode_ordering_partial",
    "Trv.Mesh.C10_odd_asymmetric_violated"
   ],
   "note": "Congruence and injectivity for all grid numbers; symmetric Nyquist range and mirror modes for even ones; violated for every odd grid number >= 3."
  },
  {
   "property": "C11",
   "status": "partial",
   "theorems": [
    "Trv.Win.C11_window_range_partial",
    "Trv.Win.C11_single_cell_violated",
    "Trv.Win.C11_even_partial",
    "Trv.Win.C11_odd_asymmetric_violated",
    "Trv.Win.C11_window_is_damping",
    "Trv.Win.C11_history"
   ],
   "note": "Violated: on an axis with one cell the window is zero, and odd grid numbers make it uneven because the index shift sends (n-1)/2 to -(n+1)/2. Positivity proved for at least two cells per axis, evenness for even grid numbers. History independence is proved in full, and the window is proved to be the Fourier transform of the assignment weights averaged over particle positions."
  },
  {
   "property": "C12",
   "status": "proved",
   "theorems": [
    "Trv.Win.C12_alias_is_mean_power",
    "Trv.Win.C12_positive",
    "Trv.Win.C12_shotnoise_mode"
   ],
   "note": "Closed forms without interlacing equal the position-averaged power of the stencil weights, for every scheme and mode; the factor is in (0,1]."
  },
  {
   "property": "C13",
   "status": "partial",
   "theorems": [
    "Trv.Mesh.C13_zero_mean_partial",
    "Trv.Mesh.C13_interlaced_mean_not_subtracted_violated"
   ],
   "note": "Proved for the main field; violated for the interlaced companion, from which the mean is never subtracted."
  },
  {
   "property": "C14",
   "status": "partial",
   "theorems": [
    "Trv.Mesh.C14_single_catalogue_scaling_violated",
    "Trv.Mesh.C14_single_catalogue_quad_scaling_violated",
    "Trv.Mesh.C14_two_catalogue_scaling_partial"
   ],
   "note": "Proved for the two-catalogue fields; violated for the single-catalogue fields (companion not scaled)."
  },
  {
   "property": "C15",
   "status": "proved",
   "theorems": [
    "Trv.Binning.C15_linear_binning"
   ],
   "note": "Any ordered field, any accepted range and bin number; includes the unique-bin property."
  },
  {
   "property": "C16",
   "status": "proved",
   "theorems": [
    "Trv.Binning.C16_logarithmic_binning",
    "Trv.Binning.C16_zero_minimum_rejected"
   ],
   "note": "Over the reals with Real.log/Real.exp; zero minimum rejected."
  },
  {
   "property": "C17",
   "status": "partial",
   "theorems": [
    "Trv.Binning.C17_padded_binning_partial",
    "Trv.Binning.C17_few_bins_violated",
    "Trv.Binning.C17_five_bins_violated"
   ],
   "note": "Proved for more than five bins; violated for fewer than five (five padding bins are still written) and for exactly five (last width inconsistent with the edges)."
  },
  {
   "property": "C18",
   "status": "partial",
   "theorems": [
    "Trv.Binning.C18_width_and_max_violated",
    "Trv.Binning.C18_grid_binning_consistent_partial"
   ],
   "note": "Edges, centres and widths consistent; the documented width and maximum are violated for every even grid number."
  },
  {
   "property": "C19",
   "status": "partial",
   "theorems": [
    "Trv.Binning.C19_custom_binning_partial",
    "Trv.Binning.C19_main_custom_bins_violated"
   ],
   "note": "Proved for the C++ and Python setters; the main program's built-in custom binning is violated in configuration space."
  },
  {
   "property": "C20",
   "status": "partial",
   "theorems": [
    "Trv.Binning.C20_rejected_call_changes_object_violated",
    "Trv.Binning.C20_consistency_lost_violated",
    "Trv.Binning.C20_set_bins_after_custom_violated",
    "Trv.Binning.C20_rejected_call_recoverable_partial"
   ],
   "note": "Violated: a rejected set_bins has already changed the range and number. Partial: edges, centres and widths are untouched on the Python side and a later accepted call restores consistency."
  },
  {
   "property": "C21",
   "status": "partial",
   "theorems": [
    "Trv.Stats.C21_bins_hold_partial",
    "Trv.Stats.C21_aligned_partial",
    "Trv.Stats.C21_lower_edge_violated",
    "Trv.Stats.C21_beyond_violated"
   ],
   "note": "Violated: modes are first put into fine samples of width 1e-5 (or 0.1), and a fine sample goes to the bin containing its lower edge, so a mode in a bin whose lower edge is not a multiple of the width can be counted in the previous bin or none (C21_lower_edge_violated, every non-multiple edge); modes beyond the sampled range are dropped (C21_beyond_violated). Proved parts, for every thread schedule: the exact content of every bin (C21_bins_hold_partial), and the full property when the edges are multiples of the width (C21_aligned_partial)."
  },
  {
   "property": "C22",
   "status": "proved",
   "theorems": [
    "Trv.Stats.C22_binned_vectors",
    "Trv.Stats.C22_magnitude"
   ],
   "note": "For every order of processing cells; hypothesis on the magnitude (dominates each component) is shown for the real Euclidean magnitude in C22_magnitude."
  },
  {
   "property": "C23",
   "status": "partial",
   "theorems": [
    "Trv.Cat.C23_centring_partial",
    "Trv.Cat.C23_own_reference_violated",
    "Trv.Cat.C23_after_assignment_violated",
    "Trv.Cat.C23_cpp_centring_partial"
   ],
   "note": "Python (exact arithmetic) and C++: common shift, midpoint at box centre, containment, idempotence for a reference that is another object. Violated when the catalogue is its own reference (shifted twice) and after a coordinate column was assigned (stale bounds)."
  },
  {
   "property": "C24",
   "status": "partial",
   "theorems": [
    "Trv.Cat.C24_box_padding_partial",
    "Trv.Cat.C24_grid_padding_partial",
    "Trv.Cat.C24_paddings_agree_partial",
    "Trv.Cat.C24_array_padding_violated",
    "Trv.Cat.C24_cpp_box_padding_partial",
    "Trv.Cat.C24_cpp_grid_padding_partial"
   ],
   "note": "Proved for numbers and sequences, distinct reference, Python and C++; box/grid paddings agree. Violated for NumPy arrays of padding factors (ValueError)."
  },
  {
   "property": "C25",
   "status": "partial",
   "theorems": [
    "Trv.Cat.C25_python_wrapping_partial",
    "Trv.Cat.C25_python_not_whole_lengths_violated",
    "Trv.Cat.C25_cpp_wrapping_partial",
    "Trv.Cat.C25_cpp_boundary_violated",
    "Trv.Cat.C25_cpp_catalogue_partial"
   ],
   "note": "Python: in [0,L), moved by whole box lengths after the centring shift; the statement without that shift is violated. C++: whole lengths, in [0,L) except at negative multiples of L, which are sent to L (violated)."
  },
  {
   "property": "C26",
   "status": "partial",
   "theorems": [
    "Trv.Cat.C26_bounds_true_partial",
    "Trv.Cat.C26_initially_true",
    "Trv.Cat.C26_assignment_violated",
    "Trv.Cat.C26_weight_assignment_violated"
   ],
   "note": "Invariant over all histories of catalogue operations without assignment of coordinate/weight columns; violated by such assignments, for every catalogue."
  },
  {
   "property": "C27",
   "status": "proved",
   "theorems": [
    "Trv.Cat.C27_lines_of_sight",
    "Trv.Cat.C27_catalogue"
   ],
   "note": ""
  },
  {
   "property": "C28",
   "status": "partial",
   "theorems": [
    "Trv.Cat.C28_never_derived_violated",
    "Trv.Cat.C28_cpp_box_partial"
   ],
   "note": "Violated in Python: the derived box size is never a number (bounds tuple times expand). C++ derivation proved."
  },
  {
   "property": "C29",
   "status": "partial",
   "theorems": [
    "Trv.Cat.C29_normalisation_restores_partial",
    "Trv.Cat.C29_same_catalogue_violated"
   ],
   "note": "Restored for distinct loaded catalogues with up-to-date extents, exact arithmetic. Violated when the same object is passed as data and random: it is aligned twice and restored twice by the full offset."
  },
  {
   "property": "C30",
   "status": "partial",
   "theorems": [
    "Trv.Cat.C30_memory_partial",
    "Trv.Cat.C30_memory_violated",
    "Trv.Cat.C30_peak"
   ],
   "note": "Counter equals memory held over histories without resizing an initialised catalogue; violated by resizing. Peak counter proved for all histories."
  },
  {
   "property": "C31",
   "status": "proved",
   "theorems": [
    "Trv.Par.C31_ngrid",
    "Trv.Par.C31_python_agrees"
   ],
   "note": "Least integer grid number reaching the cutoff, for Fourier and configuration space; Python and C++ agree where both are defined (volume and cutoff positive)."
  },
  {
   "property": "C32",
   "status": "partial",
   "theorems": [
    "Trv.Par.C32_validation_finishes_partial",
    "Trv.Par.C32_finishes_iff",
    "Trv.Par.C32_zero_cutoff_violated"
   ],
   "note": "Exact criterion proved (C32_finishes_iff): validation finishes iff the first checks reject the parameters or the grid numbers derived from the cutoff define a mesh whenever they are needed. The unconditional claim is false: zero cutoff with a box and no mesh in Fourier space recurses forever (C32_zero_cutoff_violated)."
  },
  {
   "property": "C33",
   "status": "partial",
   "theorems": [
    "Trv.Par.C33_well_formed",
    "Trv.Par.C33_inputs_kept",
    "Trv.Par.C33_interlace",
    "Trv.Par.C33_again",
    "Trv.Par.C33_again_violated",
    "Trv.Par.C33_external_violated",
    "Trv.Par.C33_planner"
   ],
   "note": "Accepted parameters are well formed, user inputs are kept, and validating again changes nothing for plain paths and separable file names, for the program build. Violated: an empty file name is dropped on re-validation (C33_again_violated); the external-call build accepts unrecognised statistics with a stale number of points (C33_external_violated). The interlacing switch is read exactly (C33_interlace)."
  },
  {
   "property": "C34",
   "status": "partial",
   "theorems": [
    "Trv.Par.C34_copy",
    "Trv.Par.C34_copy_validated",
    "Trv.Par.C34_copy_violated"
   ],
   "note": "All members but \"shape\" are copied, so a copy equals the original iff the shape is the default (C34_copy), and validating the copy gives the same result (C34_copy_validated). Violated for full forms with equal degrees (C34_copy_violated)."
  },
  {
   "property": "C35",
   "status": "partial",
   "theorems": [
    "Trv.Par.C35_cutoff_partial",
    "Trv.Par.C35_accepted_agree_partial",
    "Trv.Par.C35_history_partial",
    "Trv.Par.C35_mesh_partial",
    "Trv.Par.C35_rejected_kept_violated",
    "Trv.Par.C35_unset_box_violated",
    "Trv.Par.C35_diverge_violated"
   ],
   "note": "Violated: (1) a rejected assignment keeps the rejected value in the dictionary (C35_rejected_kept_violated, for every state); (2) an accepted assignment which unsets the box leaves the previous C++ box (C35_unset_box_violated for every such assignment, C35_diverge_violated concrete). Proved part: after any history whose last assignment is accepted, every set entry of the dictionary equals the C++ parameter (C35_history_partial), and a positive mesh reaches C++ (C35_mesh_partial). A cutoff without a mesh reaches C++ (C35_cutoff_partial)."
  },
  {
   "property": "C36",
   "status": "proved",
   "theorems": [
    "Trv.ThreePt.C36_layout_bijection",
    "Trv.ThreePt.C36_layout_injective"
   ],
   "note": "All five forms, every bin number, both bispectrum and 3PCF loops."
  },
  {
   "property": "C37",
   "status": "partial",
   "theorems": [
    "Trv.Bis.C37_measurement_defined_partial",
    "Trv.Bis.C37_measurement_violated",
    "Trv.ThreePt.C37_full_form_out_of_bounds_violated",
    "Trv.ThreePt.C37_writes_in_bounds_partial",
    "Trv.ThreePt.C37_3pcf_diagonal_writes",
    "Trv.Zeta.C37_3pcf_defined",
    "Trv.Zeta.C37_box_defined_partial",
    "Trv.Zeta.C37_box_violated"
   ],
   "note": "Violated for the full form with ell1 = 0 (row loop runs one too far, for every bin number), also for the whole measurement in a box; proved in all other cases together with the stronger fact that each entry receives its own bins' shot noise exactly once. The three-point correlation measurements are defined in every valid form."
  },
  {
   "property": "C38",
   "status": "proved",
   "theorems": [
    "Trv.ThreePt.C38_orders_counted_once",
    "Trv.ThreePt.C38_bispectrum_sum",
    "Trv.ThreePt.C38_plane_parallel_sum"
   ],
   "note": "Order loop of the bispectrum, 3PCF and their plane-parallel versions; Wigner-symbol symmetry and the reality condition of the components are hypotheses."
  },
  {
   "property": "C39",
   "status": "proved",
   "theorems": [
    "Trv.ThreePt.C39_reshape_upper",
    "Trv.ThreePt.C39_reshape_full",
    "Trv.ThreePt.C39_reshape_rejects"
   ],
   "note": "Exact square roots; np.isclose modelled with its tolerances."
  },
  {
   "property": "C40",
   "status": "partial",
   "theorems": [
    "Trv.Arr.C40_linear",
    "Trv.Arr.C40_padding",
    "Trv.Arr.C40_log_linear_partial",
    "Trv.Arr.C40_zero_ends_nan_violated",
    "Trv.Arr.C40_log_linear_agree_partial",
    "Trv.Arr.C40_versions_disagree_violated"
   ],
   "note": "Linear and constant padding proved in full, both versions. Log-linear proved for same-sign non-zero end samples; violated for zero end samples (NaNs in Python; Python accepts, C++ rejects)."
  },
  {
   "property": "C41",
   "status": "proved",
   "theorems": [
    "Trv.Arr.C41_never_diverges",
    "Trv.Arr.C41_power_law"
   ],
   "note": "Result keeps the input and never grows away from either end, for every accepted array over the reals."
  },
  {
   "property": "C42",
   "status": "partial",
   "theorems": [
    "Trv.Arr.C42_linear",
    "Trv.Arr.C42_log_linear",
    "Trv.Arr.C42_sign_check",
    "Trv.Arr.C42_padding_shape_violated",
    "Trv.Arr.C42_padding_partial",
    "Trv.Arr.C42_oscillation_safe"
   ],
   "note": "Linear, log-linear and oscillation-safe proved; constant padding interchanges row and column extensions, so it is proved for equal extensions only."
  },
  {
   "property": "C43",
   "status": "partial",
   "theorems": [
    "Trv.Arr.C43_sorted_rejected_violated",
    "Trv.Arr.C43_accepts_exactly_constant_violated",
    "Trv.Arr.C43_unsorted_rejected_partial"
   ],
   "note": "Violated: the check accepts exactly the constant arrays; every strictly monotone array is rejected."
  },
  {
   "property": "C44",
   "status": "proved",
   "theorems": [
    "Trv.Arr.C44_sorting_permutation"
   ],
   "note": "std::sort modelled by insertion sort (order of equal keys unspecified in C++)."
  },
  {
   "property": "C45",
   "status": "partial",
   "theorems": [
    "Trv.Fft.C45_transform_size",
    "Trv.Fft.C45_no_extrapolation",
    "Trv.Fft.C45_samples_centred",
    "Trv.Fft.C45_outer_shrunk_violated",
    "Trv.Fft.C45_outer_slice_partial"
   ],
   "note": "C++ layer: transform size (power of two at least the factor times the samples), no-extrapolation case and centring of the samples proved. Violated in the Python outer layer: a factor below 1 gives a shrunken size which is not rejected (negative n_ext; the slice is empty)."
  },
  {
   "property": "C46",
   "status": "proved",
   "theorems": [
    "Trv.Fft.C46_real"
   ],
   "note": "GSL log-gamma is assumed correct (hypothesis LgOk: it returns log-modulus and phase of Gamma)."
  },
  {
   "property": "C47",
   "status": "partial",
   "theorems": [
    "Trv.Fft.C47_roundtrip",
    "Trv.Fft.C47_even_violated"
   ],
   "note": "Proved for odd sizes or for the low-ringing pivot. Violated for even sizes without low-ringing: for some pivot the alternating samples are annihilated. Direct low-ringing pivot covered while pi/logres < 100 (below the switch to the Stirling series)."
  },
  {
   "property": "C48",
   "status": "partial",
   "theorems": [
    "Trv.Fft.C48_reciprocal",
    "Trv.Fft.C48_involution",
    "Trv.Fft.C48_extended_violated"
   ],
   "note": "Reciprocal grid and involution proved. Violated for extended grids: post_sampts_extrap is filled from pre_sampts out of bounds."
  },
  {
   "property": "C49",
   "status": "partial",
   "theorems": [
    "Trv.Fft.C49_unchanged_partial",
    "Trv.Fft.C49_repeatable_partial",
    "Trv.Fft.C49_mutated_violated"
   ],
   "note": "Violated by default (no extrapolation) and in the native layer: the array of the caller is multiplied in place. Proved for outer extrapolation. DoubleSphericalBesselTransform is not covered here."
  },
  {
   "property": "C50",
   "status": "partial",
   "theorems": [
    "Trv.Wc.C50_opposite",
    "Trv.Wc.C50_strict_weak_order",
    "Trv.Wc.C50_trichotomy_partial",
    "Trv.Wc.C50_not_total_violated",
    "Trv.Wc.C50_sorted_partial",
    "Trv.Wc.C50_sorted_order_violated"
   ],
   "note": "Violated in part: the comparison ignores the middle degree (index[:-2] instead of index[:-1]), so distinct multipoles such as (0,0,2) and (0,2,2) compare neither less nor greater nor equal, and sorted order depends on input order. Proved: strict weak order for all multipoles of one kind, __lt__ and __gt__ are opposite, trichotomy and unique sorting when outer degrees determine the multipole."
  },
  {
   "property": "C51",
   "status": "proved",
   "theorems": [
    "Trv.Wc.C51_wilson_exact"
   ],
   "note": "Interpolation and quadrature weights are parameters; interpolation reproduces samples at increasing sample points. Window of any number of multipoles."
  },
  {
   "property": "C52",
   "status": "proved",
   "theorems": [
    "Trv.Wc.C52_trivial3",
    "Trv.Wc.C52_linear2",
    "Trv.Wc.C52_linear3",
    "Trv.Wc.C52_trivial2"
   ],
   "note": "For all formulae, windows and sample points (interpolation and quadrature are arbitrary linear maps of the samples). Trivial window: built-in formulae."
  },
  {
   "property": "C53",
   "status": "partial",
   "theorems": [
    "Trv.Wc.C53_subselect_inplace_partial",
    "Trv.Wc.C53_new_object_violated",
    "Trv.Wc.C53_new_object_points_violated",
    "Trv.Wc.C53_original_untouched",
    "Trv.Wc.C53_zero_upper_bound_violated",
    "Trv.Wc.C53_index_dictionary_violated",
    "Trv.Wc.C53_partial_dictionary_violated"
   ],
   "note": "Violated: subselect(inplace=False) raises UnboundLocalError unless a tuple of indices is given, and then returns a window whose attribute r is an array; an upper bound of zero selects everything; a dictionary of index ranges raises (or selects nothing where slices are hashable); partial, raw-keyed or half-open dictionaries of ranges raise. Proved: in place with the other forms, for all windows, ranges and slices."
  },
  {
   "property": "C54",
   "status": "proved",
   "theorems": [
    "Trv.Mpi.C54_restore_unique_ordered",
    "Trv.Mpi.C54_distinct_objects_both_kept"
   ],
   "note": ""
  },
  {
   "property": "C55",
   "status": "proved",
   "theorems": [
    "Trv.Mon.C55_elapsed_time",
    "Trv.Mon.C55_elapsed_time_injective",
    "Trv.Mon.C55_python_agrees"
   ],
   "note": "Proved in exact arithmetic for non-negative durations, for the C++ display and for the Python log records, which agree."
  },
  {
   "property": "C56",
   "status": "partial",
   "theorems": [
    "Trv.Mon.C56_extension",
    "Trv.Mon.C56_join_split",
    "Trv.Mon.C56_split_join",
    "Trv.Mon.C56_split_join_char",
    "Trv.Mon.C56_overlap_violated",
    "Trv.Mon.C56_trailing_piece_dropped"
   ],
   "note": "The program separates names with the two-character delimiter \"::\" (monitor.hpp:208). Round trip of join and split proved for every delimiter, under the exact overlap condition (C56_split_join) and, for single characters, unconditionally on the last piece (C56_split_join_char). Violated without the overlap condition: a name ending in \":\" is split wrongly (C56_overlap_violated)."
  },
  {
   "property": "C57",
   "status": "proved",
   "theorems": [
    "Trv.Win.C57_conjugation",
    "Trv.Win.C57_explicit"
   ],
   "note": "The Legendre function of the GSL library is an arbitrary function."
  },
  {
   "property": "C58",
   "status": "proved",
   "theorems": [
    "Trv.Two.C58_power_spectrum",
    "Trv.Two.C58_correlation_function",
    "Trv.Two.C58_bispectrum",
    "Trv.Zeta.C58_three_point_correlation",
    "Trv.Zeta.C58_two_point_window",
    "Trv.Zeta.C58_three_point_window"
   ],
   "note": "Clustering weights scaled by a common non-zero factor, for the conventions particle, mesh and mesh-mixed (with none there is no normalisation): power spectrum, correlation function, bispectrum and three-point correlation function of survey-type catalogues with the failure preserved, and the two- and three-point window functions with particle and mesh normalisation, for any alpha and wide-angle order."
  },
  {
   "property": "C59",
   "status": "partial",
   "theorems": [
    "Trv.Stats.C59_compatible_partial",
    "Trv.Stats.C59_derived_volume_partial",
    "Trv.Stats.C59_first_volume_violated"
   ],
   "note": "Violated: the volume of the first field is not compared (the second is compared twice); holds if volumes are derived from box sizes."
  },
  {
   "property": "C60",
   "status": "partial",
   "theorems": [
    "Trv.Mon.C60_nodes_by_interval",
    "Trv.Mon.C60_updates_in_bounds_partial",
    "Trv.Mon.C60_repeated_completion_violated",
    "Trv.Mon.C60_default_nodes_violated",
    "Trv.Mon.C60_set_progress",
    "Trv.Mon.C60_task_index"
   ],
   "note": "Violated in two ways: the default nodes are 101 zeros followed by the percentage points, and repeated completion reads beyond the nodes. Nodes by interval are proved in exact arithmetic for intervals in (0, 100); in-bounds updates are proved when completion is reported only by the last update."
  },
  {
   "property": "C61",
   "status": "partial",
   "theorems": [
    "Trv.Arr.C61_accepts_arrays_partial",
    "Trv.Arr.C61_two_samples_rejected_violated"
   ],
   "note": "Violated for two samples of equal sign (ValueError from np.gradient); proved for four or more samples."
  },
  {
   "property": "C62",
   "status": "partial",
   "theorems": [
    "Trv.Cat.C62_released_data_partial",
    "Trv.Cat.C62_released_data_violated"
   ],
   "note": "Rejected by all operations but the periodic wrapping, which dereferences the null pointer (violated)."
  },
  {
   "property": "C63",
   "status": "proved",
   "theorems": [
    "Trv.Cat.C63_normalisation_box"
   ],
   "note": "Exact arithmetic."
  },
  {
   "property": "C64",
   "status": "partial",
   "theorems": [
    "Trv.Cat.C64_text_loading_partial",
    "Trv.Cat.C64_missing_column_violated",
    "Trv.Cat.C64_short_line_violated",
    "Trv.Cat.C64_retry_violated"
   ],
   "note": "Text files without HDF5, well-formed lines. Violated: missing coordinate column, short line, retry after failure."
  },
  {
   "property": "C65",
   "status": "partial",
   "theorems": [
    "Trv.Cat.C65_random_in_box_partial",
    "Trv.Cat.C65_survey_in_box_partial",
    "Trv.Cat.C65_survey_in_box_violated"
   ],
   "note": "Random catalogue (centre) and survey catalogues whose randoms fit; violated for survey catalogues with wider randoms."
  },
  {
   "property": "C66",
   "status": "partial",
   "theorems": [
    "Trv.Mon.C66_log_level_violated",
    "Trv.Mon.C66_log_limit_partial",
    "Trv.Mon.C66_log_mislabel_violated"
   ],
   "note": "Violated: the level is divided by ten and then compared with the undivided levels, so every standard level above NSET throws. Only suppression below the limit holds."
  },
  {
   "property": "C67",
   "status": "partial",
   "theorems": [
    "Trv.Mon.C67_build_time_partial",
    "Trv.Mon.C67_build_date_violated"
   ],
   "note": "Violated: the day is not carried to the month. Hours, minutes and the instant within the month are proved."
  },
  {
   "property": "C68",
   "status": "proved",
   "theorems": [
    "Trv.Mon.C68_expansion",
    "Trv.Mon.C68_no_variables"
   ],
   "note": "Proved; the regular expression is modelled as the leftmost ${ followed by characters other than } and a closing brace."
  },
  {
   "property": "C69",
   "status": "partial",
   "theorems": [
    "Trv.Par.C69_usable_partial",
    "Trv.Par.C69_usable_violated"
   ],
   "note": "Proved for positive given sides and positive (or missing, with positive cutoff) grid numbers; violated when two signs cancel."
  },
  {
   "property": "C70",
   "status": "partial",
   "theorems": [
    "Trv.Par.C70_line_partial",
    "Trv.Par.C70_known_line_partial",
    "Trv.Par.C70_line_violated",
    "Trv.Par.C70_overflow_violated",
    "Trv.Par.C70_text_value_partial",
    "Trv.Par.C70_number_value_partial",
    "Trv.Par.C70_file_partial"
   ],
   "note": "Proved for lines whose other words contain no parameter name, and for whole files of such lines: every parameter gets the value under its name or its default; violated by file names or remarks containing a name (C70_line_violated), which may also overflow a 16-byte buffer (C70_overflow_violated). sscanf is modelled by splitting at white space."
  },
  {
   "property": "C71",
   "status": "partial",
   "theorems": [
    "Trv.Par.C71_print_read_violated",
    "Trv.Par.C71_print_read_partial"
   ],
   "note": "Violated for every accepted parameter set unless a later value contains the word \"assignment\": the printed line assignment_order = n overwrites the assignment scheme. Proved: all other printed lines are read back exactly (C71_print_read_partial), for values without white space or parameter names, fitting their buffers; the cutoff is not printed."
  },
  {
   "property": "C72",
   "status": "partial",
   "theorems": [
    "Trv.Par.C72_derived_box_violated",
    "Trv.Par.C72_derived_spans_violated"
   ],
   "note": "Violated: catalogue.bounds[ax] is a (min, max) tuple, so multiplying by the float expand raises TypeError whenever a box side is unset; and even with spans the derived box would only be written in the nested dictionary, never into the C++ parameters, because _validate() does not re-parse."
  },
  {
   "property": "C73",
   "status": "partial",
   "theorems": [
    "Trv.Par.C73_cutoff_violated"
   ],
   "note": "Violated: _set_ngrid_from_cutoff reads the entry space of the raw dictionary, which is filled in only by the later _validate(); without it the construction raises KeyError for every such dictionary."
  },
  {
   "property": "C74",
   "status": "partial",
   "theorems": [
    "Trv.Win.C74_interlaced_positive_partial",
    "Trv.Win.C74_odd_mesh_violated"
   ],
   "note": "Violated: zero on the 3x3x3 mesh for the mode (1,1,2). Positive whenever all grid numbers are even."
  },
  {
   "property": "C75",
   "status": "proved",
   "theorems": [
    "Trv.Fft.C75_power_law"
   ],
   "note": "GSL log-gamma assumed correct (LgOk)."
  },
  {
   "property": "C76",
   "status": "partial",
   "theorems": [
    "Trv.Fft.C76_poles_rejected",
    "Trv.Fft.C76_odd_rejected_violated"
   ],
   "note": "Every pole is rejected; violated in the other direction: odd non-positive integers, where the gamma functions are regular, are rejected as well."
  },
  {
   "property": "C77",
   "status": "proved",
   "theorems": [
    "Trv.Fft.C77_multipole_roundtrip"
   ],
   "note": "C++ transform_cosmological_multipole; GSL log-gamma assumed correct (LgOk)."
  },
  {
   "property": "C78",
   "status": "partial",
   "theorems": [
    "Trv.Fft.C78_sized_output_partial",
    "Trv.Fft.C78_not_resized_violated"
   ],
   "note": "Violated: the resize is guarded by a condition that has already been excluded, so an output vector that is too short is never resized and is written out of bounds. Proved for outputs already of the right size."
  },
  {
   "property": "C79",
   "status": "partial",
   "theorems": [
    "Trv.Wc.C79_roundtrip_partial",
    "Trv.Wc.C79_single_violated",
    "Trv.Wc.C79_abstr_partial",
    "Trv.Wc.C79_abstr_violated"
   ],
   "note": "Violated: the string form of a single two-digit degree and abbreviated forms of two-digit or negative degrees are misread. Proved for the remaining cases."
  },
  {
   "property": "C80",
   "status": "partial",
   "theorems": [
    "Trv.Wc.C80_constructed_convolves_partial",
    "Trv.Wc.C80_superset_violated",
    "Trv.Wc.C80_missing_violated"
   ],
   "note": "Violated: the subset check is in the wrong direction. Sufficient points with one more multipole are rejected; missing ones pass the check and give KeyError later. Proved: whatever was constructed can convolve."
  },
  {
   "property": "C81",
   "status": "partial",
   "theorems": [
    "Trv.Wc.C81_keys_violated",
    "Trv.Wc.C81_multipole_keys_partial"
   ],
   "note": "Violated: the keys of samples are not converted, so tuples, strings and integers raise KeyError."
  },
  {
   "property": "C82",
   "status": "partial",
   "theorems": [
    "Trv.Wc.C82_constant_removed_partial",
    "Trv.Wc.C82_array_violated"
   ],
   "note": "Violated for sample points given as an array, where the pseudo-index ic is converted to a multipole and raises ValueError in every call that computes the constraint. Proved for sample points given as a dictionary."
  },
  {
   "property": "C83",
   "status": "partial",
   "theorems": [
    "Trv.Wc.C83_isotropic_partial",
    "Trv.Wc.C83_anisotropic_violated"
   ],
   "note": "Proved when window or correlation function is isotropic (degree L = 0 only). Violated otherwise: products of two anisotropic multipoles are left out of the formula."
  },
  {
   "property": "C84",
   "status": "proved",
   "theorems": [
    "Trv.Wc.C84_diagonal"
   ],
   "note": "Any formula, window and integral constraint."
  },
  {
   "property": "C85",
   "status": "partial",
   "theorems": [
    "Trv.Wc.C85_window_samples",
    "Trv.Wc.C85_window_accepted",
    "Trv.Wc.C85_resampled_partial",
    "Trv.Wc.C85_default_resampling_violated",
    "Trv.Wc.C85_not_resampled",
    "Trv.Wc.C85_too_few_points",
    "Trv.Wc.C85_resampling_too_few"
   ],
   "note": "Violated for the default make_loglin=True: a Boolean is an integer, so the window is resampled to one point. Proved: samples before resampling, acceptance of well-sized tables, resampling to a given number of points, no resampling when not needed."
  },
  {
   "property": "C86",
   "status": "partial",
   "theorems": [
    "Trv.Wc.C86_integrates_to_zero_partial",
    "Trv.Wc.C86_dipole_violated"
   ],
   "note": "Violated: the terms are weighted by N H^2 instead of its inverse. Proved when the monopole is the only common multipole."
  },
  {
   "property": "C87",
   "status": "partial",
   "theorems": [
    "Trv.Two.C87_two_point",
    "Trv.Two.C87_three_point_partial",
    "Trv.Two.C87_three_point_violated"
   ],
   "note": "Holds for the power spectrum. Violated for the bispectrum: the code adds alpha^3 times the sum over random particles where the self-contribution (and threept.hpp) subtracts it; the difference is proved exactly."
  },
  {
   "property": "C88",
   "status": "proved",
   "theorems": [
    "Trv.Two.C88_monopole_nonneg",
    "Trv.Two.C88_monopole_nonneg_box"
   ],
   "note": "Meshes with at least two cells on each axis."
  },
  {
   "property": "C89",
   "status": "proved",
   "theorems": [
    "Trv.Two.C89_raw_power_zero",
    "Trv.Two.C89_raw_bispectrum_zero",
    "Trv.Zeta.C89_raw_3pcf_zero"
   ],
   "note": "Total systematic weight non-zero (alpha is NaN otherwise). Raw power spectrum, bispectrum and three-point correlation function."
  },
  {
   "property": "C90",
   "status": "proved",
   "theorems": [
    "Trv.Two.C90_roundtrip"
   ],
   "note": "No interlacing, as stated."
  },
  {
   "property": "C91",
   "status": "proved",
   "theorems": [
    "Trv.Two.C91_parseval"
   ],
   "note": "No interlacing, as stated."
  },
  {
   "property": "C92",
   "status": "partial",
   "theorems": [
    "Trv.Two.C92_hermitian",
    "Trv.Two.C92_interlaced_partial",
    "Trv.Two.C92_interlaced_violated"
   ],
   "note": "Holds without interlacing; with interlacing holds away from the Nyquist planes on even meshes and is violated at the Nyquist mode whenever the companion field has a contribution there."
  },
  {
   "property": "C93",
   "status": "partial",
   "theorems": [
    "Trv.Two.C93_translation_partial",
    "Trv.Two.C93_translation",
    "Trv.Two.C93_interlaced_violated"
   ],
   "note": "Holds without interlacing; with interlacing holds if no particle is in the faulty region of the companion field (C07), and is violated by a particle in it (power changes from 0 to 1/4)."
  },
  {
   "property": "C94",
   "status": "partial",
   "theorems": [
    "Trv.Two.C94_nz_violated",
    "Trv.Two.C94_mixed_violated",
    "Trv.Two.C94_independence_partial"
   ],
   "note": "Violated: the particle normalisation is always computed and throws when all redshift densities vanish, under every convention; mesh-mixed with sim or random catalogues gives a zero factor. Proved in part: where the driver does not stop, conventions other than particle do not depend on the redshift densities."
  },
  {
   "property": "C95",
   "status": "partial",
   "theorems": [
    "Trv.Par.C95_two_point_partial",
    "Trv.Par.C95_three_point_partial",
    "Trv.Par.C95_accepted_partial",
    "Trv.Par.C95_template_partial",
    "Trv.Par.C95_order_violated"
   ],
   "note": "Violated: overrides are validated one by one, so valid combinations are rejected (another padding scale; a row index beyond the old number of bins). Proved: accepted overrides are all in effect; overrides of the template are rejected exactly for two paddings. Calls without a parameter set are rejected exactly for missing arguments, and otherwise every argument is in the entry of its name (C95_two_point_partial, C95_three_point_partial)."
  },
  {
   "property": "C96",
   "status": "partial",
   "theorems": [
    "Trv.Par.C96_caller_changed_violated",
    "Trv.Par.C96_entries_kept_partial"
   ],
   "note": "Violated: a bispectrum between two power spectra turns the interlacing of the second off. Proved: which entries are kept."
  },
  {
   "property": "C97",
   "status": "partial",
   "theorems": [
    "Trv.Par.C97_accepted_partial",
    "Trv.Par.C97_one_bin_violated",
    "Trv.Par.C97_missing"
   ],
   "note": "Violated for one bin. Proved for two or more bins."
  },
  {
   "property": "C98",
   "status": "partial",
   "theorems": [
    "Trv.Par.C98_separate_partial",
    "Trv.Par.C98_shared_violated",
    "Trv.Par.C98_caller_dict_violated"
   ],
   "note": "Violated: the dictionary is stored, not copied. Proved for sets with different dictionaries."
  },
  {
   "property": "C99",
   "status": "partial",
   "theorems": [
    "Trv.Cat.C99_mean_density",
    "Trv.Cat.C99_zero_volume_violated"
   ],
   "note": "Proved for non-zero volumes and boxes; violated in that a volume of zero falls back to the box size although a volume is given."
  },
  {
   "property": "C100",
   "status": "proved",
   "theorems": [
    "Trv.Cat.C100_array_loading",
    "Trv.Cat.C100_rejected"
   ],
   "note": "Success for non-empty arrays of equal lengths, with the exact particles, totals and extents; rejection otherwise. On rejection the C++ catalogue keeps the marker of its source (the model returns only the error)."
  },
  {
   "property": "C101",
   "status": "proved",
   "theorems": [
    "Trv.Bis.C101_triangles",
    "Trv.Zeta.C101_box_triangles"
   ],
   "note": "Sum over triangles derived from the transforms by orthogonality of phases, in survey and box; the effective wavenumbers and mode numbers are recorded only if some order is computed."
  },
  {
   "property": "C102",
   "status": "proved",
   "theorems": [
    "Trv.Bis.C102_all_orders"
   ],
   "note": "Hypotheses on the Legendre functions and the Wigner symbols (both external) are their textbook symmetries; couplings exactly at the threshold 1e-9 are excluded; horizontal wavenumbers below 1e-9 are excluded by the mesh condition."
  },
  {
   "property": "C103",
   "status": "proved",
   "theorems": [
    "Trv.Bis.C103_exchange",
    "Trv.Bis.C103_reality"
   ],
   "note": "Conditions as in C102; the shot-noise column is not covered."
  },
  {
   "property": "C104",
   "status": "proved",
   "theorems": [
    "Trv.Wc.C104_convolved_bispectrum"
   ],
   "note": "Double spherical Bessel transforms are given weights and interpolation satisfies the knot property; resampling of the input is not modelled."
  },
  {
   "property": "C105",
   "status": "proved",
   "theorems": [
    "Trv.Zeta.C105_survey",
    "Trv.Zeta.C105_box",
    "Trv.Zeta.C105_window"
   ],
   "note": "Catalogue fields appear as the modelled mesh fields (C05-C08 describe them); special functions are parameters. Line contents (bins recorded) need at least one computed order."
  },
  {
   "property": "C106",
   "status": "partial",
   "theorems": [
    "Trv.Zeta.C106_shotnoise_partial",
    "Trv.Zeta.C106_odd_sign_violated",
    "Trv.Zeta.C106_odd_nonzero_violated"
   ],
   "note": "Proved for even ell1 + ell2 (survey, box, window). Violated for odd ell1 + ell2 in survey and window: the parity factor (-1)^(ell1+ell2) is applied both in field.cpp:3180-3181 and in threept.cpp:1040/1240, so the sign is reversed; a concrete window of two particles has non-zero shot noise of the wrong sign."
  },
  {
   "property": "C107",
   "status": "proved",
   "theorems": [
    "Trv.Two.C107_power_spectrum",
    "Trv.Two.C107_correlation_function",
    "Trv.Two.C107_box",
    "Trv.Two.C107_window"
   ],
   "note": "Number and mean length are those of the order (0,0) and so need its coupling not to be skipped; the rounding of lengths to fine bins (1e-5 in Fourier space below 10, 0.1 in configuration space below 100000) is part of the statement. The window of random particles is included (C107_window)."
  },
  {
   "property": "C108",
   "status": "partial",
   "theorems": [
    "Trv.Two.C108_correlation_pairs",
    "Trv.Two.C108_correlation_pairs_box",
    "Trv.Zeta.C108_window_shotnoise_pairs",
    "Trv.Zeta.C108_box_shotnoise_pairs",
    "Trv.Zeta.C108_survey_shotnoise_pairs_partial",
    "Trv.Zeta.C108_survey_shotnoise_violated",
    "Trv.Two.C108_window_pairs"
   ],
   "note": "Two-point correlation function in survey and box, three-point shot noise in box and window: proved. Survey three-point shot noise: proved for bins without the zero separation; violated with it, because threept.cpp:207 adds the cubed random weights with + alpha^3 instead of - alpha^3 (see C87). Two-point windows: C108_window_pairs."
  },
  {
   "property": "C109",
   "status": "proved",
   "theorems": [
    "Trv.Zeta.C109_shotnoise",
    "Trv.Zeta.C109_shotnoise_box"
   ],
   "note": "Survey and box, for every measurement which returns rows. The full form with ell1 = 0 and ell2 = 0 terms is excluded by the code itself, which writes out of bounds there (C37)."
  },
  {
   "property": "C110",
   "status": "proved",
   "theorems": [
    "Trv.Zeta.C110_shotnoise",
    "Trv.Zeta.C110_box",
    "Trv.Zeta.C110_3pcf",
    "Trv.Zeta.C110_exchange"
   ],
   "note": "Without interlacing. With interlacing the transform is not Hermitian at the Nyquist modes (C92), which enter the correlation in the shot noise."
  },
  {
   "property": "C111",
   "status": "partial",
   "theorems": [
    "Trv.Zeta.C111_two_point",
    "Trv.Zeta.C111_bispec",
    "Trv.Zeta.C111_bispec_box",
    "Trv.Zeta.C111_3pcf",
    "Trv.Zeta.C111_3pcf_box",
    "Trv.Zeta.C111_window",
    "Trv.Zeta.C111_wide_angle_violated"
   ],
   "note": "All measurements proved (the interlaced case excludes the faulty region of C07). Violated with wide-angle corrections: C111_wide_angle_violated."
  },
  {
   "property": "C112",
   "status": "proved",
   "theorems": [
    "Trv.Zeta.C112_wide_angle",
    "Trv.Zeta.C112_zero_orders",
    "Trv.Zeta.C112_total_order"
   ],
   "note": "Meshes of at least two cells per axis (the window of an axis of one cell vanishes and the code divides by it)."
  },
  {
   "property": "C113",
   "status": "proved",
   "theorems": [
    "Trv.Two.C113_mesh_pairs",
    "Trv.Two.C113_mesh_triples",
    "Trv.Two.C113_mixed_pairs",
    "Trv.Two.C113_mesh_bound",
    "Trv.Two.C113_particles_agree",
    "Trv.Two.C113_shot_noise"
   ],
   "note": "Exact arithmetic; agreement with particle normalisation for nearest-grid-point assignment."
  },
  {
   "property": "C114",
   "status": "partial",
   "theorems": [
    "Trv.Fft.C114_first_points",
    "Trv.Fft.C114_second_points_partial",
    "Trv.Fft.C114_second_points_violated"
   ],
   "note": "With the low-ringing condition (default) and degrees differing by two, the points returned for the second dimension are those of the first: wrong at every index (C114_second_points_violated, for the true gamma function). Right for the first dimension, and for both without the condition or with equal degrees and biases."
  },
  {
   "property": "C115",
   "status": "proved",
   "theorems": [
    "Trv.Fft.C115_double_sum",
    "Trv.Fft.C115_separable",
    "Trv.Fft.C115_transposed",
    "Trv.Fft.C115_roundtrip"
   ],
   "note": "Full for arrays without extrapolation; the round trip has the conditions of C77 (odd number of points without low-ringing, or low-ringing with equal degrees and biases, since only the points of the first dimension are returned)."
  },
  {
   "property": "C116",
   "status": "partial",
   "theorems": [
    "Trv.Fft.C116_mutated_violated",
    "Trv.Fft.C116_unchanged_partial"
   ],
   "note": "Violated without extrapolation, the default: the rows of the array are multiplied in place. Proved unchanged with extrapolation (C116_unchanged_partial)."
  },
  {
   "property": "C117",
   "status": "partial",
   "theorems": [
    "Trv.Out.C117_distinct_partial",
    "Trv.Out.C117_dotted_violated",
    "Trv.Out.C117_degrees_violated",
    "Trv.Out.C117_tags_violated",
    "Trv.Out.C117_same_names",
    "Trv.Out.C117_wide_angle_violated",
    "Trv.Out.C117_program_distinct_partial",
    "Trv.Out.C117_truncated_violated"
   ],
   "note": "Proved for degrees of one digit, tags without digits first and without dots (C117_distinct_partial; C117_program_distinct_partial for the program). Violated for tags with a dot (with_suffix replaces what follows), for degrees of several digits, for bins followed by tags which begin with a digit, for wide-angle windows (names of the two interfaces differ) and for paths cut at 1023 characters."
  },
  {
   "property": "C118",
   "status": "partial",
   "theorems": [
    "Trv.Out.C118_saved",
    "Trv.Out.C118_lost_violated"
   ],
   "note": "Proved for recognised values; violated for other values of save, which raise an error after the measurement so that it is lost."
  },
  {
   "property": "C119",
   "status": "partial",
   "theorems": [
    "Trv.Out.C119_table",
    "Trv.Out.C119_powspec",
    "Trv.Out.C119_corrfunc",
    "Trv.Out.C119_bispec",
    "Trv.Out.C119_threept",
    "Trv.Out.C119_labels_violated"
   ],
   "note": "Proved for all four tables; violated for the labels of the program when the degrees take more than seven characters."
  },
  {
   "property": "C120",
   "status": "partial",
   "theorems": [
    "Trv.Out.C120_saved_windows_load",
    "Trv.Out.C120_diagonal_form_violated"
   ],
   "note": "Round trip proved for files of the full form; violated for files of the diagonal form with a triangular number of bins, which are loaded without an error."
  },
  {
   "property": "C121",
   "status": "proved",
   "theorems": [
    "Trv.Fft.C121_lowring_nearest",
    "Trv.Fft.C121_lowring_default",
    "Trv.Fft.C121_lowring_close"
   ],
   "note": "Nearest pivot with one given; without one, exact for logarithmic spacings above pi/100 and within a relative 1e-15 below (C121_lowring_close covers every spacing). LgOk: the log-gamma function of the library is a logarithm of the gamma function."
  },
  {
   "property": "C122",
   "status": "proved",
   "theorems": [
    "Trv.Fft.C122_extrapolated"
   ],
   "note": "Proved for three or more geometric points; the samples are real, as the documentation assumes."
  },
  {
   "property": "C123",
   "status": "partial",
   "theorems": [
    "Trv.Cat.C123_history_partial",
    "Trv.Cat.C123_caller_catalogues_violated",
    "Trv.Cat.C123_lines_of_sight_violated",
    "Trv.Cat.C123_box_partial",
    "Trv.Cat.C123_overfull_violated",
    "Trv.Cat.C123_density_violated",
    "Trv.Cat.C123_window_first_violated"
   ],
   "note": "Measurements of the same pair keep the two catalogues displaced together, so with given lines of sight any later survey measurement receives what it would have received first (induction over the earlier calls). Violated when the lines of sight are computed (they are taken from the positions displaced by the previous measurement), when a window function was measured before (the random catalogue alone is displaced), when a missing density was inserted for another box, and when a box is overfull. The catalogues of the caller are displaced."
  },
  {
   "property": "C124",
   "status": "partial",
   "theorems": [
    "Trv.Cat.C124_conversion_partial",
    "Trv.Cat.C124_integers_violated",
    "Trv.Cat.C124_text_file_violated",
    "Trv.Cat.C124_integer_weight_violated",
    "Trv.Cat.C124_construction",
    "Trv.Cat.C124_displacement_violated",
    "Trv.Cat.C124_displacement_partial"
   ],
   "note": "Converted exactly when all six columns hold floats, and displaced coordinate by coordinate then (partial). Integer columns (from whole-number text columns or an integer weight) make conversion fail, and a displacement failing half-way leaves some coordinates displaced (violated)."
  },
  {
   "property": "C125",
   "status": "partial",
   "theorems": [
    "Trv.Cat.C125_reading_partial",
    "Trv.Cat.C125_existing_name_violated",
    "Trv.Cat.C125_arguments_partial",
    "Trv.Cat.C125_arguments_violated"
   ],
   "note": "Proved for mappings whose new names are not already columns of the file (partial); a mapping onto an existing column name is rejected, and the table_kwargs dictionary of the caller is overwritten for text formats (violated)."
  },
  {
   "property": "C126",
   "status": "proved",
   "theorems": [
    "Trv.Two.C126_power_spectrum",
    "Trv.Two.C126_box",
    "Trv.Two.C126_plane_parallel",
    "Trv.Two.C126_correlation_function",
    "Trv.Two.C126_correlation_modes",
    "Trv.Two.C126_window"
   ],
   "note": "Special functions enter as hypotheses (Special): the values of the GSL associated Legendre functions and of the Wigner symbols with a zero degree; both hold for exact functions (C146). The addition theorem itself is proved for all degrees. Lines of sight and the mesh are resolved above the thresholds of 1e-9 in the harmonics. The correlation function is a sum over pairs of particles for nearest-grid-point assignment without interlacing (C126_correlation_function) and a transform of powers of modes for every scheme (C126_correlation_modes). The two-point window of random particles is included (C126_window)."
  },
  {
   "property": "C127",
   "status": "partial",
   "theorems": [
    "Trv.Two.C127_survey_partial",
    "Trv.Two.C127_box_partial",
    "Trv.Two.C127_correlation_real",
    "Trv.Two.C127_nyquist_violated",
    "Trv.Two.C127_window_real"
   ],
   "note": "Bins must end 1e-5 (the rounding of wavenumbers) below the Nyquist wavenumber; the dipole of one particle in a box at the Nyquist modes is -1 (violated). Two-point windows are real too (C127_window_real)."
  },
  {
   "property": "C128",
   "status": "partial",
   "theorems": [
    "Trv.Prog.C128_override",
    "Trv.Prog.C128_as_file_partial",
    "Trv.Prog.C128_wisdom_violated",
    "Trv.Prog.C128_tag_violated"
   ],
   "note": "C128_override is exact for validated parameters without environment variables in paths, for builds without GPU and with separable file names. C128_as_file_partial leaves out the wisdom directory and tags which enter the path of the binned vectors, for which the claim is refuted."
  },
  {
   "property": "C129",
   "status": "partial",
   "theorems": [
    "Trv.Prog.C129_success",
    "Trv.Prog.C129_failure",
    "Trv.Prog.C129_custom_violated",
    "Trv.Prog.C129_no_parameters_violated",
    "Trv.Prog.C129_open_violated",
    "Trv.Prog.C129_used_box_violated",
    "Trv.Prog.C129_padded_violated"
   ],
   "note": "Proved for an arbitrary measurement function; the violations are concrete runs evaluated by the kernel, and C129_custom_violated and C129_no_parameters_violated hold for every run."
  },
  {
   "property": "C130",
   "status": "partial",
   "theorems": [
    "Trv.Prog.C130_survey",
    "Trv.Prog.C130_window",
    "Trv.Prog.C130_box_partial",
    "Trv.Prog.C130_box_violated",
    "Trv.Prog.C130_padded_window_violated",
    "Trv.Prog.C130_wide_window_violated"
   ],
   "note": "Survey: proved for every alignment option. Window: proved for centred random particles whose extents are below three box sizes. Violated: in a box the Python package translates the particles to the middle of the box and the program does not (equal up to one periodic translation, C130_box_partial); a padded window is centred by the Python package (C130_padded_window_violated); at three box sizes the program leaves particles on the upper edge (C130_wide_window_violated)."
  },
  {
   "property": "C131",
   "status": "partial",
   "theorems": [
    "Trv.Wc.C131_round_trip_partial",
    "Trv.Wc.C131_array_violated",
    "Trv.Wc.C131_suffix_violated",
    "Trv.Wc.C131_subselected_violated",
    "Trv.Wc.C131_sessions"
   ],
   "note": "Round trip for windows whose sample points are a dictionary, and for sessions starting with a constructed window; array sample points, paths without the .npz suffix and windows from subselect(inplace=False) do not load back."
  },
  {
   "property": "C132",
   "status": "partial",
   "theorems": [
    "Trv.Out.C132_sources_partial",
    "Trv.Out.C132_text_keys_violated"
   ],
   "note": "Proved for Multipole keys of equal length; string keys sort differently from the multipoles."
  },
  {
   "property": "C133",
   "status": "partial",
   "theorems": [
    "Trv.Wc.C133_kept",
    "Trv.Wc.C133_samples_kept",
    "Trv.Wc.C133_rejected",
    "Trv.Wc.C133_respaced_partial",
    "Trv.Wc.C133_number_violated",
    "Trv.Wc.C133_extra_samples_violated"
   ],
   "note": "Decision logic of the input wavenumbers of BispecWinConv and of the interpolation of the samples at new ones. Partial: the number of points is kept only if it is the same for all multipoles (C133_number_violated), and extra samples are rejected after respacing (C133_extra_samples_violated)."
  },
  {
   "property": "C134",
   "status": "partial",
   "theorems": [
    "Trv.Wc.C134_values",
    "Trv.Wc.C134_unchanged_partial",
    "Trv.Wc.C134_mutated_violated",
    "Trv.Wc.C134_range",
    "Trv.Wc.C134_interpolated",
    "Trv.Wc.C134_common",
    "Trv.Wc.C134_trivial_window_partial",
    "Trv.Wc.C134_constructs_partial"
   ],
   "note": "C134_values refines convolve, with array objects, to a function of values; C134_trivial_window_partial composes construction, backward transform, convolution and forward transform for the built-in two-point formula without extrapolation; C134_constructs_partial shows construction succeeds for logarithmically spaced wavenumbers. Without extrapolation the arrays of the caller are multiplied in place (C134_mutated_violated)."
  },
  {
   "property": "C135",
   "status": "partial",
   "theorems": [
    "Trv.Wc.C135_values",
    "Trv.Wc.C135_unchanged_partial",
    "Trv.Wc.C135_mutated_violated",
    "Trv.Wc.C135_trivial_window_partial",
    "Trv.Wc.C135_lowring_violated",
    "Trv.Wc.C135_constructs_partial"
   ],
   "note": "BispecWinConv from construction to result. C135_values: for every state of the arrays, formula and transforms the result equals a specification computed from the values alone. C135_unchanged_partial: arrays kept when the transforms extrapolate or the samples are interpolated first. C135_trivial_window_partial: a trivial window returns the input for multipoles of equal degrees and, without lowring, for all. C135_constructs_partial: the object is constructed for logarithmically spaced wavenumbers. C135_lowring_violated: with lowring (the default) the (2, 0, 2) multipole is multiplied by a constant other than one. C135_mutated_violated: without extrapolation the arrays of the caller are multiplied in place. Exact arithmetic; interpolation weights exact at their knots."
  },
  {
   "property": "C136",
   "status": "partial",
   "theorems": [
    "Trv.Wc.C136_line",
    "Trv.Wc.C136_points",
    "Trv.Wc.C136_plane_partial",
    "Trv.Wc.C136_lengths_violated",
    "Trv.Wc.C136_same_line",
    "Trv.Wc.C136_same_plane",
    "Trv.Wc.C136_again",
    "Trv.Wc.C136_function",
    "Trv.Wc.C136_constant",
    "Trv.Wc.C136_window",
    "Trv.Wc.C136_window_violated"
   ],
   "note": "Model of both resampling functions with squeezing of the arguments, sizes given as numbers or sequences, and the requirements of the splines; the splines are linear maps which reproduce samples and constants. The two-dimensional statement is for one array of points or two of the same length; others are rejected (violated). A tuple of different sizes leaves a window whose separations do not match its samples (violated)."
  },
  {
   "property": "C137",
   "status": "partial",
   "theorems": [
    "Trv.Wc.C137_defined",
    "Trv.Wc.C137_odd_violated",
    "Trv.Wc.C137_rational",
    "Trv.Wc.C137_window_monopole",
    "Trv.Wc.C137_correlation_monopole",
    "Trv.Wc.C137_ic",
    "Trv.Wc.C137_selection",
    "Trv.Wc.C137_projection",
    "Trv.Wc.C137_exact",
    "Trv.Wc.C137_builtin",
    "Trv.Wc.C137_builtin_complete_partial",
    "Trv.Wc.C137_builtin_violated"
   ],
   "note": "Wigner symbols over the reals by the formulae of Racah; everything for all degrees, except projection, exactness and the comparison with the table, which are about the five multipoles of the built-in formula (whole table)."
  },
  {
   "property": "C138",
   "status": "partial",
   "theorems": [
    "Trv.Zeta.C138_two_point",
    "Trv.Zeta.C138_box",
    "Trv.Zeta.C138_window_partial",
    "Trv.Zeta.C138_bispec",
    "Trv.Zeta.C138_bispec_box",
    "Trv.Zeta.C138_3pcf_shotnoise"
   ],
   "note": "Proved for two-point measurements of surveys and boxes, for shot noise of three-point measurements and for the bispectrum below the Nyquist wavenumber. Partial: the window function needs alpha = 1, since the companion field is not multiplied by alpha (C14); particles in the faulty region of the companion (C07) are excluded."
  },
  {
   "property": "C139",
   "status": "partial",
   "theorems": [
    "Trv.Sbc.C139_defined",
    "Trv.Sbc.C139_exact",
    "Trv.Sbc.C139_local",
    "Trv.Sbc.C139_accuracy",
    "Trv.Sbc.C139_interior",
    "Trv.Sbc.C139_origin_violated",
    "Trv.Sbc.C139_copy"
   ],
   "note": "Defined for all non-negative arguments; exact at nodes and beyond the table; accuracy 1/2000 everywhere and 7e-7 away from the ends for every degree; copies agree. C139_origin_violated: natural boundary condition at x = 0 makes j_0 wrong by more than 2e-5 at x = 1/40. Library routines enter through their definitions over the reals."
  },
  {
   "property": "C140",
   "status": "proved",
   "theorems": [
    "Trv.Zeta.C140_isotropic",
    "Trv.Zeta.C140_first",
    "Trv.Zeta.C140_second",
    "Trv.Zeta.C140_box",
    "Trv.Zeta.C140_shotnoise"
   ],
   "note": "Wigner symbols enter through their symmetries and their known values when a degree vanishes (Special3); Legendre functions at their true values; lines of sight either zero, along z or inclined by more than 1e-9; box multipoles without interlacing; bins below the Nyquist wavenumber."
  },
  {
   "property": "C141",
   "status": "proved",
   "theorems": [
    "Trv.Fft.C141_ratio"
   ],
   "note": "LgOk: the log-gamma function of the library is a logarithm of the gamma function, where it is used; the series is compared with Mathlib gamma function without any assumption."
  },
  {
   "property": "C142",
   "status": "partial",
   "theorems": [
    "Trv.Wc.C142_check",
    "Trv.Wc.C142_warnings",
    "Trv.Wc.C142_silent",
    "Trv.Wc.C142_unchanged",
    "Trv.Wc.C142_enforced",
    "Trv.Wc.C142_apart",
    "Trv.Wc.C142_enforced_accepts",
    "Trv.Wc.C142_mixed_violated"
   ],
   "note": "The code violates the documentation of _check_conv_range for an array compared with a dictionary (C142_mixed_violated; no caller does this). Everything else is proved."
  },
  {
   "property": "C143",
   "status": "partial",
   "theorems": [
    "Trv.Log.C143_text_partial",
    "Trv.Log.C143_name_violated",
    "Trv.Log.C143_brace_violated"
   ],
   "note": "Proved for files without braces in their path (C143_text_partial); violated otherwise: KeyError or ValueError is raised instead of logging the warning (C143_name_violated, C143_brace_violated)."
  },
  {
   "property": "C144",
   "status": "partial",
   "theorems": [
    "Trv.Par.C144_fetch_format",
    "Trv.Par.C144_fetch_violated",
    "Trv.Par.C144_same",
    "Trv.Par.C144_truthful",
    "Trv.Par.C144_complete"
   ],
   "note": "The warning and the bookkeeping are proved. Violated: the defaults are returned with the text as well, against the documentation (C144_fetch_violated)."
  },
  {
   "property": "C145",
   "status": "partial",
   "theorems": [
    "Trv.Mem.C145_grids",
    "Trv.Mem.C145_memory",
    "Trv.Mem.C145_memory_partial",
    "Trv.Mem.C145_reload_violated",
    "Trv.Mem.C145_program"
   ],
   "note": "Grid counts and peaks for all histories; memory exact up to 56 bytes per particle by which a reloaded catalogue shrank, exact without reloading. Violated: initialise_particles sets ntotal before releasing the old array, so reloading with another number of particles makes the count drift, with a spurious warning or an understated peak."
  },
  {
   "property": "C146",
   "status": "proved",
   "theorems": [
    "Trv.Zeta.C146_special",
    "Trv.Zeta.C146_orders_zero",
    "Trv.Zeta.C146_rejected",
    "Trv.Zeta.C146_no_gap",
    "Trv.Zeta.C146_bispectrum",
    "Trv.Zeta.C146_box"
   ],
   "note": "Racah formula taken as the definition of the values returned by GSL and sympy; floating-point error of GSL not modelled. Bounds: sum of degrees up to 30000 (rejection) and 38 (no order lost)."
  },
  {
   "property": "C147",
   "status": "proved",
   "theorems": [
    "Trv.Zeta.C147_power_spectrum",
    "Trv.Zeta.C147_correlation_function",
    "Trv.Zeta.C147_box",
    "Trv.Zeta.C147_bispectrum"
   ],
   "note": "Proved for the two-point statistics of surveys (all of each row) and boxes, and for raw bispectrum multipoles with a vanishing degree, on top of C05, C07, C107, C126 and C140. Not covered: shot noise of the bispectrum, multipoles with three non-zero degrees (rotational invariance of the coupled harmonics is not formalised), three-point correlation functions, particles in the faulty region of the interlaced field."
  },
  {
   "property": "C148",
   "status": "partial",
   "theorems": [
    "Trv.Out.C148_same_file_partial",
    "Trv.Out.C148_factor",
    "Trv.Out.C148_extents_violated",
    "Trv.Out.C148_mixed_violated",
    "Trv.Out.C148_case_violated"
   ],
   "note": "Proved: in every file saved by Python there is exactly one line of the normalisation factor and it is the factor used; line-by-line agreement with the file of the program except the brackets of extents, the case of the interlacing flag and a remark on three-point files (C148_same_file_partial).  Violations with witnesses: extents printed with other brackets; mesh-mixed with a box or random catalogue is a NameError in Python while the program uses and reports zero; a convention in capital letters is a NameError."
  },
  {
   "property": "C149",
   "status": "partial",
   "theorems": [
    "Trv.Par.C149_norm_partial",
    "Trv.Par.C149_norm_violated",
    "Trv.Par.C149_alignment_violated",
    "Trv.Par.C149_padscale_violated",
    "Trv.Par.C149_name_partial",
    "Trv.Par.C149_name_violated",
    "Trv.Par.C149_alignment_partial",
    "Trv.Par.C149_survey_violated",
    "Trv.Par.C149_centre_violated",
    "Trv.Par.C149_others_violated",
    "Trv.Par.C149_unset_violated"
   ],
   "note": "Proved for options in lower-case letters: the survey catalogues handed over are those of the program with the C++ parameters (with C130), the factor used is the one selected by the convention, and names of three-point files are formed.  Violated for every accepted set with capital letters: an alignment such as Centre is accepted and the catalogues are silently not aligned; a padding scale or convention ends in a NameError; a form ends in a NameError when the measurement is saved; witnesses of accepted sets are given."
  },
  {
   "property": "C150",
   "status": "partial",
   "theorems": [
    "Trv.Prog.C150_mesh",
    "Trv.Prog.C150_normalisable",
    "Trv.Prog.C150_program_violated",
    "Trv.Prog.C150_accepted_violated"
   ],
   "note": "Mesh: least even cubic cover proved. Exact criterion proved for the derived parameters of any accepted set: they are accepted iff the planner scheme is not `estimate` and, with grid padding, the padding factor is below the number of cells. Violated otherwise: validation turns the wisdom switch into an empty path which the second validation reads as a path, and the padding check is repeated with another mesh; program and Python compute the factor for every survey two-point statistic."
  },
  {
   "property": "C151",
   "status": "partial",
   "theorems": [
    "Trv.Ext.C151_declared_partial",
    "Trv.Ext.C151_particles",
    "Trv.Ext.C151_degrees_accepted",
    "Trv.Ext.C151_three_point_violated",
    "Trv.Ext.C151_two_point_violated",
    "Trv.Ext.C151_transform_violated"
   ],
   "note": "Proved for the functions declared `except +`, and for the particle normalisation factors of both kinds. Violated for the others: three-point measurements end the process exactly for degrees that are no triangle or have an odd sum (accepted as parameters whatever they are, proved), survey two-point measurements exactly when the normalisation parameters are rejected (C150), transforms exactly at poles of the gamma function. Cython behaviour (noexcept default for external functions, table of exception types) is trusted."
  },
  {
   "property": "C152",
   "status": "partial",
   "theorems": [
    "Trv.E2E.C152_program_accepts",
    "Trv.E2E.C152_same_file_partial",
    "Trv.E2E.C152_box_partial",
    "Trv.E2E.C152_box_density_violated",
    "Trv.E2E.C152_window_partial"
   ],
   "note": "C152_same_file_partial: options in lower-case letters, entries set, mesh set, degrees of at most seven digits in all, same source text. C152_window_partial: the same for windows, with the random catalogue centred and spanning less than three boxes (otherwise C130_padded_window_violated, C130_wide_window_violated) and a convention other than mesh-mixed. C152_program_accepts is without such hypotheses. The examples carry sets evaluated with rational numbers over to the real numbers (Lemmas/ParamsCast). C152_box_partial: the same for simulations whose particles surround the middle of the box (otherwise C130_box_violated) and have densities which are not all zero. C152_box_density_violated: for every simulation without densities the program fails, whichever convention is chosen, while Python fills in the mean density and saves a file."
  },
  {
   "property": "C153",
   "status": "partial",
   "theorems": [
    "Trv.Two.C153_bispectrum",
    "Trv.Two.C153_power_spectrum_partial",
    "Trv.Two.C153_correlation_partial",
    "Trv.Two.C153_fine_bin_violated"
   ],
   "note": "Bispectra of surveys and boxes for every ordered binning. Partial for two-point statistics: edges must be whole multiples of the fine sampling (1e-5 up to 10, or 0.1 up to 100000); C153_fine_bin_violated has a bin of separations narrower than the sampling in which nothing is counted although a vector is recorded."
  },
  {
   "property": "C154",
   "status": "partial",
   "theorems": [
    "Trv.Out.C154_read_back",
    "Trv.Out.C154_program_python_partial",
    "Trv.Out.C154_order_violated"
   ],
   "note": "Reading back is for every list of records. Program and Python: same bins and edges row by row, same rows up to a permutation. Partial: the order of the vectors within a bin depends on the schedule (C154_order_violated)."
  },
  {
   "property": "C155",
   "status": "partial",
   "theorems": [
    "Trv.Unit.C155_norm_particles",
    "Trv.Unit.C155_norm_mesh",
    "Trv.Unit.C155_driver",
    "Trv.Unit.C155_power_spectrum_partial",
    "Trv.Unit.C155_correlation_partial",
    "Trv.Unit.C155_bispectrum",
    "Trv.Unit.C155_bispectrum_noise_partial",
    "Trv.Unit.C155_3pcf_partial",
    "Trv.Unit.C155_fine_bin_violated",
    "Trv.Unit.C155_direction_violated",
    "Trv.Unit.C155_two_point_window_partial",
    "Trv.Unit.C155_three_point_window_partial",
    "Trv.Unit.C155_wide_angle_partial",
    "Trv.Unit.C155_wide_angle_violated"
   ],
   "note": "Proved for every unit u > 0: the factors of normParticles, normMesh, normMeshes and their three-point versions and of the driver scale as a volume or its square (or fail alike); the raw bispectrum of surveys and boxes scales as a volume squared for all bins; power spectrum, correlation function, shot noise of the bispectrum, three-point correlation function (survey and box) and the two- and three-point windows without wide-angle corrections for bins whose edges are whole multiples of the fine sampling step in both units. Violated: the steps 1e-5, 0.1 and 1 of the fine sampling are absolute numbers (C155_fine_bin_violated), vectors shorter than 1e-9 have no harmonics (C155_direction_violated; hypotheses ResolvedK, ResolvedR exclude meshes with such steps), and the wide-angle kernel leaves the cell at the origin as it is (C155_wide_angle_violated; C155_wide_angle_partial for all other separations)."
  },
  {
   "property": "C156",
   "status": "partial",
   "theorems": [
    "Trv.Prog.C156_measured",
    "Trv.Prog.C156_ends_violated",
    "Trv.Prog.C156_density_violated",
    "Trv.Prog.C156_flat_violated"
   ],
   "note": "Proved for every run with exit status 0 of the modelled program. Violations: C156_ends_violated (default expansion, simulation), C156_density_violated (default mean densities zero when the box is derived), C156_flat_violated (no extent on an axis). Not covered: HDF5 catalogues."
  },
  {
   "property": "C157",
   "status": "partial",
   "theorems": [
    "Trv.Cat.C157_centre",
    "Trv.Cat.C157_silent_centre_partial",
    "Trv.Cat.C157_pad",
    "Trv.Cat.C157_periodise",
    "Trv.Cat.C157_centre_violated",
    "Trv.Cat.C157_pad_violated",
    "Trv.Cat.C157_periodise_violated"
   ],
   "note": "Proved for all catalogues with true bounds and all boxes. C157_silent_centre_partial: safety of silence needs the reference to enclose the catalogue. Violations: C157_centre_violated (data beside the randoms), C157_pad_violated (data below the box), C157_periodise_violated (extent equal to the box). Padding by mesh cells and by NumPy arrays is not covered (C24)."
  },
  {
   "property": "C158",
   "status": "proved",
   "theorems": [
    "Trv.Lz.C158_depth",
    "Trv.Lz.C158_defined",
    "Trv.Lz.C158_reflection",
    "Trv.Lz.C158_error",
    "Trv.Lz.C158_conj",
    "Trv.Lz.C158_real",
    "Trv.Lz.C158_far"
   ],
   "note": "Proved for all complex arguments, without rounding. A bound on the error of the approximation for moderate arguments is not part of the claim."
  },
  {
   "property": "C159",
   "status": "partial",
   "theorems": [
    "Trv.Two.C159_normalisation",
    "Trv.Two.C159_survey",
    "Trv.Two.C159_window",
    "Trv.Two.C159_box",
    "Trv.Two.C159_weightless_violated"
   ],
   "note": "C159_normalisation, C159_survey, C159_window and C159_box prove the claim for the models of the normalisations, of the four survey measurements, of both window functions and of the four measurements in a box. C159_weightless_violated: a data particle whose clustering weight alone is zero adds nothing to the fields but halves the data-to-random ratio and the normalisation."
  },
  {
   "property": "C160",
   "status": "proved",
   "theorems": [
    "Trv.Two.C160_normalisation",
    "Trv.Two.C160_powspec",
    "Trv.Two.C160_bispec",
    "Trv.Two.C160_3pcf",
    "Trv.Two.C160_window",
    "Trv.Two.C160_shot"
   ],
   "note": "C160_normalisation, C160_powspec, C160_bispec, C160_3pcf, C160_window for any two catalogues with the same distribution of sample weight; C160_shot gives the shot noise of a divided particle. The correlation function and the two-point window have the shot noise subtracted inside the transform and are therefore not covered."
  },
  {
   "property": "C161",
   "status": "partial",
   "theorems": [
    "Trv.Plog.C161_outcome",
    "Trv.Plog.C161_other_partial",
    "Trv.Plog.C161_plain_logger_violated",
    "Trv.Plog.C161_validation",
    "Trv.Plog.C161_marks",
    "Trv.Plog.C161_state"
   ],
   "note": "C161_outcome, C161_validation, C161_marks and C161_state are without restriction. C161_other_partial: loggers other than that of setup_logger do not matter if they are enabled neither for information nor for status messages, or if no message is about C++. C161_plain_logger_violated: with a logging.Logger (the documented type) enabled for information messages no measurement function returns results. Checked against the standard library source: Logger._log raises TypeError for the keyword cpp_state."
  },
  {
   "property": "C162",
   "status": "partial",
   "theorems": [
    "Trv.E2E.C162_two_point_partial",
    "Trv.E2E.C162_half_partial",
    "Trv.E2E.C162_bispec_partial",
    "Trv.E2E.C162_3pcf_partial",
    "Trv.E2E.C162_violated"
   ],
   "note": "Partial: proved for catalogues whose middle is a whole number of cells from the middle of the box, and for interlaced two-point statistics also half a cell more on every axis (no particle at a negative multiple of the box size nor, with interlacing, in the faulty region of C07); C162_violated shows that otherwise the two measure different power."
  },
  {
   "property": "C163",
   "status": "partial",
   "theorems": [
    "Trv.Lset.C163_messages",
    "Trv.Lset.C163_detached",
    "Trv.Lset.C163_warnings_partial",
    "Trv.Lset.C163_restored",
    "Trv.Lset.C163_warnings_violated"
   ],
   "note": "Partial: warnings are proved for programs that do not assign warnings.showwarning; C163_warnings_violated shows that after such an assignment (warnings.catch_warnings on exit) no further setup_logger captures warnings. The standard library is modelled from its documented behaviour."
  },
  {
   "property": "C164",
   "status": "partial",
   "theorems": [
    "Trv.Prg.C164_complete_partial",
    "Trv.Prg.C164_never_fails",
    "Trv.Prg.C164_row_violated",
    "Trv.Prg.C164_interlaced",
    "Trv.Prg.C164_validated",
    "Trv.Prg.C164_unreadable"
   ],
   "note": "Proved for every form except that bispectra in the row form stop short of 100 % (between 2/3 and 2/3 + 1/n), because the first field is transformed once but announced per bin. C164_interlaced: if interlacing reached a measurement, the second transform of each forward one would push the count beyond the announced one and end in InvalidDataError; C164_validated composes with C33: validation switches interlacing off for three-point statistics. Progress is an exact fraction (the code has a float, for which a/a = 1 and rounding is monotone)."
  },
  {
   "property": "C165",
   "status": "partial",
   "theorems": [
    "Trv.Pbs.C165_accepted_partial",
    "Trv.Pbs.C165_agree",
    "Trv.Pbs.C165_float_violated",
    "Trv.Pbs.C165_refused_stays_violated",
    "Trv.Pbs.C165_words_violated"
   ],
   "note": "Booleans and integers are accepted, read back and acted upon (C165_accepted_partial), and after any history an accepted setting agrees in the dictionary and the C++ member (C165_agree). Violated: every Python float, documented in the template, is refused with a RuntimeError by the read-back int(...), while the program takes it (C165_float_violated); the refused float stays, so that every later assignment to other entries is refused too (C165_refused_stays_violated); words such as off pass validation in the program and make three-point measurements fail at their first term (C165_words_violated)."
  },
  {
   "property": "C166",
   "status": "partial",
   "theorems": [
    "Trv.Pln.C166_bar",
    "Trv.Pln.C166_percent",
    "Trv.Pln.C166_completion",
    "Trv.Pln.C166_spacing_violated"
   ],
   "note": "The bar, percentage and completion hold for all values (exact arithmetic: with floats the percentage can be one lower, e.g. 0.29f * 100.). Violated: an update moves past at most one node, so that after a jump over several nodes the following updates each show a line however little the progress has grown (C166_spacing_violated)."
  },
  {
   "property": "C167",
   "status": "partial",
   "theorems": [
    "Trv.Axa.C167_rows",
    "Trv.Axa.C167_involution",
    "Trv.Axa.C167_full",
    "Trv.Axa.C167_name",
    "Trv.Axa.C167_name_commas",
    "Trv.Axa.C167_same_violated",
    "Trv.Axa.C167_never_skips_violated"
   ],
   "note": "Table part proved for all tables. Violated: the test for the message of equal degrees never matches, so the skipping branch is unreachable and the script raises. Names proved for three single digits and for numbers separated by commas."
  },
  {
   "property": "C168",
   "status": "partial",
   "theorems": [
    "Trv.Gpf.C168_values_partial",
    "Trv.Gpf.C168_places",
    "Trv.Gpf.C168_two_lines_violated",
    "Trv.Gpf.C168_thrice_violated",
    "Trv.Gpf.C168_repeated_violated",
    "Trv.Gpf.C168_reuse_violated",
    "Trv.Gpf.C168_switch_violated",
    "Trv.Gpf.C168_empty_violated",
    "Trv.Gpf.C168_entries",
    "Trv.Gpf.C168_nested_frame",
    "Trv.Gpf.C168_nested_set"
   ],
   "note": "Proved for templates and modifications without repeated names; the violations cover repeated names (which value is used is proved for every number of repetitions of one parameter), reuse of the list, switches and empty entries. Nested keys are modelled: the entry set and the frame are proved; lists and floats of the Python template are not modelled."
  },
  {
   "property": "C169",
   "status": "partial",
   "theorems": [
    "Trv.Cmb.C169_two_point_partial",
    "Trv.Cmb.C169_three_point_violated",
    "Trv.Cmb.C169_one_bin_violated",
    "Trv.Cmb.C169_combined",
    "Trv.Cmb.C169_rows"
   ],
   "note": "Proved for two-point measurements of two or more bins. Violated for three-point measurements (columns 2 to 8 of the ten saved) and for a single bin (the table is squeezed)."
  },
  {
   "property": "C170",
   "status": "partial",
   "theorems": [
    "Trv.Cap.C170_terms",
    "Trv.Cap.C170_order",
    "Trv.Cap.C170_options",
    "Trv.Cap.C170_no_terms_violated",
    "Trv.Cap.C170_no_list_violated"
   ],
   "note": "Proved for all coefficient functions and lists. Violated when there is no term (saved, then ValueError) or a list is missing (TypeError)."
  }
 ]
}