# Formal model of Triumvirate: design

Subject: MikeSWang/Triumvirate at the pinned commit in `/repo` (Python, Cython
and C++).  The code is read as text only; nothing is built or run.  The model
is a Lean 4 development under `lean/Verif/`, checked by `lake build`.

## Layout

* `Verif/Model/*.lean`: executable (where possible) models, one per source
  area, mirroring the functions of the code branch by branch, each definition
  citing file and lines in `/repo`.
* `Verif/Spec/*.lean`: small, independent specifications (what a correct answer
  is), which do not mention the model.
* `Verif/Lemmas/*.lean`: helper lemmas.
* `Verif/Props/*.lean`: the property theorems (named `Cnn_...`), each with a
  non-vacuity `example` beside it.

Naming: `Cnn_xxx` is a theorem for property `Cnn`.  `Cnn_xxx_partial` is a
theorem which proves less than the property; the text beside it says what is
missing.  `Cnn_xxx_violated` is a theorem which proves that the code as it
stands does *not* have the stated property, with a concrete reachable witness.

## Trusted base

* Lean 4.33.0 kernel; Mathlib as installed (its theorems are kernel-checked).
* Axioms: at most `propext`, `Classical.choice`, `Quot.sound`
  (`Verif/Audit.lean` walks through every theorem in the namespace `Trv`, helper
  lemmas included, and fails the build if one depends on any other axiom).  No
  axioms of our own, no `sorry`, no `native_decide`/`bv_decide`, no `implemented_by`.
* The transcription: that the Lean definitions say what the cited lines do.

### Deliberate abstractions (hold everywhere)

* Floating-point numbers are replaced by an ordered field with floor
  (`K`, instantiated at `ℚ` in examples) or by `ℝ`/`ℂ` where `exp`, `log`,
  `sin`, `sqrt` occur.  Rounding, overflow, NaN and infinities are outside the
  model.  Fixed-width integers are `ℕ`/`ℤ`; overflow is outside the model.
* OpenMP loops whose bodies only perform atomic additions (or reductions) are
  modelled as a fold over an arbitrary permutation of the iterations.
* FFTW and GSL (gamma function, Legendre polynomials, Wigner 3-j) are external:
  FFTW is replaced by the defining DFT sum; special functions appear as
  parameters with exactly the stated properties assumed as hypotheses (C146 discharges those on Legendre functions and Wigner symbols with explicit definitions).
* Logging, file output, timing, wisdom import/export, and GPU branches are not
  modelled unless a property is about them.
* Of the scripts in `apps/`, those in `io` and `calculators` are modelled (C167-C170);
  those in `extern`, which call other packages, and `appconfig.py` are not.
* A C++ out-of-bounds access is modelled by an explicit index which is compared
  with the allocated size (undefined behaviour is a *violation*, its effect is
  not modelled).

## Plan per property

| id | modelled | how proved |
|----|----------|------------|
| C01 | `allocate_tasks` loop with its two running counters | induction over remaining processes |
| C02 | `distribute_tasks` incl. `or`-style defaults and slicing | prefix sums of C01; counterexample for the "ignored" argument |
| C03 | serial and MPI assembly of the matrix: segments, `Gatherv` flattening, reshape and transpose | list lemmas about concatenated segments; linearity for `M·v` |
| C04 | per-axis weights of the four schemes | ring identities / case split at half cell |
| C05 | full 3-d assignment with the C++ wrap conditions and range guard | per-axis index range, product of sums |
| C06 | fold of cell updates over permutations | commutativity of updates |
| C07 | interlaced branch as written | counterexamples (TSC last cell; position on the half-cell boundary), `_partial` for the rest |
| C08 | same model | per-axis shift lemma |
| C09 | `ret_grid_index` | Euclidean division |
| C10 | `shift_grid_indices_fourier` | case analysis; odd counterexample |
| C11 | window product of sinc powers and the cache | trigonometric bounds; invariant by induction over requests |
| C12 | closed-form aliasing functions | trigonometric/polynomial identity with averaged weights; positivity by `nlinarith` |
| C13 | subtraction of mean | from C05 |
| C14 | single-catalogue weighted field with companion | counterexample and `_partial` |
| C15-C19 | `Binning` set-up functions | closed forms of edges; counterexamples |
| C20 | Python/C++ binning object as state machine | counterexample; `_partial` invariant |
| C21 | two-stage fine binning | counterexample; `_partial` for edges on the fine grid |
| C22 | record loop over arbitrary permutation + stable sort by bin | permutation and sorting lemmas |
| C23-C26 | Python catalogue operations; C++ counterparts | field arithmetic, induction over histories |
| C27 | `compute_los` over the reals | norm identities |
| C28 | the measurement set-up with Python value kinds | every run ends in a type error (violation) |
| C29 | normalisation as state transformer | state equality; violated when one object is passed as both catalogues (ends displaced by twice the centring vector) |
| C30 | memory counter state machine | violation; `_partial` |
| C31 | both derivations | ceiling lemmas; disagreement witness |
| C32, C33 | `validate` with fuel for the mutual recursion | fuel-independent divergence; decision logic |
| C34 | copy constructor on the full record | violation; `_partial` for all other fields |
| C35 | dictionary + C++ record state machine | violation; `_partial` |
| C36, C37, C39 | layout maps, shot-noise loops, numpy reshaping | bijection proofs; out-of-bounds witness |
| C38 | term loop | involution argument |
| C40-C44 | extrapolation, checks and sorting | list induction |
| C45-C48 | FFTLog | DFT algebra over `ℂ` |
| C49 | heap model of numpy views | violation; `_partial` |
| C50 | `Multipole` comparisons | violation; `_partial` |
| C51, C52 | formula tables and convolution | Legendre polynomial identities, linearity |
| C53 | `subselect` | violation, `_partial` |
| C54-C56, C60 | monitor and warnings helpers | list induction |
| C57 | conjugation branch | case analysis |
| C58 | normalisation sums | scaling algebra |
| C59 | compatibility test | violation; `_partial` |

| C61 | `_extrap` oscillation-safe slopes | case analysis; two-sample witness |
| C62-C65 | released data, normalisation mesh, text loading, derived boxes | state machine invariants; witnesses |
| C66-C68 | log labels, build time, environment variables | decision logic; witnesses |
| C69-C73 | parameter validation, parameter files, Python dictionary | decision logic; witnesses |
| C74 | interlaced aliasing factor | trigonometric bounds; odd-mesh witness |
| C75-C78 | FFTLog kernels and C++ transforms | discrete Fourier orthogonality; hypotheses on log-gamma |
| C79-C86 | multipoles, window convolution and integral constraint | list induction, linearity; witnesses |
| C87-C89, C94 | two-point and bispectrum measurements | refinement to sums over particles; cones of non-negative numbers |
| C90-C93 | mesh Fourier transforms | orthogonality of characters of a product of cyclic groups |
| C95-C98 | overriding arguments of measurements, shared dictionaries, recorded binned vectors | object stores indexed by identity; witnesses of aliasing |
| C99, C100 | mean density; loading of particles from arrays | direct, against records of particles |
| C101-C103 | the bispectrum measurement as a sum over closed triangles; full sum over orders; exchange symmetry | orthogonality of phases; mirror images of modes (hypotheses: symmetries of Legendre functions and Wigner symbols, even mesh, bins below Nyquist) |
| C104 | `BispecWinConv.convolve` | interpolation at sample points of the transform |
| C105, C106 | the three measurements of the three-point correlation function and its shot noise | orthogonality of phases; parity of harmonics; witness of the doubled parity factor |
| C107 | the four two-point measurements | refinement of fine-binned accumulation to means over the modes (separations) of a bin |
| C108 | correlation functions and three-point shot noise with nearest-grid-point assignment | orthogonality of phases; counting of pairs of different points; witness of the sign of the random catalogue |
| C109 | shot noise of the bispectrum in survey and box | lists of additions split by term; refinement to sums over modes and separations |
| C110 | shot noise of the three-point statistics and bispectrum in a box over all orders | symmetry of fields at opposite orders and modes; lemma on half of the orders |
| C111 | all measurements under displacement of the catalogues by whole cells | phase of the transform of a displaced field; phases of a closed triangle cancel; witness of the wide-angle kernel |
| C112 | wide-angle corrections of the three-point window | inverse transform restored; refinement to triangles with a weighted third side |
| C113 | normalisation factors and particle shot noise | refinement of mesh sums to sums over pairs and triples; variance bound |
| C114 | sample points of the double transform | decision logic on the representative transform; phase of the gamma function under shift of the order |
| C115 | the double transform as double sum | refinement to matrices; tensor product; round trip from C77 |
| C116 | the array of the double transform's caller | array objects as values returned |
| C117 | file names of saved measurements | injectivity of printed names; counterexamples |
| C118 | `save` of the measurement functions | decision logic |
| C119 | columns and labels of saved tables | refinement to a specification of the labels |
| C120 | saved windows are loaded | round trip through printed text |
| C121 | the low-ringing pivot | `Props/Lowring.lean`: characterisation as the nearest solution; the default pivot for every spacing, by C141 where the asymptotic series is used |
| C122 | FFTLog with extrapolation | refinement to the transform of the continued samples |
| C123 | repeated measurements from the same catalogue objects | invariant by induction over the earlier calls; violated by computed lines of sight, window functions, inserted densities and overfull boxes |
| C124 | columns of integers in catalogue tables | exact characterisation of the conversion; violated for integer columns in conversion, displacement, text files and constant weights |
| C125 | reading of catalogue tables with name mappings | refinement of the sequence of renamings to a source map, by induction over the mapping; violated when a new name exists in the file, and by the mutated keyword dictionary |
| C126 | multipoles as Legendre moments about the lines of sight | addition theorem of Legendre polynomials, for all degrees by induction; its transfer to the harmonics of the code with their thresholds; linearity of the transforms in the particles; special functions enter by their values |
| C127 | parity of two-point multipoles | pairing of opposite modes; violated at the Nyquist wavenumber |
| C128 | environment variables which override parameters | exact acceptance and effect on validated parameters; commutation of validation with the change by induction over its recursion; violated for wisdom directories and tags of binned vectors |
| C129 | the program from arguments to exit status | case analysis over the stages, invariants of validated parameters; violated by files which cannot be opened, by derived boxes and by custom bins |
| C130 | program and Python package hand over the same particles | `Props/Handover.lean`: survey, centred window proved; box only up to a translation; padded and very wide windows violated |
| C131 | saved windows load back | `Props/WinFile.lean`: round trip for dictionaries of points and for sessions; arrays, paths without suffix and subselected windows violated |
| C132 | sources aligned with multipoles | `Props/WinSources.lean`: proved for `Multipole` keys; string keys violated |
| C133 | wavenumbers of bispectra respaced | `Props/BispecIn.lean`: decision logic, endpoints, number and samples; different numbers of wavenumbers violated |
| C134 | convolution of power spectra | `Props/PowWin.lean`: refinement to a function of values, arrays kept or multiplied; `Props/PowWinTrivial.lean`: trivial windows give back the input |
| C135 | convolution of bispectra | `Props/BispecWin.lean`: refinement to a function of values, arrays kept or multiplied; `Props/BispecWinTrivial.lean`: trivial windows give back the input for equal degrees; (2, 0, 2) with `lowring` violated |
| C136 | resampling at evenly spaced points | `Props/Resample.lean`: range, number, spacing, samples kept, idempotence, reproduced functions in one and two dimensions; agreement with the earlier model of windows; arrays of different lengths and tuples of sizes violated |
| C137 | coefficients of three-point window convolution terms | `Props/Coeff.lean`: defined iff allowed degrees (Dixon's sum by a telescoping induction), rational, monopoles, integral constraint, selection rules, projection of products of basis functions, exactness of the formula with all pairs, agreement with the built-in table; odd sums and pairs left out violated |
| C138 | interlaced measurements are blind to half-cell displacements | `Props/Interlace.lean`: the field of the displaced catalogue is the companion and vice versa; the combined transform changes by a phase only; two-point measurements, shot noise and non-wrapping triangles follow. Window functions only for `alpha = 1` (`C14`) |
| C139 | values of interpolated spherical Bessel functions | `Props/BesselInterp.lean`: the tridiagonal system of the natural spline is solved by elimination (`Lemmas/Spline.lean`); a discrete maximum principle bounds the error of its curvatures; `j_l` and all its derivatives are bounded by 1 (`Lemmas/SphBessel.lean`, from the integral of Laplace for Legendre polynomials). Near the origin the accuracy is lost: `C139_origin_violated` |
| C140 | three-point multipoles with a vanishing degree are Legendre moments of triangles | `Props/BispecLegendre.lean`: by C102/C110 the entry is a sum over all orders; the values of the Wigner symbols with a vanishing degree (`Special3`, an assumption on the library function like its symmetries, met by an explicit function in the example) leave one sum over orders, which the addition theorem of C126 collapses |
| C141 | the logarithm of a ratio of gamma functions | `Lemmas/GammaStirling.lean`: what the series misses of the recursion of the gamma function is the change of an antiderivative made of Bernoulli polynomials, whose derivative is bounded by that of an arctangent; summed along a horizontal line it stays below `π / (120 |Im z|^7)`; the product formula of the gamma function and the formula of Stirling for factorials give the constant |
| C142 | warnings about the range of convolution | `Props/ConvRange.lean`: the checks in terms of points instead of extrema; initialisation with warnings refines the one without; points of the enforced choice lie between the ends of every array read |
| C143 | the text of logged warnings | `Props/WarnText.lean`: `str.format` undoes doubled braces, by induction over the message; violation for paths with braces |
| C144 | the template of parameters and its unchanged defaults | `Props/Defaults.lean`: overrides of a plain dictionary in closed form; what is left of the defaults is always part of the dictionary |
| C145 | accounting of memory and mesh grids | `Props/Memory.lean`: counters as a state machine with the arrays really owned beside the flags; invariant and peaks by induction over histories; exact drift for reloaded catalogues |
| C146 | Wigner symbols: which degrees are rejected, no order lost to a threshold | `Props/Wigner.lean`: Racah formula (`Spec/Wigner.lean`); symmetries by reversing the sum; Dixon identity in closed form; lower bounds from central binomial coefficients and integrality |
| C147 | axes exchanged | `Props/Turn.lean`: fields, transforms, windows and bins are permuted with the axes; Legendre moments (C126, C140) depend on scalar products only |
| C148 | lines of saved files | `Props/Header.lean`: headers and tables of Python and the program as lists of lines, compared line by line |
| C149 | letter case of options | `Props/OptionCase.lean`: Python entries and C++ copies (C35), admitted values (C33), catalogues handed over (C130) |
| C150 | normalisability of accepted surveys | `Props/NormMesh.lean`: derived normalisation mesh, second validation of validated parameters, program runs (C129) |
| C151 | C++ failures in Python | `Props/Crossing.lean`: `except +` declarations, rejected degrees (C146), normalisability (C150), poles of the transforms (C76); acceptance is independent of the degrees |
| C152 | the same survey, simulation or window gives the same file from the program and from Python | composition of C35, C130, C148, C149 with the handover of the columns to C++ (C100); the program accepts what Python accepts; partial: options in lower case, entries set, degrees of at most seven digits; windows centred and spanning less than three boxes, not `mesh-mixed`; simulations around the middle of the box and with densities (violated without: the program fails where Python fills in the mean density) |
| C153 | recorded vectors are those which the measurements count | composition of C22 with C101 (bispectra, all ordered bins) and C107 (two-point statistics, edges on the fine sampling grid; violated for a bin without a grid point) |
| C154 | the file of binned vectors | read back through the text model of C131/C132 (`loadtxt`); columns of bins and edges equal for all schedules, rows up to a permutation; order within a bin violated |
| C155 | measurements do not depend on the unit of length | structural, through every function from mesh assignment to the output: each array is shown to be a power of the unit times the same array; raw bispectrum for all bins; the rest for bins on the fine sampling in both units; absolute fine sampling and absolute threshold on lengths of vectors violated |
| C156 | a completed run has measured the catalogues, box and mesh its parameters describe | inversion of the stages of the program from its exit status: loading, validation (by its cases), alignment; coinciding ends, zero densities and flat catalogues violated |
| C157 | Warnings of box alignment | equivalence of warnings and particles outside, from C23/C24 shifts; counterexamples with data beside the randoms |
| C158 | Lanczos approximation of the gamma function | no zeros in the right half plane by a continued fraction with positive coefficients (Routh and Hurwitz, exact rational arithmetic); reflection, conjugation; limit by Stirling and the Euler product |
| C159 | Reordering or weightless particles change no measurement | the sums over particles of `Spec/SameParticles` are invariant under permutation and under dropping zero terms; counterexample for the clustering weight |
| C160 | Dividing the sample weight among coincident particles | sums linear in the sample weight regrouped by kind of particle; the raw values do not see the shot-noise amplitude |
| C161 | logging in the measurement functions | induction over statements with log calls; the log balances except after a failure in an announced C++ call; violated for the documented logger type (`TypeError`) |
| C162 | positions handed to the measurement of a simulation by the program and by Python (`alignCats`, `Meas.sim`, `toCpp`), composed with the box measurements | both lists differ by whole (or, interlaced, half) cells up to periodicity, then C93, C111 and C138; counterexample computed on a mesh of 2×2×2 cells |
| C163 | `setup_logger` and the global state of `logging` and `warnings` | induction over sequences of operations (set-up, attach, level, disable, capture, assign, warn, log) with the invariant on the saved display function |
| C164 | progress bar of three-point measurements: announced against counted transforms | `Props/Progress.lean` |
| C165 | progress-bar setting in Python and in the program: round trip, floats, words | `Props/ProgbarSetting.lean` |
| C166 | text of the progress line, completion and spacing of lines | `Props/ProgressLine.lean` |
| C167 | rows, order, opposite entries and twice is nothing for the exchange of axes; equal degrees end in an exception | `Props/AxesApp.lean` |
| C168 | values, places and failures of generated parameter files | `Props/GenParams.lean` |
| C169 | columns read from saved measurements and their combination | `Props/CombVectors.lean` |
| C170 | terms, order, options and failures of the list of window convolution terms | `Props/CoeffApp.lean` |

## What is modelled, module by module

Line ranges are those of the pinned commit; each Lean definition cites its own.

| module | code | not modelled |
|--------|------|--------------|
| `MpiTools` | `_mpitools.py` | communicator internals |
| `Mesh` | `field.cpp` 533-1495: assignment (4 schemes, interlaced companion), weighted fields, indexing | memory counters, GPU branches |
| `Window` | `field.cpp` 1114-1201, 1764-1785, 3403-3564; `maths.cpp` 171-220 | lookup-table tuning |
| `Binning` | `dataobjs.cpp` 39-249, `dataobjs.pyx`, `_set_custom_bins` of the main program | an unrecognised `space` (indeterminate value in C++) |
| `FieldStats` | `field.cpp` 2273-2945 | conversion of numbers beyond `int` |
| `Layout` | loops over bins and spherical orders of `threept.cpp`; `reshape_threept_datatab` | |
| `TwoPt` | `twopt.cpp` (power spectrum, correlation function; survey and box), Fourier transforms `field.cpp` 1496-1720 | `DBG_FLAG_NOAC` |
| `TwoPtWindow` | `twopt.cpp` 795-901 | |
| `Bispec` | `threept.cpp` 64-150, 239-1012; band-limited transforms `field.cpp` 1792-1906; uncoupled shot noise 3198-3396 | wide-angle output details |
| `ThreePcf` | `threept.cpp` 1014-3078 (correlation function in survey, box and window; bispectrum in a box); `field.cpp` 1727-1762, 1908-2010, 2947-3196 | progress bar, logging |
| `Catalogue` | `catalogue.py`, `particles.cpp`, alignment in `twopt.cpp` 109-264 | astropy/nbodykit readers |
| `ArrayOps` | `_arrayops.py`, `arrayops.cpp` | warnings |
| `Fftlog` | `fftlog.cpp`, `transforms.py` (`SphericalBesselTransform`) | FFTW planning |
| `DoubleSbt` | `transforms.py` 275-523 (`DoubleSphericalBesselTransform`) | extrapolation functions are parameters; resampling |
| `Output` | `twopt.py`, `threept.py` (saving), `_twopt.pyx`, `_threept.pyx` (dictionaries), `io.cpp` (headers), `main/triumvirate.cpp` (paths), `winconv.py` (`load_from_textfiles`) | printed numbers are a parameter (`Fmt`), read back as rounded numbers; `.npz` contents; file system errors |
| `Session` | `twopt.py`, `threept.py` (lines of sight, alignment and conversion of the catalogues in the measurement functions) | the box and mesh are given (C28); the measurement proper, which only reads what is handed over; warnings |
| `CatTable` | `catalogue.py` (`__init__`, `read_from_file`, `offset_coords`, `_convert_to_cpp_catalogue`), `_particles.pyx:15-29` | the `astropy` reader only; astropy, numpy and Cython buffer behaviour as documented; warnings; bounds (modelled in `Catalogue`) |
| `Program` | `main/triumvirate.cpp`, `parameters.cpp:1371-1414`, `io.cpp:39-87`, `dataobjs.cpp:42-56` | the normalisation and the measurement (an arbitrary function of what they read); several tasks; HDF5; logging; the effect of written files on later reads; lines of sight as a function |
| `WinFile` | `winconv.py:1072-1119` | the `.npz` format (a file holds the five values saved; an array of dictionaries holds the dictionary), pickling failures |
| `WinSources` | `winconv.py` `load_from_textfiles` with a dictionary | comparison of keys of other types than strings, tuples and `Multipole` objects |
| `PowWin` | `winconv.py:1323-1353, 1959-2121` | warnings, spline orders and failures of splines for too few or disordered points, threads, MPI |
| `BispecIn` | `winconv.py:2489-2525, 2629-2642` | wavenumbers which are not positive (their logarithm), failures of splines other than for the shape |
| `BispecWin` | `winconv.py:2462-2676` | negative degrees, warnings, spline orders and failures of splines other than for the shape, integer arrays, threads, MPI |
| `Resample` | `transforms.py:526-704`, `winconv.py:1229-1264` | logarithms of points which are not positive, arrays of more than two dimensions, classes of exceptions of splines |
| `Coeff` | `winconv.py:395-488` | `sympy` itself: its Wigner symbols are given by the formulae of Racah for integer degrees; negative degrees; the value or exception of `float` for a division by zero (`none`) |
| `BesselInterp` | `maths.cpp:305-375`, `maths.hpp:262-311` | rounding; the library functions are given by their definitions: `gsl_sf_bessel_jl` returns `j_l` (`Spec/SphBessel.lean`), `gsl_interp_cspline` is the natural spline solved by elimination without pivoting and evaluated by its formulae, `gsl_interp_accel` finds the same interval as a search; an argument out of range is `none`; negative degrees |
| `ConvRange` | `winconv.py` 1268-1353, 1626-1771: `_check_conv_range`, `_find_conv_range`, `initialise_sampts` with warnings and `enforce_coverage` |
| `WarnText` | `logger.py` 109-143: `_format_warning`, with the fields `{}` of `str.format` |
| `Defaults` | `parameters.pyx` 612-666 (`fetch_paramset_template`), 669-863 and `twopt.py`, `threept.py` `_amalgamate_parameters`: the bookkeeping of unchanged defaults |
| `CoeffApp` | `apps/calculators/gen_wc_coeffs.py`: terms, sorting, saving and printing, the coefficient a given function | the text of the lines |
| `CombVectors` | `apps/io/comb_data_vectors.py`: columns read from one file and combination of centres, coordinates and counts | search for files, serial numbers, agreement of bins |
| `GenParams` | `apps/io/gen_param_file.py`: `gen_cpp_params` on lines reduced to name and value, `setitem_nested_dict` on flat and nested dictionaries of texts, integers, switches and empty entries | command line, YAML, file handling |
| `AxesApp` | `apps/io/exchange_coord_axes.py`: table, first field of the name, start of `main` | header, path suffixes, writing, `nan` |
| `ProgressLine` | the line printed by `ProgressBar::update` (`monitor.cpp:585-642`); timestamp and colours are a given text, numbers exact |
| `ProgbarSetting` | the entry `progbar` in Python (`parameters.pyx:540-541, 589-601`) and in the program (`parameters.cpp:318, 377-379, 1407-1411`); `int` of a text without blanks and underscores, floats by their text, `std::stof` an unspecified reader, other parameters valid |
| `Progress` | the transforms counted and the updates of the progress bar in one term of each three-point routine (`threept.cpp:421-960, 1186-1397, 1636-2136, 2348-2545, 2789-3002`), the set-up of the bar, the loop over terms as a number of terms; bar text not modelled, floats exact |
| `LogSetup` | `logger.py:146-201` and the parts of `logging` and `warnings` it changes: handlers and level of the root logger, `captureWarnings`, `showwarning`, `formatwarning` |
| `BoxShift` | C162: positions of a simulation as the program and Python hand them over |
| `PyLog` | `logger.py:74-106, 146-201` and the log calls of `twopt.py`, `threept.py`, `parameters.pyx:548-610`: the loggers of the standard library by what they accept, the measurement functions as the sequence of their log calls and given functions |
| `WeightDist` | no new code: the measurements of `TwoPt`, `Bispec`, `ThreePcf` for catalogues with the same distribution of sample weight (C160) |
| `SameParticles` | no new code: the measurements of `TwoPt`, `Bispec`, `ThreePcf`, `TwoPtWindow` for catalogues with the same particles (C159) |
| `WeightScale` | no new code: C58 and C89 for `ThreePcf` and `TwoPtWindow` |
| `Lanczos` | `maths.cpp` 70-114 (`eval_lanczos_approx_series`, `eval_gamma_lanczos`) without rounding; a division by zero is an outcome; the size of the error for moderate arguments is not bounded |
| `BoxWarn` | `catalogue.py` 521-536, 589-646, 660-666, 737-758 (`_check_bounds_in_boxsize` and the warnings of `centre`, `pad`, `periodise`); a warning is the catalogue and axes it names |
| `ProgInput` | no new code: what the stages of `Program` hand to the measurement (C156) |
| `Units`, `UnitsWin` | no new code: the functions of `Mesh`, `TwoPt`, `Bispec`, `ThreePcf`, `TwoPtWindow` with all lengths multiplied (C155) |
| `BinnedFile` | `io.cpp:305-352`, `_field.pyx:21-73`, `main/triumvirate.cpp:879-883` | `fopen` succeeds; number formats given |
| `EndToEnd` | `triumvirate.cpp:334-790`, `twopt.py:446-665`, `threept.py:523-740` for surveys and `twopt.py:1452-1570`, `threept.py:1968-2090` for windows: from the catalogues in memory to the contents of the file, with the normalisation and measurement algorithms as given functions |
| `EndToEndBox` | `triumvirate.cpp:444-454, 499-790`, `twopt.py:953-1175`, `threept.py:1397-1620` for simulations, in the same way |
| `NormMesh` | `twopt.cpp:230-264`, `triumvirate.cpp:526-537`: parameters of the normalisation mesh and their validation |
| `Crossing` | `.pyx`/`.pxd` declarations of C++ functions and the translation of exceptions by Cython; the order of the factors in `twopt.py:553-562` |
| `OptionCase` | use of textual options by the Python measurement functions |
| `Header` | headers of saved files, normalisation used and reported, tables |
| `Turn` | exchange of the axes of box, positions and lines of sight |
| `Spec/Wigner` | 3-j symbols by Racah (stands for `gsl_sf_coupling_3j`, `sympy` `wigner_3j`) |
| `Memory` | every change of the counters of `monitor.cpp` 93-106 in `particles.cpp`, `field.cpp`, `twopt.cpp`, `threept.cpp` and `main/triumvirate.cpp` (CPU only) |
| `Multipole`, `WinConv`, `WinSelect`, `WinBuild`, `WinMat` | `winconv.py` | `sympy` expressions given as coefficients |
| `Params`, `ParamFile`, `ParamsPy` | `parameters.cpp`, `parameters.pyx` | YAML parsing |
| `ParamsMod` | `parameters.pyx` 640-863, `_amalgamate_parameters` (`twopt.py` 59-155, `threept.py` 57-197), `fieldmesh.py` 25-89 | the measurement itself |
| `Monitor` | `monitor.cpp`, `logger.py` (elapsed time) | terminal handling |

Library functions (GSL special functions, SciPy splines and Simpson's rule,
`std::sort`) are parameters of the model or replaced by a definition with the
same specification; the header of each model file says which.

In the three-point models a multipole of a convolution formula has at least one
term; a formula with an empty term list is not represented.

## Testing the theorems

`seeded/LOG.jsonl` records wrong programs: one edit of a model definition per
line, the claim it breaks and the theorems which stopped compiling.  The edits
were made in a copy outside this repository.
