# Design

Formal model of codex-africanus (`/repo`, Python) in Lean 4. Each area has its own directory under `lean/Verif/`:

* `Model.lean`  definitions mirroring functions of the code; each carries a comment with file and lines.
* `Spec.lean`   small independent specifications (sums over fibres, matrix products, sets of pixels ...), written without the model's helpers.
* `Lemmas*.lean` auxiliary facts.
* `Props.lean`  one or more theorems per property, each followed by `example`s showing that a concrete non-trivial case meets the hypotheses.

Property ids are those of `properties.jsonl`; `MANIFEST.json` maps ids to theorem names.

## Modelling conventions

* Shallow embedding: numpy/numba loops become structural recursion or folds over `List.range n`; arrays become functions on indices together with explicit extents, or lists where the code treats them as sequences.
* Array mutation is modelled by returning the updated value.
* Python exceptions are values (`Except`), with the class of the exception kept apart.
* Numbers: float arithmetic is modelled by exact arithmetic (the rationals, an arbitrary (ordered) field, the reals or complex numbers). Rounding, NaN, infinities and overflow are outside the model. Integer overflow is outside the model unless a definition says otherwise.
* `np.argsort(kind='mergesort')` is modelled as a stable sort.
* numba, dask's scheduler and `dask.array.blockwise` (the model of it in Verif/Dask/Blockwise.lean is an assumption about dask), numpy's own functions and other libraries (nifty gridder, ducc wgridder, casacore, astropy) are trusted: they appear as parameters or as their documented mathematical functions.
* CUDA: the machine of Verif/Cuda/Machine.lean is an assumption about devices and cupy. A launch runs every thread of the grid; threads of a block share memory that starts with arbitrary contents; reads after a barrier see the writes before it; writes happen in any order; shuffles return the register of the lane that is named if it takes part; launches with an empty grid or more than 2^31 - 1 or 65535 blocks fail; `CArray` indexing follows strides and pointers do not.
* Element types: promotion follows the documented table of `numpy.promote_types`, one argument after the other; `numpy.result_type` takes `None` for float64; `dask.array.sum` computes in the type it declares; the names of Numba's types are those of NumPy (Verif/Types).
* Where the code violates a property a theorem proves the violation on a concrete witness, and a `_partial` theorem proves what does hold. These disagreements are listed below.

## Trusted base

* Lean 4.33.0's kernel and Mathlib's definitions (proofs are rechecked by the kernel).
* Axioms: `propext`, `Classical.choice`, `Quot.sound` only. No axioms are added; no `sorry`, `native_decide`, `bv_decide`.
* The faithfulness of the model to the Python source, which is by reading; each definition cites the lines it models.

## Plan per property

* **C01** Channel map is floor division and covers every output channel — module `Verif/Averaging`: fold model of the channel loop; invariant chan = c / bin, count = c % bin.
* **C02** Row mapping never mixes baselines and fills every output row — module `Verif/Averaging`: branch-by-branch fold model of row_mapper over exact rationals; per-baseline loop invariant; stable argsort as a permutation sorted by (time, flat index).
* **C03** Averaged time is the mean and averaged interval the sum of the contributing rows — module `Verif/Averaging`: branch-by-branch fold model of row_mapper over exact rationals; per-baseline loop invariant; stable argsort as a permutation sorted by (time, flat index).
* **C04** Output rows are ordered by time — module `Verif/Averaging`: branch-by-branch fold model of row_mapper over exact rationals; per-baseline loop invariant; stable argsort as a permutation sorted by (time, flat index).
* **C05** An averaged row is flagged exactly when all its contributing rows are flagged — module `Verif/Averaging`: branch-by-branch fold model of row_mapper over exact rationals; per-baseline loop invariant; stable argsort as a permutation sorted by (time, flat index).
* **C06** Row mapping fails exactly on duplicate (TIME, ANTENNA1, ANTENNA2) — module `Verif/Averaging`: branch-by-branch fold model of row_mapper over exact rationals; per-baseline loop invariant; stable argsort as a permutation sorted by (time, flat index).
* **C07** Every averaged bin fits into the requested bin width — module `Verif/Averaging`: branch-by-branch fold model of row_mapper over exact rationals; per-baseline loop invariant; stable argsort as a permutation sorted by (time, flat index).
* **C08** Bins after the first keep being filled (averaging does not stop) — module `Verif/Averaging`: branch-by-branch fold model of row_mapper over exact rationals; per-baseline loop invariant; stable argsort as a permutation sorted by (time, flat index).
* **C09** unique returns the sorted distinct values and correct inverse, index and counts — module `Verif/Averaging`: fold model of _unique_internal after stable argsort; packing of int32 pairs as integers.
* **C10** Packing two antenna numbers in one 64-bit integer identifies baselines exactly — module `Verif/Averaging`: fold model of _unique_internal after stable argsort; packing of int32 pairs as integers.
* **C11** Row averages are sums / means over matching rows — module `Verif/Averaging`: accumulating loops as folds over rows/channels; refinement to sums over the fibre of the map.
* **C12** flag_row values other than 0 and 1 — module `Verif/Averaging`: accumulating loops as folds over rows/channels; refinement to sums over the fibre of the map.
* **C13** Averaged sigma follows weighted error propagation — module `Verif/Averaging`: accumulating loops as folds over rows/channels; refinement to sums over the fibre of the map.
* **C14** Averaged visibilities are weighted means of samples with the same flag state — module `Verif/Averaging`: accumulating loops as folds over rows/channels; refinement to sums over the fibre of the map.
* **C15** Averaged flags are the conjunction of the flags in the bin — module `Verif/Averaging`: accumulating loops as folds over rows/channels; refinement to sums over the fibre of the map.
* **C16** Weight spectra are conserved by averaging — module `Verif/Averaging`: accumulating loops as folds over rows/channels; refinement to sums over the fibre of the map.
* **C17** Channel metadata averages: mean frequency, summed widths — module `Verif/Averaging`: accumulating loops as folds over rows/channels; refinement to sums over the fibre of the map.
* **C18** merge_flags is consistent — module `Verif/Averaging`: accumulating loops as folds over rows/channels; refinement to sums over the fibre of the map.
* **C19** Declared dask channel chunks equal the computed chunk lengths — module `Verif/Averaging`: chunk bookkeeping of the dask wrapper as functions on chunk lists; tuple construction with arity check.
* **C20** Dask averaging without any channel array — module `Verif/Averaging`: chunk bookkeeping of the dask wrapper as functions on chunk lists; tuple construction with arity check.
* **C21** corrupt_vis applies G_p M G_q^H summed over directions — module `Verif/Calibration`: loop nest as folds over a commutative star ring; refinement to matrix products over Mathlib's Matrix.
* **C22** correct_vis inverts corrupt_vis — module `Verif/Calibration`: loop nest as folds over a commutative star ring; refinement to matrix products over Mathlib's Matrix.
* **C23** residual_vis is the data minus the corrupted model — module `Verif/Calibration`: loop nest as folds over a commutative star ring; refinement to matrix products over Mathlib's Matrix.
* **C24** Row chunk offsets do not change calibration results — module `Verif/Calibration`: loop nest as folds over a commutative star ring; refinement to matrix products over Mathlib's Matrix.
* **C25** check_type accepts exactly the documented axis counts — module `Verif/Calibration`: decision table / list functions on counts.
* **C26** chunkify_rows partitions rows at time boundaries — module `Verif/Calibration`: decision table / list functions on counts.
* **C27** Phase-only normal equations are consistent — module `Verif/Calibration`: loops as folds over complex numbers; step function of Gauss-Newton with fuel-free `while` bounded by maxiter.
* **C28** Phase-only jhj and jhr are the Gauss-Newton normal equations — module `Verif/Calibration`: loops as folds over complex numbers; step function of Gauss-Newton with fuel-free `while` bounded by maxiter.
* **C29** Phase-only Gauss-Newton keeps unit-modulus gains and bounded iterations — module `Verif/Calibration`: loops as folds over complex numbers; step function of Gauss-Newton with fuel-free `while` bounded by maxiter.
* **C30** compute_and_corrupt_vis equals predicting then corrupting — module `Verif/Calibration`: loop nest as folds over a commutative star ring; refinement to matrix products over Mathlib's Matrix.
* **C31** Phase delays are unit-modulus, 1 at the phase centre and conjugate under baseline reversal — module `Verif/Rime`: real/complex analytic functions from Mathlib (exp, cos, sin).
* **C32** Feed rotations are unitary and compose additively — module `Verif/Rime`: real/complex analytic functions from Mathlib (exp, cos, sin).
* **C33** transform_sources rotates source coordinates — module `Verif/Rime`: real/complex analytic functions from Mathlib (exp, cos, sin).
* **C34** predict_vis evaluates the RIME — module `Verif/Rime`: Jones terms as sum type of absent/diagonal/full; refinement to 2x2 matrix algebra; dask graph as key/task lists evaluated recursively.
* **C35** predict_vis argument checking — module `Verif/Rime`: Jones terms as sum type of absent/diagonal/full; refinement to 2x2 matrix algebra; dask graph as key/task lists evaluated recursively.
* **C36** Source chunking does not change predicted visibilities — module `Verif/Rime`: Jones terms as sum type of absent/diagonal/full; refinement to 2x2 matrix algebra; dask graph as key/task lists evaluated recursively.
* **C37** The chain-reduction graph reports its own size correctly — module `Verif/Rime`: Jones terms as sum type of absent/diagonal/full; refinement to 2x2 matrix algebra; dask graph as key/task lists evaluated recursively.
* **C38** Swapping the antennas of every baseline conjugate-transposes predictions — module `Verif/Rime`: Jones terms as sum type of absent/diagonal/full; refinement to 2x2 matrix algebra; dask graph as key/task lists evaluated recursively.
* **C39** apply_gains is predict_vis with base visibilities only — module `Verif/Rime`: Jones terms as sum type of absent/diagonal/full; refinement to 2x2 matrix algebra; dask graph as key/task lists evaluated recursively.
* **C40** wsclean_predict is additive over sources and handles source types — module `Verif/Rime`: fold over sources.
* **C41** Frequency grid interpolation brackets the frequency — module `Verif/Rime`: binary search with loop invariant; trilinear interpolation over an ordered field.
* **C42** Beam interpolation reads inside the cube and reproduces constants and grid values — module `Verif/Rime`: binary search with loop invariant; trilinear interpolation over an ordered field.
* **C43** Noll indices enumerate the Zernike modes exactly once — module `Verif/Rime`: while loop as recursion; bijection by triangular numbers.
* **C44** Stokes to correlation conversion round-trips — module `Verif/ModelData`: conversion table as data, conversion functions over a field with i^2 = -1; schemas as rose trees.
* **C45** Conversion rejects missing inputs — module `Verif/ModelData`: conversion table as data, conversion functions over a field with i^2 = -1; schemas as rose trees.
* **C46** Correlation schemas flatten to distinct in-bounds indices — module `Verif/ModelData`: conversion table as data, conversion functions over a field with i^2 = -1; schemas as rose trees.
* **C47** Spectral models reproduce the reference flux — module `Verif/ModelData`: closed forms over the reals; fold models of the loops; parser over List Char.
* **C48** WSClean spectra: polynomial and logarithmic models — module `Verif/ModelData`: closed forms over the reals; fold models of the loops; parser over List Char.
* **C49** WSClean source files are parsed positionally — module `Verif/ModelData`: closed forms over the reals; fold models of the loops; parser over List Char.
* **C50** Gaussian shape amplitudes — module `Verif/ModelData`: closed forms over the reals; fold models of the loops; parser over List Char.
* **C51** Spectral index fit: exact power laws are fixed points — module `Verif/ModelData`: closed forms over the reals; fold models of the loops; parser over List Char.
* **C52** aggregate_chunks coarsens chunks without losing elements — module `Verif/Util`: greedy loop as fold over tuples of chunks.
* **C53** corr_shape decision table — module `Verif/Util`: greedy loop as fold over tuples of chunks.
* **C54** CASA Stokes type maps are mutually inverse — module `Verif/Util`: whole finite table, decided in the kernel.
* **C55** beam_grids returns one (l, m, freq) grid each or raises — module `Verif/Util`: header as finite map; list functions.
* **C56** beam_filenames expands schemas completely — module `Verif/Util`: header as finite map; list functions.
* **C57** memoize_on_key computes each key once under concurrency — module `Verif/Util`: labelled transition system with any number of threads; inductive invariant.
* **C58** SingletonMixin creates one instance under concurrency — module `Verif/Util`: labelled transition system with any number of threads; inductive invariant.
* **C59** SingletonMixin subclasses are independent — module `Verif/Util`: labelled transition system with any number of threads; inductive invariant.
* **C60** requires_optional only fails when called — module `Verif/Util`: decision logic; evaluator of an abstract syntax tree.
* **C61** Command-line assignments evaluate only literals and whitelisted calls — module `Verif/Util`: decision logic; evaluator of an abstract syntax tree.
* **C62** CUDA grid covers the data — module `Verif/Util`: arithmetic on Nat/Int; cycle following loop.
* **C63** register_assign_cycles produces each rotation as disjoint cycles — module `Verif/Util`: arithmetic on Nat/Int; cycle following loop.
* **C64** Progress formatting and counting — module `Verif/Util`: arithmetic on Nat/Int; cycle following loop.
* **C65** kron_matvec equals multiplication with the Kronecker product — module `Verif/Linalg`: reshape/transposition on mixed-radix index lists; induction on the factors.
* **C66** Kronecker Cholesky factors — module `Verif/Linalg`: reshape/transposition on mixed-radix index lists; induction on the factors.
* **C67** Membership of boxes and convex hulls is exact on integer points — module `Verif/Linalg`: integer geometry; boxes as four integers; masks as lists of points and weights.
* **C68** SplitBox partitions a bounding box — module `Verif/Linalg`: integer geometry; boxes as four integers; masks as lists of points and weights.
* **C69** PadBox contains the original box and has the requested size — module `Verif/Linalg`: integer geometry; boxes as four integers; masks as lists of points and weights.
* **C70** AxisAlignedBoundingBox contains the hull — module `Verif/Linalg`: integer geometry; boxes as four integers; masks as lists of points and weights.
* **C71** normalize_masks is a partition of unity — module `Verif/Linalg`: integer geometry; boxes as four integers; masks as lists of points and weights.
* **C72** overlaps_with never misses a shared point — module `Verif/Linalg`: integer geometry; boxes as four integers; masks as lists of points and weights.
* **C73** project_regions accumulates region data — module `Verif/Linalg`: integer geometry; boxes as four integers; masks as lists of points and weights.
* **C74** Packed convolution kernels hold the same taps — module `Verif/Gridding`: index arithmetic; folds over taps; policies as functions over a commutative ring with i.
* **C75** Gridding Stokes policies round-trip — module `Verif/Gridding`: index arithmetic; folds over taps; policies as functions over a commutative ring with i.
* **C76** Gridding is linear and degridding is its transpose — module `Verif/Gridding`: index arithmetic; folds over taps; policies as functions over a commutative ring with i.
* **C77** Gridding row chunks through dask gives the grid of all rows — module `Verif/Gridding`: index arithmetic; folds over taps; policies as functions over a commutative ring with i.
* **C78** Phase rotation policies are inverse to each other — module `Verif/Gridding`: index arithmetic; folds over taps; policies as functions over a commutative ring with i.
* **C79** Baseline rotation policy is an orthogonal rotation — module `Verif/Gridding`: 3-vector matrix algebra over the reals.
* **C80** Streamed gridding grids every row block once — module `Verif/Gridding`: dask graph layers as key lists; external gridder as a parameter with a linearity hypothesis; ordered-field arithmetic.
* **C81** wgridder residual equals dirty minus Hessian — module `Verif/Gridding`: dask graph layers as key lists; external gridder as a parameter with a linearity hypothesis; ordered-field arithmetic.
* **C82** estimate_cell_size satisfies the Nyquist criterion — module `Verif/Gridding`: dask graph layers as key lists; external gridder as a parameter with a linearity hypothesis; ordered-field arithmetic.
* **C83** Hogbom CLEAN preserves data: residual plus convolved model equals dirty — module `Verif/Deconv`: iteration as a loop with explicit state; invariant by induction.
* **C84** Hogbom CLEAN performs at most niter iterations — module `Verif/Deconv`: iteration as a loop with explicit state; invariant by induction.
* **C85** Peak finding returns the maximum — module `Verif/Deconv`: iteration as a loop with explicit state; invariant by induction.
* **C86** im_to_vis and vis_to_im are adjoint — module `Verif/Dft`: folds over pixels and rows; finite-sum exchange.
* **C87** radec <-> lmn round trips — module `Verif/Coordinates`: real trigonometry of Mathlib.
* **C88** abs_diff and the squared-exponential kernel — module `Verif/Gps`: real analysis of Mathlib.
* **C89** Spline tridiagonal solver solves the system — module `Verif/Splines`: counterexample to the code's elimination step; the corrected recurrences are not in the code.
* **C90** The number of channels and correlations is consistent — module `Verif/Averaging`: fold over the supplied arrays; invariant relating the running extents to the arrays seen.
* **C91** The generated warp transpose transposes — module `Verif/Util`: registers indexed by thread and number; loop invariants over the generated statements.
* **C92** The filled mask follows the sparse mask — module `Verif/Linalg`: region with cache as a state machine; invariant over histories.
* **C93** The fitted psf model is an elliptical Gaussian — module `Verif/Deconv`: real trigonometry of Mathlib.
* **C94** The chunked direct Fourier transforms equal the unchunked ones — module `Verif/Dft`: offsets of blocks; sums over blocks as sums over rows.
* **C95** Covariance matrices are positive semi-definite — module `Verif/Gps`: power series of the exponential, induction on the power; Gaussian integrals of Mathlib.
* **C96** The power spectrum is that of the covariance function — module `Verif/Gps`: power series of the exponential, induction on the power; Gaussian integrals of Mathlib.
* **C97** Splines interpolate — module `Verif/Splines`: closed form of the two loops; knots located by counting.
* **C98** Splines are smooth at the knots — module `Verif/Splines`: closed form of the two loops; knots located by counting.
* **C99** Gridding kernels are normalised and defined — module `Verif/Gridding`: finite sums of complex exponentials; shifts of periodic sums.
* **C100** The three detapering functions agree — module `Verif/Gridding`: finite sums of complex exponentials; shifts of periodic sums.
* **C101** Gridding leaves its arguments alone and grids facets independently — module `Verif/Gridding`: state of the gridder with the caller's arrays; refinement of the tap loops to sums; chunks by offsets.
* **C102** Gridding channel chunks through dask gives the grid of all channels — module `Verif/Gridding`: state of the gridder with the caller's arrays; refinement of the tap loops to sums; chunks by offsets.
* **C103** The wgridder Hessian is symmetric and positive semi-definite — module `Verif/Gridding`: ducc0 by its documented sums with arbitrary coefficients; exchange of finite sums; blocks by offsets.
* **C104** Gridding never writes outside the grid — module `Verif/Gridding`: state of the gridder with the caller's arrays; refinement of the tap loops to sums; chunks by offsets.
* **C105** Kernel lookups are inside the kernel and packing the kernel does not matter — module `Verif/Gridding`: state of the gridder with the caller's arrays; refinement of the tap loops to sums; chunks by offsets.
* **C106** Degridding through dask does not depend on the chunks — module `Verif/Gridding`: state of the gridder with the caller's arrays; refinement of the tap loops to sums; chunks by offsets.
* **C107** Imaging bands use exactly the channels of their bin — module `Verif/Gridding`: ducc0 by its documented sums with arbitrary coefficients; exchange of finite sums; blocks by offsets.
* **C108** The progress display is within bounds — module `Verif/Util`: updates as functions of the dictionary; transition system of the display thread and the callbacks.
* **C109** The progress thread and the callbacks do not disturb each other — module `Verif/Util`: updates as functions of the dictionary; transition system of the display thread and the callbacks.
* **C110** Calibration on chunked arrays gives the unchunked result — module `Verif/Calibration`: blocks by offsets; refinement of the loop nest; concrete counterexamples for the two false cases.
* **C111** Calibration tasks that share time bins do not disturb each other — module `Verif/Calibration`: transition system of tasks on a shared memory; invariant per task with frame condition.
* **C112** Averaging dask arrays gives, chunk by chunk, the numpy average — module `Verif/Averaging`: tasks as functions of block numbers; each accumulator of a block equals the shifted accumulator of the whole by reindexing sums.
* **C113** Coordinate conversions of dask arrays equal those of the whole arrays — module `Verif/Dask`: dask.array.blockwise modelled (assumption on dask); each task gets the part of its arguments that belongs to its output block.
* **C114** Terms of the measurement equation on dask arrays equal those of the whole arrays — module `Verif/Dask`: as C113; axis labels numbered at run time for any number of axes; the first-block indexing of the wrappers is modelled, so a split contracted axis is represented.
* **C115** Sky models on dask arrays equal those of the whole arrays — module `Verif/Dask`: as C113; convert ends in a sum over the blocks of the contracted axes, which is modelled as such.
* **C116** WSClean predictions of dask arrays equal those of the whole arrays — module `Verif/Dask`: as C113; the spectra are a lazy array whose blocks feed the second blockwise call, and the sum over source blocks is modelled as such; C116_cell ties the cells to the numpy prediction of C40.
* **C117** Visibility predictions of dask arrays equal those of the whole arrays — module `Verif/Dask`: blockwise without alignment (numbers of blocks only) is modelled as such; every block is shown to be the prediction of C36 for the terms of that block, and the values follow from the RIME of C35 for blocks and whole.
* **C118** Phase delays and feed rotations on a GPU or with jax equal those on the CPU — module `Verif/Cuda`: a machine for CUDA kernels (Cuda/Machine.lean): grid, blocks, shared memory with arbitrary initial contents, writes before and after the barrier in any order; every launch is shown to leave the value of the CPU model in every cell; memory layout is modelled by strides.
* **C119** Visibility predictions on a GPU equal those on the CPU — module `Verif/Cuda`: registers of a warp are functions of the lane; shuffles are shown to multiply 2x2 matrices, the warp to compute the RIME of C34; C++ int indices wrap.
* **C120** Beams on a GPU equal those on the CPU — module `Verif/Cuda`: both kernels on the machine of C118, the second with two steps before the barrier; what a cell becomes is expressed by what its block found in shared memory, which is then shown to be loaded, or chosen to show the violation.
* **C121** Conversions of coherencies on a GPU equal those on the CPU — module `Verif/Cuda`: the kernel on the machine of C118 with the warp transpose of C91; the transposes turn strided reads into whole rows, so each group of threads converts rows that are then shown to be all rows; the mapping is related entry by entry to that of the CPU.
* **C122** Gridding dask arrays with nifty_gridder gives the grid of the whole arrays — module `Verif/Gridding`: baselines and indices as arrays of objects on the model of dask.array; each row block is shown to give the contributions of its samples; their sum is that over all rows, in streams by C80.
* **C123** Degridding dask arrays with nifty_gridder gives the visibilities of the whole arrays — module `Verif/Gridding`: as C122, with the stack of the correlations.
* **C124** Images from grids, grids from images and pickled configurations of nifty_gridder — module `Verif/Gridding`: blocks of the correlation axis; sums of chunks for the refusals.
* **C125** Header files are installed once, completely and from the published archive — module `Verif/Util`: a transition system of threads, processes, files and the archive; invariants by induction on runs with crashes and exceptions; concrete runs for the violations.
* **C126** Measures of hulls and boxes — module `Verif/Linalg`: sums over the edges as finite sums; cyclic shifts; a fan of triangles; the corners of a box by a table of orientations of four points.
* **C127** Compiling with nvcc leaves the process as it was — module `Verif/Util`: a state and exception monad over a table of descriptors, temporary directories, lists and caches; relations between the worlds before and after are shown for every part and composed; leaks by counting free descriptors.
* **C128** How nvcc is found and asked — module `Verif/Util`: first match in lists; caches as part of the state; concrete outputs for the violations.
* **C129** Restored images show the model with the clean beam — module `Verif/Deconv`: curve_fit as parameter; meshgrid, ravel and reshape by index arithmetic; the kept part of the convolution is the sum of C83, and the equation of C83 gives the restored image.
* **C130** Declared element types are the computed ones — module `Verif/Types`: element types as an enumeration, promotion by the documented table of NumPy; declared, computed and NumPy types as functions of the argument types; a stream of blocks by induction.
* **C131** Inferred complex types lose nothing and waste nothing — module `Verif/Types`: a fold of promotions; least upper bound among the complex types, by induction over the arguments.
* **C132** Types on the GPU — module `Verif/Types`: the tables of util/cuda.py against tables of the C types and functions; None as float64 in result_type.
* **C133** Kernels kept for the GPU fit their arguments — module `Verif/Types`: a cache over a list of calls; keeping results is invisible exactly when the key determines the generator (theorem), then per function.
* **C134** Averaging does not depend on the order of the rows — module `Verif/Averaging`: the bins of a baseline depend on the order of its times only (simulation of the loop), the numbering of output rows is determined by their order by time and baseline (uniqueness of a gap-free numbering), sums over the rows of a bin are moved along the permutation.
* **C135** Averaging over less than two samples changes nothing — module `Verif/Averaging`: from C07 no two rows share a bin, so the row map is a bijection and every sum has one term.
* **C136** CLEAN recovers a point source — module `Verif/Deconv`: from the characterisation of the rounds (C84): the residual is a positive multiple of the dirty image, whose peak is unique; scaling by simulation of the loop.
* **C137** Symmetries of the direct Fourier transforms — module `Verif/Dft`: from the values of both transforms (C86).
* **C138** The ways of predicting a list of sources agree — module `Verif/Dft`: from the values of wsclean_predict (C40), predict_vis (C34), phase_delay (C31), gaussian (C50) and im_to_vis (C86).
* **C139** What phase-only calibration cannot see — module `Verif/Calibration`: simulation of the loop for two related problems, from the entries of jhj and jhr as sums.
* **C140** beam_factory and beam_grids fit together — module `Verif/Util`: the header as a function of the arguments, passed to the model of beam_grids (C55); the random numbers are a parameter.
* **C141** Spline fits transform with the data — module `Verif/Splines`: the pivots depend on the knots only, and right sides and solution are linear in the values, by induction along the elimination and back.
* **C142** Hashes of files, numbered listings and templates of documentation — module `Verif/Util`: texts as lists of characters; the loops of reading, splitting, replacing and substituting as recursive functions, related to a description of the text in parts.
* **C143** How predictions compose — module `Verif/Rime`: from the values of all cells (C34) by algebra of the measurement equation.
* **C144** Fits of spectral indices under changes of units, order and weights — module `Verif/ModelData`: the sums of an iteration under permutation and scaling, then induction over iterations.
* **C145** Direction cosines under changes of the coordinate system — module `Verif/Coordinates`: trigonometric identities on the formulas of C87; the loops of the inverse conversions by induction.
* **C146** Averaging channels in two steps — module `Verif/Averaging`: the samples used in one step are the disjoint union of those used in two steps; sums over the union.
* **C147** Zernike modes are orthogonal — module `Verif/Rime`: moments of the radial polynomials by finite differences and Lagrange interpolation, integrals of products of cosines and sines, interval integrals of Mathlib.
* **C148** Zernike modes of high degree — module `Verif/Rime`: a second model with integers modulo 2^64; products of factorials are at most the factorial of the sum; witnesses by evaluation.
* **C149** How corruptions and corrections compose — module `Verif/Calibration`: the closed forms of C21-C23 and C34, associativity of matrix products and sums over ranges.
* **C150** The algebra of Kronecker products — module `Verif/Linalg`: mixed-product rule by induction on the factors, then C65.
* **C151** Kronecker products of any element type — module `Verif/Linalg`: the loops of C65 and C66 with a conversion at each store; real part and rounding as conversions.
* **C152** Frequencies of integer type — module `Verif/Types`: the models of C50, C41/C42 and C17 with a conversion at each store; bounds on pi and log 2 for the witness.
* **C153** CLEAN can be resumed — module `Verif/Deconv`: the loop of C83 split at a state, with a shift of the counter and of the model.
* **C154** Spectra do not depend on the reference frequency — module `Verif/ModelData`: the binomial theorem on the documented spectra of C47 and C48.
* **C155** Closure quantities do not depend on the antennas — module `Verif/Calibration`: products of the cells of C21, C31 and C40 along a polygon.
* **C156** Terms of the example prediction are multiplied — module `Verif/Examples`: einsum as a sum over the labels missing from the output; induction on the list of terms.
* **C157** Sky models are parsed without loss — module `Verif/Examples`: induction on the list of sources.
* **C158** Data are joined with their own tables — module `Verif/Examples`: case analysis; the other data descriptions stop the program.
* **C159** The model is convolved with the restoring beam — module `Verif/Examples`: discrete Fourier transforms as finite sums over roots of unity; orthogonality gives the cyclic convolution, index arithmetic the rest.
* **C160** The restoring beam of the example fit has the requested shape — module `Verif/Examples`: real analysis; irrationality of pi for the angles.
* **C161** The example fit maps each bright pixel once — module `Verif/Examples`: induction on the list of pixels.
* **C162** Prediction from FITS images sums every pixel at its position — module `Verif/Examples`: the sum over bright pixels is the sum over all pixels; sorting of coordinates; C86 for the transform.
* **C163** Generated phase gains are unit phases drawn from the stated covariance — module `Verif/Examples`: Kronecker products of factors; expectation over unit white noise is the sum of products of coefficients.
* **C164** The example phase screen is applied to every source and every hand is calibrated — module `Verif/Examples`: the screen as a plane; loops over times, antennas, channels and directions; corruption by diagonal gains as in C21.
* **C165** Loaded beam cubes keep every voxel with its coordinates — module `Verif/Examples`: transposition by the axis indices of the header, case analysis over axis orders.
* **C166** The beam of the example fit is the beam of the files at each component — module `Verif/Examples`: substring search on lists of characters; the interpolation of linear cubes is exact (C42_linear).
* **C167** The example program that applies gains writes every visibility between the gains of its time — module `Verif/Examples`: chunks of times and rows from chunkify_rows (C26) fit each other; the blocks agree with the whole (C110) and the whole with the measurement equation (C21).
* **C168** The example program for point sources applies the gains of each direction to the fringe of its source — module `Verif/Examples`: as 167, with the fringes of C30 and the direction cosines of the sources.
* **C169** Averaged visibilities are averages — module `Verif/Averaging`: from the closed form of the averages (C03) as weighted sums over the samples of a bin.
* **C170** Beam cubes commute with the symmetries of the cube — module `Verif/Rime`: from the closed form of the beam (C38) over the reals.
* **C171** Physical light stays physical — module `Verif/ModelData`: from the values of the correlations (C40) and the RIME (C34), by completing the square.
* **C172** Gridding does not depend on how baselines are written down — module `Verif/Gridding`: from the closed form of the grid (C76): sums over rows, negated and shifted taps.
* **C173** Calibration never makes the fit worse and comes to rest — module `Verif/Calibration`: a quadratic bound on the misfit of a row when its prediction turns; Jacobi steps with factor 1/2 minimise the sum of the bounds; induction over iterations.
* **C174** CLEAN approaches the sky and reaches its threshold — module `Verif/Deconv`: the power of sky minus model falls by gamma (2 - gamma) times the squared peak in each round; cosines give positive power.
* **C175** Updates of spectral index fits go downhill and rest at stationary points — module `Verif/ModelData`: derivative of the misfit along a line; the adjugate of the normal matrix is positive definite.
* **C176** Interpolated beams are continuous — module `Verif/Rime`: indices and weights are written as sums of ramps, which are continuous; the normalised sum is continuous where it is not zero.
* **C177** How much averaging and errors of position take from a source — module `Verif/Dft`: chord of an angle is at most the arc; convex combinations keep real parts.
* **C178** Sums over the grid and constant grids — module `Verif/Gridding`: exchange of sums over cells and taps.
* **C179** Regions do not depend on the origin of the image — module `Verif/Linalg`: equivariance of minima, maxima, normals and meshes; the truncated mean commutes with shifts only on one side of zero.
* **C180** Detapering functions are one at the centre, bounded and symmetric — module `Verif/Gridding`: the functions are products of one-axis transforms (C100), which are conjugate at opposite pixels.
* **C181** Averaging conserves the weight and the flux of good samples — module `Verif/Averaging`: a bin that is not excluded uses exactly its good samples and an excluded bin has none; sums over bins are sums over samples.
* **C182** What the gains of one time bin, channel and correlation depend on — module `Verif/Calibration`: each entry of jhj and jhr is a sum over the unflagged rows of its cell; induction over iterations; a two-channel call shows that the stopping rule couples cells.
* **C183** Calibration finds the gains of noiseless data — module `Verif/Calibration`: the errors follow a consensus iteration: each is replaced by a weighted mean of itself and its neighbours as long as they lie within half a turn; contraction along paths; an energy identity bounds the spread by the last update.
* **C184** Gridding and degridding agree with the direct Fourier transform — module `Verif/Gridding`: the taps of a sample are summed over cells against the wave of the pixel: the wave of the baseline times the transform of the kernel; rounding moves a cell by at most half, so each tap is turned by a bounded phase; the wave is the phase delay of the pixel's direction.
* **C185** The gridder and convert use the same Stokes parameters — module `Verif/Gridding`: both tables evaluated for every name, with symbolic values.
* **C186** Gaussian shapes are Fourier transforms of Gaussian sources — module `Verif/ModelData`: rotation to the axes of the source preserves the measure of the plane; the integral is then a product of two Gaussian integrals from Mathlib.
* **C187** Dirty images are convolutions with the dirty beam — module `Verif/Dft`: the values of C86, products of delays at two positions, and sums of roots of unity by the geometric series.
* **C188** Covariances of distinct points can be factored — module `Verif/Gps`: the exponential series of inner products: if the form vanishes, so do all moments, hence the value of every polynomial that is zero at all points but one.
* **C189** Simulating, imaging and deconvolving fit together — module `Verif/Deconv`: C187 shows the image to be a convolution and the psf to be the mean of fringes; C174 and C136 then apply.
* **C190** Feed rotation turns the plane of polarisation — module `Verif/ModelData`: the matrices of C171 for Stokes parameters multiplied by the rotations of feed_rotation; predict_vis by C34.
* **C191** A sky without negative brightness gives positive semi-definite visibilities — module `Verif/Dft`: each source gives a rank one matrix times a Gaussian kernel, positive semi-definite by C95; sums and congruences keep that; C86, C40 and C34 say what the functions return.
* **C192** Self-calibration recovers the model — module `Verif/Calibration`: the phases found by C183 put into the formulas of correct_vis and residual_vis.
* **C193** Averaging and calibration can be exchanged where gains are constant — module `Verif/Averaging`: C21 and the formula of correct_vis put into the linearity of averages (C169), with C02 for the baseline of each output row.
* **C194** The sign of what CLEAN finds — module `Verif/Deconv`: invariants of the while loop; the loop with another psf runs in step with the first one.
* **C195** Flagged data do not leak into good data — module `Verif/Averaging`: the averages are sums over the contributing samples, all good where one is good; the loops of calibration and imaging skip flagged cells.
* **C196** Errors of the data are not amplified — module `Verif/Averaging`: averages are linear and convex (C169) and so send balls into balls; the gains and the phases of the transforms come out of the norms; the power on complete grids from C86 and C187.
* **C197** Compiling several files on Windows — module `Verif/Util`: the world monad of C127; induction on the loop over the objects, distutils as a parameter with stated assumptions.
* **C198** Statistics of tasks are kept by name and add up — module `Verif/Util`: cases on keys; induction on histories with the invariant that statistics and start times divide.
* **C199** Templates without jinja2 — module `Verif/Util`: cases on imports, induction on the history of marks.
* **C200** Building the documentation — module `Verif/Util`: cases on the number of arguments, with the signature of the function as data.
* **C201** Averaging rows that have been averaged — module `Verif/Averaging`: averaged rows of regular samples are intervals of dumps; the rule of C08 for which rows share a bin, applied twice.
* **C202** Weights and errors stay consistent — module `Verif/Averaging`: C11, C13 and C16 with the inequality of Cauchy and Schwarz.
* **C203** Moving the phase centre and turning the field — module `Verif/Dft`: Closed forms of C31, C40 and C86; orthogonal matrices keep scalar products.
* **C204** Facets away from the phase centre — module `Verif/Gridding`: C78 and C79 with closed forms of the phases; the scalar product of two directions is the cosine of their angle.
* **C205** NumPy and compiled spectra of WSClean components — module `Verif/ModelData`: the closed forms of C48; sums over the coefficients; broadcasting of one axis.
* **C206** How the w-gridder's four functions fit together — module `Verif/Gridding`: the closed forms of C81 and C107; exchange of sums over rows and channels.

## Modelled and not modelled

Per source file, the functions that a model definition cites and those it does not. Tests and examples are left out. Nested functions belong to the enclosing one; the result of a function `x_factory` is part of `x_factory`. A function that is cited may be modelled in part: the comment at the definition says what is simplified.

* `africanus/averaging/dask.py`: modelled chan_metadata, row_mapper, _getitem_row, _row_average_wrapper, row_average, _getitem_row_chan, row_chan_average, _getitem_chan, chan_average, merge_flags, time_and_channel. 
* `africanus/averaging/splines.py`: modelled solve_trid_system, fit_cubic_spline, evaluate_spline. 
* `africanus/averaging/support.py`: modelled _unique_internal, unique_time, unique_baselines. 
* `africanus/averaging/time_and_channel_avg.py`: modelled matching_flag_factory, row_average, vis_add_factory, sigma_spectrum_add_factory, chan_add_factory, vis_normaliser_factory, sigma_spectrum_normaliser_factory, find_chan_corr, chan_corrs, is_chan_flagged_factory, row_chan_average, chan_average, merge_flags, time_and_channel. Not modelled weight_sum_output_factory, chan_output_factory, weight_spectrum_normaliser_factory, chan_normaliser_factory, shape_or_invalid_shape, set_flagged_factory.
* `africanus/averaging/time_and_channel_mapping.py`: modelled is_flagged_factory, output_factory, set_flag_row_factory, row_mapper, channel_mapper. 
* `africanus/calibration/phase_only/dask.py`: modelled compute_jhj, compute_jhr. 
* `africanus/calibration/phase_only/phase_only.py`: modelled jacobian_factory, compute_jhj_and_jhr, compute_jhj, compute_jhr, gauss_newton. 
* `africanus/calibration/utils/compute_and_corrupt_vis.py`: modelled jones_mul_factory, compute_and_corrupt_vis. 
* `africanus/calibration/utils/correct_vis.py`: modelled jones_inverse_mul_factory, correct_vis. 
* `africanus/calibration/utils/corrupt_vis.py`: modelled jones_mul_factory, corrupt_vis. 
* `africanus/calibration/utils/dask.py`: modelled _corrupt_vis_wrapper, corrupt_vis, _compute_and_corrupt_vis_wrapper, compute_and_corrupt_vis, _correct_vis_wrapper, correct_vis, _residual_vis_wrapper, residual_vis. 
* `africanus/calibration/utils/residual_vis.py`: modelled subtract_model_factory, residual_vis. 
* `africanus/calibration/utils/utils.py`: modelled check_type, chunkify_rows. 
* `africanus/conftest.py`: Not modelled pytest_configure, pytest_unconfigure.
* `africanus/coordinates/coordinates.py`: modelled _return_phase_centre, radec_to_lmn, radec_to_lm, lmn_to_radec, lm_to_radec. Not modelled _create_phase_centre, astropy_radec_to_lmn.
* `africanus/coordinates/dask.py`: modelled _radec_to_lmn, radec_to_lmn, _lmn_to_radec, lmn_to_radec, _radec_to_lm, radec_to_lm, _lm_to_radec, lm_to_radec. 
* `africanus/deconv/hogbom/clean.py`: modelled twod_gaussian, fit_2d_gaussian, find_peak, build_cleanmap, update_residual, hogbom_clean, restore. 
* `africanus/dft/dask.py`: modelled _im_to_vis_wrapper, im_to_vis, _vis_to_im_wrapper, vis_to_im. 
* `africanus/dft/kernels.py`: modelled im_to_vis, vis_to_im. 
* `africanus/gps/kernels.py`: modelled exponential_squared. 
* `africanus/gps/utils.py`: modelled abs_diff. 
* `africanus/gridding/nifty/dask.py`: modelled GridderConfigWrapper.__init__, GridderConfigWrapper.__reduce__, normalize_gridder_config_wrapper, grid_config, _nifty_baselines, _nifty_indices, _nifty_grid, _nifty_grid_streams, GridStreamReduction.__len__, GridStreamReduction._create_dict, FinalGridReduction._create_dict, grid, _nifty_dirty, dirty, _nifty_model, model, _nifty_degrid, degrid. Not modelled GridderConfigWrapper.object, GridStreamReduction.__init__, GridStreamReduction._dict, GridStreamReduction.__getitem__, GridStreamReduction.__iter__, FinalGridReduction.__init__, FinalGridReduction._dict, FinalGridReduction.__getitem__, FinalGridReduction.__iter__, FinalGridReduction.__len__.
* `africanus/gridding/perleypolyhedron/dask.py`: modelled __degrid, degridder, __grid, gridder. 
* `africanus/gridding/perleypolyhedron/degridder.py`: modelled degridder_row_kernel, degridder, degridder_serial. 
* `africanus/gridding/perleypolyhedron/gridder.py`: modelled gridder. 
* `africanus/gridding/perleypolyhedron/kernels.py`: modelled uspace, sinc, kbsinc, hanningsinc, pack_kernel, unpack_kernel, compute_detaper, compute_detaper_dft, compute_detaper_dft_seperable. 
* `africanus/gridding/perleypolyhedron/policies/baseline_transform_policies.py`: modelled uvw_rotate, uvw_planarwapprox, policy, policy_impl. Not modelled uvw_norotate.
* `africanus/gridding/perleypolyhedron/policies/convolution_policies.py`: modelled convolve_1d_axisymmetric_unpacked_scatter, convolve_1d_axisymmetric_packed_scatter, convolve_nn_scatter, convolve_1d_axisymmetric_packed_gather, convolve_1d_axisymmetric_unpacked_gather, policy_impl. Not modelled policy.
* `africanus/gridding/perleypolyhedron/policies/phase_transform_policies.py`: modelled phase_norotate, phase_rotate, policy, policy_impl. 
* `africanus/gridding/perleypolyhedron/policies/stokes_conversion_policies.py`: modelled stokes2corrimpl, corr2stokesimpl, ncorr_outimpl, ncorr_outpy. Not modelled stokes2corr, corr2stokes, ncorr_out.
* `africanus/gridding/util.py`: modelled estimate_cell_size. 
* `africanus/gridding/wgridder/dask.py`: modelled _model_wrapper, model, _dirty_wrapper, dirty, _residual_wrapper, residual, _hessian_wrapper, hessian. 
* `africanus/gridding/wgridder/hessian.py`: modelled _hessian_internal, hessian. 
* `africanus/gridding/wgridder/im2residim.py`: modelled _residual_internal, residual. 
* `africanus/gridding/wgridder/im2vis.py`: modelled _model_internal, model. 
* `africanus/gridding/wgridder/vis2im.py`: modelled _dirty_internal, dirty. 
* `africanus/linalg/geometry.py`: modelled BoundingConvexHull.__init__, BoundingConvexHull.invalidate_cached_masks, BoundingConvexHull.init_mask, BoundingConvexHull.sparse_mask, BoundingConvexHull.mask, BoundingConvexHull.regional_data, BoundingConvexHull.normalize_masks, BoundingConvexHull.circumference, BoundingConvexHull.area, BoundingConvexHull.corners, BoundingConvexHull.normals, BoundingConvexHull.edges, BoundingConvexHull.edge_midpoints, BoundingConvexHull.lnormals, BoundingConvexHull.rnormals, BoundingConvexHull.overlaps_with, BoundingConvexHull.centre, BoundingConvexHull.__contains__, BoundingBox.__init__, BoundingBox.init_mask, BoundingBox.__contains__, BoundingBox.box_npx, BoundingBox.sparse_mask, BoundingBox.project_regions, BoundingBoxFactory.AxisAlignedBoundingBox, BoundingBoxFactory.SplitBox, BoundingBoxFactory.PadBox. Not modelled timeit, BoundingConvexHull.__str__, BoundingConvexHull.sprase_mask_weights, BoundingConvexHull.name.
* `africanus/linalg/kronecker_tools.py`: modelled kron_N, kron_matvec, kron_tensorvec, kron_matmat, kron_tensormat, kron_cholesky. 
* `africanus/model/coherency/conversion.py`: modelled _element_indices_and_shape, convert_setup, convert_impl, convert. 
* `africanus/model/coherency/cuda/conversion.py`: modelled stokes_convert_setup, _key_fn, _generate_kernel, convert. Not modelled schema_to_tuple.
* `africanus/model/coherency/dask.py`: modelled _wrapper, convert. 
* `africanus/model/shape/dask.py`: modelled _wrapper, gaussian. 
* `africanus/model/shape/gaussian_shape.py`: modelled gaussian. 
* `africanus/model/spectral/dask.py`: modelled _wrapper, spectral_model. 
* `africanus/model/spectral/spec_model.py`: modelled numpy_spectral_model, promote_base_factory, add_pol_dim_factory, spectral_model. Not modelled pol_getter_factory.
* `africanus/model/spi/component_spi.py`: modelled _fit_spi_components_impl, fit_spi_components. 
* `africanus/model/spi/dask.py`: modelled _fit_spi_components_wrapper, fit_spi_components. 
* `africanus/model/wsclean/dask.py`: modelled _wrapper, spectra. 
* `africanus/model/wsclean/file_model.py`: modelled _hour_converter, _deg_converter, arcsec2rad, _parse_col_descriptor, _parse_header, _parse_lines, load. 
* `africanus/model/wsclean/spec_model.py`: modelled ordinary_spectral_model, log_spectral_model, _check_log_poly_shape, _log_polynomial, spectra. 
* `africanus/rime/cuda/beam.py`: modelled _freq_interp_key, _generate_interp_kernel, _main_key_fn, _generate_main_kernel, beam_cube_dde. 
* `africanus/rime/cuda/feeds.py`: modelled _key_fn, _generate_kernel, feed_rotation. 
* `africanus/rime/cuda/phase.py`: modelled _key_fn, _generate_kernel, phase_delay. 
* `africanus/rime/cuda/predict.py`: modelled _key_fn, _generate_kernel, predict_vis. 
* `africanus/rime/cuda/test_shuffle.py`: Not modelled test_cuda_shuffle_transpose, register_assign_cycles, CupyTemplatingException.__init__, throw_helper, test_cuda_shuffle_transpose_2.
* `africanus/rime/dask.py`: modelled _phase_delay_wrap, phase_delay, _parangle_wrapper, parallactic_angles, feed_rotation, _xform_wrap, transform_sources, _beam_cube_dde_wrapper, beam_cube_dde, _zernike_wrapper, zernike_dde. 
* `africanus/rime/dask_predict.py`: modelled LinearReduction.__init__, LinearReduction._dict, LinearReduction.__getitem__, LinearReduction.__iter__, LinearReduction.__len__, LinearReduction._out_numblocks, linear_reduction, _predict_coh_wrapper, _predict_dies_wrapper, parallel_reduction, apply_dies, predict_vis, wsclean_body_wrapper, wsclean_predict. Not modelled _ind_map, wsclean_spectrum_wrapper.
* `africanus/rime/fast_beam_cubes.py`: modelled freq_grid_interp, beam_cube_dde. 
* `africanus/rime/feeds.py`: modelled _nb_feed_rotation, feed_rotation. 
* `africanus/rime/jax/phase.py`: modelled phase_delay. 
* `africanus/rime/parangles.py`: modelled parallactic_angles. 
* `africanus/rime/parangles_astropy.py`: Not modelled astropy_parallactic_angles.
* `africanus/rime/parangles_casa.py`: modelled casa_parallactic_angles. 
* `africanus/rime/phase.py`: modelled phase_delay. 
* `africanus/rime/predict.py`: modelled _get_jones_types, jones_mul_factory, sum_coherencies_factory, output_factory, add_coh_factory, apply_dies_factory, predict_checks, predict_vis, apply_gains. Not modelled _default_none_check.
* `africanus/rime/transform.py`: modelled _nb_transform_sources, transform_sources. 
* `africanus/rime/wsclean_predict.py`: modelled wsclean_predict_impl, wsclean_predict. 
* `africanus/rime/zernike.py`: modelled fac, pre_fac, zernike_rad, zernike, _convert_coords, nb_zernike_dde, zernike_dde. 
* `africanus/testing/beam_factory.py`: modelled beam_factory. 
* `africanus/util/beams.py`: modelled FitsAxes.__init__, axis_and_sign, BeamAxes.__init__, beam_grids, _re_im_filenames, beam_filenames. Not modelled BeamAxes.ndims, BeamAxes.crpix, BeamAxes.naxis, BeamAxes.crval, BeamAxes.cdelt, BeamAxes.cunit, BeamAxes.ctype, BeamAxes.grid.
* `africanus/util/cmdline.py`: modelled parse_python_assigns. 
* `africanus/util/code.py`: modelled SingletonMixin.instance, format_code, memoize_on_key.__init__, memoize_on_key.__call__. 
* `africanus/util/cub.py`: modelled download_cub, is_cub_installed, _install_cub, cub_dir. 
* `africanus/util/cuda.py`: modelled grids, cuda_function, cuda_type. 
* `africanus/util/dask_util.py`: modelled format_time, key_bin, TaskData.__init__, TaskData.__iadd__, TaskData.__add__, update_bar, timer_func, EstimatingProgressBar.__init__, EstimatingProgressBar._start, EstimatingProgressBar._finish, EstimatingProgressBar._pretask, EstimatingProgressBar._posttask. Not modelled TaskData.__repr__.
* `africanus/util/docs.py`: modelled on_rtd, mod_docs, doc_tuple_to_str. Not modelled DefaultOut.__init__, DefaultOut.__repr__.
* `africanus/util/files.py`: modelled sha_hash_file. 
* `africanus/util/jinja2.py`: modelled register_assign_cycles, TemplatingException.__init__, FakeEnvironment.__getitem__, FakeEnvironment.__setitem__, FakeEnvironment.__delitem__, FakeEnvironment.__getattr__, FakeEnvironment.__setattr__, FakeEnvironment.__delattr__, _jinja2_env_factory. Not modelled throw_helper.
* `africanus/util/numba.py`: modelled _fake_decorator. Not modelled is_numba_type_none.
* `africanus/util/nvcc.py`: modelled search_on_path, _tempdir, get_cuda_path, get_nvcc_path, get_compiler_setting, _match_output_lines, get_compiler_base_options, _get_compiler_base_options, _get_cuda_info, get_cuda_info, _format_cuda_version, get_cuda_version, get_gencode_options, _UnixCCompiler._compile, _MSVCCompiler._compile_cu, _MSVCCompiler.compile, get_compiler, stdchannel_redirected, compile_using_nvcc. Not modelled get_path.
* `africanus/util/requirements.py`: modelled requires_optional. Not modelled _missing_packages.
* `africanus/util/shapes.py`: modelled aggregate_chunks, corr_shape. 
* `africanus/util/testing.py`: modelled in_pytest, mark_in_pytest. 
* `africanus/util/trove.py`: modelled download_trove, is_trove_installed, _install_trove, trove_dir. 
* `africanus/util/type_inference.py`: modelled _numpy_dtype, infer_complex_dtype. 

Not modelled anywhere: what the compilers do with CUDA code (the calls of nvcc are modelled, those of other compilers are parameters), docstring and test helpers, the command lines, tables and plots of the examples (what they compute is modelled), packaging; floating point rounding, NaN and overflow unless a definition says otherwise; performance.

## Disagreements between code and properties

Each is proved on a concrete witness or visible in the conditions of a theorem; the theorem is named.

* **C07** holds when lower edges do not decrease; refuted in general (`C07_violated`).
* **C08** refuted by the code (bin_low is not reset); exact behaviour proved (`C08_violated`).
* **C12** row mapping treats all positive flags alike; row_average does not (refuted) (`C12_violated`).
* **C19** holds for row-chan data; refuted for channel metadata (bin size not passed on) (`C19_violated`).
* **C20** refuted: TypeError; the row-chan part holds (`C20_violated`).
* **C28** jhj counts autocorrelations with |V|^2 twice although their derivative is zero (refuted); holds for tables without autocorrelations; jhr holds in general (`C28_violated`).
* **C33** refuted: the rotated l is used when computing m; exact deviation and the cases where the claim holds are proved (`C33_violated`).
* **C37** refuted for more than one source block; exact condition proved (`C37_violated`).
* **C45** an unknown first output raises UnboundLocalError, an empty output schema a ValueError.
* **C46** distinctness, bounds and rejection of uneven lists hold; refuted: leaves of different depth are accepted (`C46_violated`).
* **C48** values as documented whenever it succeeds; refuted: a non-positive coefficient of a log polynomial is rejected too (`C48_violated`).
* **C49** exact arithmetic, ASCII files; refuted for malformed positions with trailing text (accepted) and comments after the header (not skipped) (`C49_violated`).
* **C51** `maxiter = 0` or `tol >= 1` leaves results unbound; two channels divide by zero.
* **C52** all parts hold except that groups are non-empty: refuted, a leading empty chunk is produced when the first chunk reaches the maximum; an empty chunk list raises UnboundLocalError (`C52_violated`).
* **C55** irregular grids in degrees are not converted to radians.
* **C58** an instance with a false truth value is created again.
* **C59** refuted: a subclass returns the instance of a parent that was created first (`C59_violated`, `C59_violated_two_objects`).
* **C65** extents are held in int8 arrays, so factors with 128 or more rows or columns are rejected (`C65_violated`).
* **C67** the tolerance of half a pixel is not a distance: it is not divided by the length of the edge (`C67_tolerance`; only points that are not pixels are concerned).
* **C68** `SplitBox` can give an inverted last box that leaves the box and overlaps another (`C68_violated`); sub-boxes of one pixel raise (`C68_one_pixel`).
* **C69** `PadBox` to the same even size shifts the box by one pixel and drops part of the mask (`C69_violated`).
* **C70** square bounding boxes are centred on the mean of the vertices and may miss vertices (`C70_violated`).
* **C71** pixels with negative x collide with other pixels in the flat numbering (`C71_violated`).
* **C72** all normals are divided by the length of the third one, so that `overlaps_with` is not symmetric (`C72_violated`).
* **C73** the check for regions outside the image compares with the wrong axes (`C73_violated`); the padding value is multiplied with zero (`C73_oob_ignored`).
* **C76** linear with every policy; adjoint without a baseline transform; refuted with one: gridder and degridder transform differently (`C76_violated`).
* **C77** refuted: the grids of the row chunks are averaged instead of summed; equal up to the number of chunks (`C77_violated`).
* **C79** refuted: the policy rotate reads the number after the row instead of w and uses already replaced components; proved: the matrix is a rotation, the planar policy is as documented (`C79_violated`, `C79_violated_overwrite`).
* **C82** refuted: the image-size check is the opposite of the documented one (`C82_violated`).
* **C84** `while ... i <= niter` allows `niter + 1` iterations (`C84_violated`).
* **C85** `abs_residuals = residuals`: no absolute value is taken, a negative source is never found next to a weaker positive one (`C85_violated`).
* **C87** `arctan` of the quotient loses the quadrant: directions beyond the pole come back with the right ascension off by half a turn, and a vanishing denominator raises ZeroDivisionError (`C87_violated`). The documentation gives `n = sqrt(1 - l^2 - m^2) - 1`; the code has no `- 1`, and the inverse needs none (`C87_unit_partial`).
* **C89** refuted for every three knots not on a line and, with prescribed slopes at both ends, for all knots and values (the result depends on memory outside the array); solved only for points on a line (`C89_violated`, `C89_violated_left_value`, `C89_violated_right_type`, `C89_memory_violated`, `C89_slopes_violated`).
* **C92** setting the sparse mask leaves the cached filled mask as it was (`C92_violated`).
* **C94** the dask `vis_to_im` looks for flags only within a chunk of correlations (`C94_violated`).
* **C96** the factor is `sqrt(2 pi l)` instead of `sqrt(2 pi) l` and the frequencies are not angular (`C96_violated`, `C96_transform_partial`); `raise(ValueError, ...)` raises TypeError (`C96_rejects_partial`).
* **C97** the last knot and points outside the knots are refuted; all other knots are interpolated (`C97_violated`, `C97_violated_outside`, `C97_violated_last`).
* **C98** refuted: the second derivative jumps; smooth if the solver solved the system (`C98_violated`).
* **C101** refuted with a phase transform: the visibilities of the caller are changed and later facets use them (`C101_violated`).
* **C102** refuted: only the first chunk of channels is gridded; what remains true is the refusal of chunks that differ (`C102_violated`).
* **C104** refuted for the nearest neighbour policy (`C104_violated`).
* **C106** refuted for several chunks of facets (`C106_violated`).
* **C107** refuted for bins whose first channel is not 0: they are shifted to channel 0 (`C107_violated`).
* **C108** refuted: a task of no measured time ends the display thread, and the estimate changes without a completed task; bar width, percentage and estimate bounds are proved (`C108_violated`, `C108_violated_jump`).
* **C109** refuted: the dictionary is emptied without the lock (`C109_violated`).
* **C110** refuted in two cases: compute_jhj/compute_jhr declare the number of rows for an axis of times, and flags are combined per correlation chunk; all other chunkings are proved (`C110_jhj_shape_violated`, `C110_corr_chunks_violated`).
* **C111** refuted: time_bin_indices is shifted in place, so tasks of two channel chunks race and a chunked computation leaves the array changed; proved for blocks without common entries or starting at row 0, under every schedule (`C111_race_violated`, `C111_reuse_violated`).
* **C112** proved for every accepted call; refuted: channel arrays alone are refused by dask with ValueError, and row weights in several correlation chunks are truncated to the first chunk although all correlations are declared (`C112_chan_only_violated`, `C112_corr_chunks_violated`).
* **C114** zernike_dde silently ignores all but the first block of polynomials: proved as C114_zernike_violated; C114_zernike_dde_partial assumes one block. parallactic_angles with an external backend assumes at least one time. (`C114_zernike_violated`).
* **C115** `spectra`, `fit_spi_components`, `spectral_model` with one base per polarisation and `convert` give wrong values for some chunkings (`C115_spectra_violated`, `C115_fit_spi_violated`, `C115_spectral_model_violated`, `C115_convert_violated`). The default `tol` of `fit_spi_components` is 1e-4 in numpy, 1e-5 in dask and 1e-6 in the documentation.
* **C116** the dask `wsclean_predict` uses only the first block of split coefficients (`C116_violated`); a boolean `log_poly`, which the numpy version accepts, raises AttributeError (`C116_bool_refused`).
* **C117** the dask `predict_vis` does not align chunks: `source_coh` in one block of rows is accepted with several blocks of rows, and its first rows are used in each (`C117_violated`).
* **C118** The last sentence fails for phase_delay: lm and uvw are read through raw pointers, so lmn[:, :2] gives wrong phases (C118_phase_violated). All else is proved. (`C118_phase_violated`).
* **C119** The last sentence fails: with base visibilities alone the kernel does not compile, and indices are 32 bit integers, so that arrays of more than 2^31 elements are misread. Everything else is proved. Shuffles are assumed to work for all active lanes although the code passes a mask that names five of them. (`C119_base_vis_violated`, `C119_index_violated`).
* **C120** Proved for channels below 1024 in blocks of 32 columns of which at least four exist. It fails elsewhere: channels from the 1024th on search uninitialised shared memory (C120_channels_violated), a last block of one to three columns does not load all extents (C120_extents_violated). Beams of one point are accepted once a kernel for arrays of the same types was generated (C120_size_violated). (`C120_channels_violated`, `C120_extents_violated`, `C120_size_violated`).
* **C121** Proved for fewer than 2^31 numbers and for floating point types (integers are not modelled). With 2^31 numbers or more nothing is written (C121_large_violated). Once a kernel for the same schemas and type exists, the last extents of the input are no longer compared with the schema (C121_shape_violated). A schema whose length is not a power of two is refused although the CPU accepts it. (`C121_large_violated`, `C121_shape_violated`).
* **C122** Proved for arrays with the same chunks along the rows. With visibilities or weights in other row chunks than the coordinates, the grid is computed without streams but raises with streams (C122_streams_violated). What nifty_gridder does to a sample is a parameter. (`C122_streams_violated`).
* **C125** With crashes, proved if the temporary directory is on the same file system as the include directory. On another one, a process killed while the files are copied leaves an incomplete directory that the next process takes for installed (C125_crash_violated). The lock is not shared by processes: one that started before the installation removes the files under another (C125_processes_violated). rmtree is assumed to remove everything. (`C125_crash_violated`, `C125_processes_violated`).
* **C126** Over exact real numbers. The circumference counts one more for every edge, so the area is the number of pixels only for boxes; for a triangle it is neither the number of pixels nor the area (C126_violated). With reversed limits the extents of a box are wrong by two (C126_npx_violated). (`C126_violated`, `C126_npx_violated`).
* **C127** Descriptors, temporary directories and the compiler object are restored in all cases. Violated: in Python 3 nothing is ever compiled, because literal_eval rejects bytes (C127_python3_violated); every use leaks a descriptor until none is left (C127_leak_violated, C127_exhausted_violated); the list of the caller is changed (C127_options_violated); the architecture is ignored (C127_arch_violated); CompileError is never raised, but TypeError (C127_error_violated); the object file stays outside of the temporary directory (C127_command). rmtree is assumed to remove everything and dup2 of an open descriptor not to fail. (`C127_object_violated`, `C127_leak_violated`, `C127_exhausted_violated`, `C127_options_violated`, `C127_arch_violated`, `C127_python3_violated`, `C127_error_violated`).
* **C128** If NVCC is set, an AttributeError is raised (C128_nvcc_violated). Lines at the very end of the output are not found (C128_match_violated); with a line feed at the end they are (C128_match_ends). Regular expressions and path names are parameters. (`C128_nvcc_violated`, `C128_match_violated`).
* **C129** Proved for square images with at least two pixels along a side; curve_fit is a parameter. Images of one pixel can be cleaned but not restored (C129_one_pixel_violated). For a psf that is not square the samples of the clean beam are permuted (C129_oblong_violated). C129_position: components keep their place if the clean beam is centred at (n - 1, n - 1), and are moved by one pixel if it is centred at (n, n). (`C129_one_pixel_violated`, `C129_oblong_violated`).
* **C130** Proved for phase_delay, feed_rotation, transform_sources, gaussian, corrupt_vis, correct_vis, residual_vis and wsclean_predict; for the other functions the theorems say for which types it holds. It fails for spectral_model and spectra (only the type of the Stokes parameters is declared), compute_jhj (complex declared, real computed), compute_jhr and compute_and_corrupt_vis (the type of the model is declared, that of the gains computed), parallactic_angles (the type of the times is declared), predict_vis (the base visibilities are left out; alone they raise ValueError), im_to_vis (default type) and dirty (UnboundLocalError). (`C130_spectral_model_violated`, `C130_spectra_violated`, `C130_gains_violated`, `C130_jhj_violated`, `C130_im_to_vis_violated`, `C130_dirty_violated`, `C130_parallactic_angles_violated`, `C130_predict_violated`, `C130_base_vis_violated`).
* **C132** predict_vis on the GPU passes the absent arrays to np.result_type, which takes None for float64: in single precision the result has double precision unless all six arrays are given (C132_predict_violated). (`C132_predict_violated`).
* **C133** Proved for phase_delay, feed_rotation, predict_vis and the interpolation of frequencies. It fails for beam_cube_dde and convert, whose generators also check the shape of an argument, which is not in the key: after a call with a good shape, a bad one is not refused. (`C133_beam_violated`, `C133_convert_violated`).
* **C136** Proved for psfs whose peak is at pixel (n - 1, n - 1). With the peak at (n, n), where fftshift puts it, the subtraction misses the source by a pixel: every round adds the same component again and the source stays in the residual. (`C136_centre_violated`).
* **C140** The frequency step is computed as bandwidth / 33 - 1: CDELT3 is wrong for all frequencies, and the jitter scaled with it makes a call with one frequency fail with AssertionError. Success is proved for frequencies that span at least 33 Hz. (`C140_succeeds_violated`, `C140_cdelt_violated`).
* **C141** The change of unit fails: the elimination subtracts a pivot where it should divide by it. The other parts are proved in full over ordered fields. (`C141_unit_violated`).
* **C144** The lower bound of the determinant is an absolute number, so that the fit depends on the scale of weights and fluxes when it acts; the variances count channels of weight zero as data. (`C144_weights_violated`, `C144_zero_weight_violated`, `C144_flux_unit_violated`).
* **C145** Directions beyond the hemisphere are folded onto it: n is never negative. (`C145_angles_violated`).
* **C146** Proved for samples with weights that are not negative, and for frequencies when the channels divide into full bins in the first step. It fails without weights of samples, because a bin with flagged samples then counts as much as a full one, and for frequencies after an incomplete bin. (`C146_unweighted_violated`, `C146_channels_violated`).
* **C147** Coefficients are determined if no mode is listed twice; C147_unique_violated shows that this is needed. np.arctan2 is the argument of a complex number. (`C147_unique_violated`).
* **C148** True exactly up to degree 20. At degree 21 a mode takes the value -21.7 where it should be 1, and from degree 66 on the outermost modes raise ZeroDivisionError. (`C148_raises_violated`, `C148_value_violated`).
* **C151** kron_matmat and kron_tensormat store into float64 arrays: of complex products only the real part is returned. kron_cholesky stores into an array of the type of its argument: the factors of a stack of integer matrices are rounded. (`C151_matmat_violated`, `C151_cholesky_violated`).
* **C152** Intermediate results are stored in arrays of the type of the frequencies. With integer frequencies below 149.9 MHz a Gaussian source is a point source, a beam between two grid frequencies is that of the upper one, and averaged frequencies are rounded down. (`C152_gaussian_violated`, `C152_beam_violated`, `C152_channels_violated`).
* **C158** Fails for every data description but the first: xds_from_table without grouping gives one dataset, and the program indexes the list of datasets with DATA_DESC_ID, so that such data stop it with an IndexError. (`C158_violated`).
* **C159** Needs padding on both axes, at least as wide as the beam, and an even padded last axis without pypocketfft. Fails otherwise: no padding gives an image without pixels, an odd padded last axis without pypocketfft loses a column, and an odd image padded to an even length moves by one pixel. (`C159_moved_violated`, `C159_unpadded_violated`, `C159_odd_violated`).
* **C160** Shape and symmetry hold. Widths fail by the factor (2 ln 2)^(1/4), angles fail as degrees are used as radians, and a beam within one pixel stops with an IndexError. (`C160_width_violated`, `C160_angle_violated`, `C160_one_pixel_violated`).
* **C161** Maps hold for square images and fail for others (axes exchanged); fewer components than processors stop the program with ZeroDivisionError. (`C161_oblong_violated`).
* **C162** Needs a table of one channel, a positive step along the first axis and not exactly one bright pixel. Fails otherwise: a negative step (the usual one) mirrors the image, and a single bright pixel or the usual two-dimensional CHAN_FREQ stop the program. The interpolation of images to other frequencies is not modelled. (`C162_mirror_violated`, `C162_stops_violated`).
* **C163** Needs at least two distinct times and channels, numbers of times, channels and directions that are not all equal, and covariances that the Cholesky factorisation accepts. Fails for a single time or channel (division by zero, so that the factorisation refuses NaN) and for equal numbers (the list of factors becomes one array). (`C163_single_violated`, `C163_sizes_violated`).
* **C164** Simulation holds for one, two and four correlations; the calibration needs four and stops with one or two. (`C164_calibrate_violated`).
* **C165** Needs the m axis to be the second; fails otherwise as the transposition exchanges axes. (`C165_axes_violated`).
* **C166** The files are combined correctly if the prefix has none of the letters searched for, and values lie within the range of the beam. Fails: the axes are exchanged and stretched, beams with a negative step (the usual one) are always refused, and a prefix containing the letters re stops the program. (`C166_directory_violated`, `C166_axes_violated`, `C166_negative_violated`).
* **C167** Needs at most three model columns and rows in order of time. Fails for more than three columns, which are refused as the model is cut into chunks of three directions, and for rows that are not in order of time: some row gets the gains of another time. (`C167_directions_violated`, `C167_unsorted_violated`).
* **C168** Needs rows in order of time: otherwise some row gets the gains of another time. The declared element type is real, as that of the model, while the data are complex. (`C168_unsorted_violated`, `C168_types_violated`).
* **C172** The order matters with the baseline policy rotate, which reads beyond its row. Moves by an odd number of cells fail for visibilities half way between two cells, which go to the even one. Reversal is proved for the unpacked policy; C105 shows that packing does not matter. (`C172_order_violated`, `C172_shift_violated`).
* **C173** A visibility brighter than its model, or several directions, can make the misfit grow; both with concrete calls. (`C173_bright_violated`, `C173_directions_violated`).
* **C175** The full update has no line search and can make the misfit larger; a call with three channels shows it. (`C175_violated`).
* **C176** The beam jumps where neighbouring cells cancel; a cube with values 1 and -1 shows it. (`C176_violated`).
* **C179** Square and padded boxes are centred on a mean rounded towards zero, which depends on the origin when coordinates are negative. (`C179_violated`).
* **C182** Cells agree after the same number of iterations; the stopping rule is common to all cells, so a channel that converges slowly changes the gains of the others. (`C182_violated`).
* **C183** Needs initial phases whose errors differ by less than half a turn. At half a turn calibration does not move: one baseline with data -1 and model 1 keeps its unit gains. (`C183_violated`).
* **C192** Needs initial phases whose errors differ by less than half a turn, as C183; at half a turn the corrected data are the negative of the model. (`C192_violated`).
* **C197** Object files of CUDA C come last, so that the order is that of the sources only if no other file follows a CUDA C file; in Python 3 compiling always raises, also without any CUDA C file. Object names and the compiler of the platform are parameters. (`C197_order_violated`, `C197_python3_violated`).
* **C198** The empty tuple and bytes that are not text raise; all other keys have a bin. (`C198_violated`).
* **C199** Fails for a jinja2 that can be imported but lacks a name that is needed: NotImplementedError. (`C199_old_violated`).
* **C200** Signatures stay, but calls do not work: the substitute passes the function itself as an additional first argument, so every call of a function without *args raises TypeError, and a function decorated without parentheses is lost. Constants use 3.14 for pi. The package decorator is external, its behaviour is stated in the model. (`C200_violated`, `C200_bare_violated`).
* **C201** Proved for regular samples without gaps: grouping, number of rows and intervals in two steps, flags, visibilities, weights and sigmas with weight spectra in two steps of time and channels, and everything for the same width. The times of two steps are means of means, and with gaps the averaged rows are averaged further. (`C201_time_violated`, `C201_gaps_violated`).
* **C202** Over the real numbers. Holds for weights and sigmas of rows and for spectra of both. Weights of rows are not multiplied with the number of averaged channels, so that they no longer fit the averaged samples. (`C202_row_weights_violated`).
* **C204** Over the real numbers, for sources and facets in front of the phase centre. The rotation is the documented one, whose coefficients the code computes but does not apply to u, v and w (C79_violated). (`C79_violated`).
