{"id": "C01", "title": "Channel map is floor division and covers every output channel", "statement": "For chan_bin_size >= 1, averaging maps input channel c to output channel c // chan_bin_size, and the number of output channels is ceil(nchan / chan_bin_size); every output channel receives at least one input channel.", "quantifier": "every channel count and every bin size >= 1", "why_tests_cant": "A test samples a few (nchan, bin) pairs; boundary behaviour must hold for all of them.", "anchors": ["africanus/averaging/time_and_channel_mapping.py: channel_mapper"]}
{"id": "C02", "title": "Row mapping never mixes baselines and fills every output row", "statement": "When time averaging succeeds, every input row is mapped to an output row index in range, every output row receives at least one input row, and two input rows mapped to the same output row have the same (antenna1, antenna2).", "quantifier": "every table of rows (any number, any order, missing baselines/times), every interval and bin width, every flag pattern", "why_tests_cant": "The space of row orders, gaps and flags is unbounded; a mixing bug can hide in one arrangement.", "anchors": ["africanus/averaging/time_and_channel_mapping.py: row_mapper", "africanus/averaging/support.py: unique_baselines, unique_time"]}
{"id": "C03", "title": "Averaged time is the mean and averaged interval the sum of the contributing rows", "statement": "For each output row, the reported time is the arithmetic mean of the times of exactly the input rows mapped to it and the reported interval is the sum of their intervals; hence the total interval is conserved.", "quantifier": "every table of rows, intervals, bin widths and flags for which row_mapper succeeds", "why_tests_cant": "Exact agreement between the returned map and the returned averages must hold for all inputs.", "anchors": ["africanus/averaging/time_and_channel_mapping.py: row_mapper"]}
{"id": "C04", "title": "Output rows are ordered by time", "statement": "The averaged time column returned by row_mapper is non-decreasing; rows of the same time are in the order of the second antenna, then of the first (antenna numbers not negative).", "quantifier": "every input for which row_mapper succeeds (all times below the sentinel)", "why_tests_cant": "Ordering depends on a sort with sentinel padding over an unbounded bl x time grid.", "anchors": ["africanus/averaging/time_and_channel_mapping.py: row_mapper"]}
{"id": "C05", "title": "An averaged row is flagged exactly when all its contributing rows are flagged", "statement": "With flag_row supplied, an output row has flag 1 if every input row mapped to it is flagged and 0 otherwise, and the internal 'unflagged row contributes to flagged output' error is never raised.", "quantifier": "every input table and flag pattern", "why_tests_cant": "The guard in the code says 'this should never happen'; only a proof shows it cannot.", "anchors": ["africanus/averaging/time_and_channel_mapping.py: row_mapper, set_flag_row_factory"]}
{"id": "C06", "title": "Row mapping fails exactly on duplicate (TIME, ANTENNA1, ANTENNA2)", "statement": "row_mapper raises ValueError if and only if two different rows have equal (time, antenna1, antenna2), and it raises no other error (in particular 'out_row >= out_rows' is unreachable) when all averaged times are below the floating point maximum.", "quantifier": "every input table", "why_tests_cant": "Absence of an error over all inputs cannot be sampled.", "anchors": ["africanus/averaging/time_and_channel_mapping.py: row_mapper"]}
{"id": "C07", "title": "Every averaged bin fits into the requested bin width", "statement": "Rows of one baseline that are averaged together (whatever their intervals) span at most time_bin_secs (upper edge of the last sample minus lower edge of the first sample) unless the bin holds a single sample.", "quantifier": "every baseline time series with increasing times", "why_tests_cant": "Depends on the whole history of samples of a baseline.", "anchors": ["africanus/averaging/time_and_channel_mapping.py: row_mapper"]}
{"id": "C08", "title": "Bins after the first keep being filled (averaging does not stop)", "statement": "After one bin of a baseline is closed the following samples should again be grouped up to time_bin_secs: regular samples of width d with bin width k*d should produce ceil(n/k) bins.", "quantifier": "every number of samples n, bin factor k, sample width d", "why_tests_cant": "The behaviour depends on state carried from bin to bin over an unbounded series.", "anchors": ["africanus/averaging/time_and_channel_mapping.py: row_mapper (bin_low)"]}
{"id": "C09", "title": "unique returns the sorted distinct values and correct inverse, index and counts", "statement": "The unique helper returns strictly increasing values; uniques[inverse[i]] = data[i] for every i; index[k] is the first position holding uniques[k]; counts[k] is the number of occurrences; counts sum to the length.", "quantifier": "every array of any length", "why_tests_cant": "Array contents and length are unbounded.", "anchors": ["africanus/averaging/support.py: _unique_internal, unique_time"]}
{"id": "C10", "title": "Packing two antenna numbers in one 64-bit integer identifies baselines exactly", "statement": "Two rows receive the same baseline index iff both antenna1 and antenna2 agree, for all int32 antenna numbers including negative ones, and unpacking the unique values gives the original antenna pairs.", "quantifier": "all pairs of int32 antenna numbers, arrays of any length", "why_tests_cant": "2^64 pairs.", "anchors": ["africanus/averaging/support.py: unique_baselines"]}
{"id": "C11", "title": "Row averages are sums / means over matching rows", "statement": "For each output row, uvw and time_centroid are means, exposure and weight are sums over exactly those mapped rows whose flag state matches the output row's flag state (flag values 0/1), and antenna numbers are those of the baseline; no division by zero occurs.", "quantifier": "every table, flag pattern in {0,1} and mapping produced by row_mapper", "why_tests_cant": "Unbounded tables and flag patterns.", "anchors": ["africanus/averaging/time_and_channel_avg.py: row_average"]}
{"id": "C12", "title": "flag_row values other than 0 and 1", "statement": "The documentation says positive flag_row values indicate a flagged row; averaging should therefore give the same result when a flag value 1 is replaced by another positive value.", "quantifier": "all positive flag values", "why_tests_cant": "Tests only use 0 and 1.", "anchors": ["africanus/averaging/time_and_channel_avg.py: matching_flag_factory", "africanus/averaging/time_and_channel_mapping.py: is_flagged_factory"]}
{"id": "C13", "title": "Averaged sigma follows weighted error propagation", "statement": "The averaged sigma of an output row is sqrt(sum(sigma^2 w^2)) / sum(w) over matching rows (w the supplied weights, or 1 without weights), and is 0 when all those weights are 0.", "quantifier": "every table, weights, sigmas, flags", "why_tests_cant": "Unbounded tables of real numbers.", "anchors": ["africanus/averaging/time_and_channel_avg.py: row_average, sigma_spectrum_adder"]}
{"id": "C14", "title": "Averaged visibilities are weighted means of samples with the same flag state", "statement": "Each averaged visibility is sum(w v)/sum(w) over the samples of its bin that are unflagged if the bin has an unflagged sample, otherwise over all (flagged) samples, rows entering a bin according to the flag state of the output row; flagged samples never influence a bin that has an unflagged sample; when all those weights are zero the output is 0.", "quantifier": "every table, row/channel mapping, weights, flags", "why_tests_cant": "A contamination bug can appear only for particular flag/weight/mapping combinations.", "anchors": ["africanus/averaging/time_and_channel_avg.py: row_chan_average, vis_add, normalisers"]}
{"id": "C15", "title": "Averaged flags are the conjunction of the flags in the bin", "statement": "A (row, chan, corr) output sample is flagged iff every contributing input sample is flagged (flag_row being 0 or 1 where it selects the contributions), and the 'Zero-filled bin' error is never raised for maps that cover all output bins.", "quantifier": "every flag cube, every row/channel map that covers its outputs", "why_tests_cant": "Unreachability of an error over all inputs.", "anchors": ["africanus/averaging/time_and_channel_avg.py: row_chan_average"]}
{"id": "C16", "title": "Weight spectra are conserved by averaging", "statement": "The averaged weight spectrum of a bin is the sum of the weights of the samples that contribute to it; with no flags the total weight is conserved.", "quantifier": "every weight cube and mapping", "why_tests_cant": "Conservation over all inputs.", "anchors": ["africanus/averaging/time_and_channel_avg.py: row_chan_average"]}
{"id": "C17", "title": "Channel metadata averages: mean frequency, summed widths", "statement": "The averaged channel frequency is the mean of the bin's frequencies; channel width, effective bandwidth and resolution are sums over the bin; totals are conserved and no division by zero occurs.", "quantifier": "every channel count, bin size >= 1 and spectra", "why_tests_cant": "All sizes.", "anchors": ["africanus/averaging/time_and_channel_avg.py: chan_average"]}
{"id": "C18", "title": "merge_flags is consistent", "statement": "With both flag_row and flag supplied, merging succeeds exactly when flag_row[r] says flagged iff all of row r's flags are set, and returns the input; with only flag supplied the result marks exactly the fully flagged rows; with only flag_row it returns it; with neither it returns None.", "quantifier": "every flag_row and flag cube", "why_tests_cant": "All flag patterns of all sizes.", "anchors": ["africanus/averaging/time_and_channel_avg.py: merge_flags"]}
{"id": "C19", "title": "Declared dask channel chunks equal the computed chunk lengths", "statement": "For every chunking of the channel axis, the length computed by the averaging kernel for each channel chunk equals the declared chunk length of the lazily evaluated array (for row-chan data and for channel metadata).", "quantifier": "every chunking and bin size", "why_tests_cant": "Declared metadata vs. computed length must agree for all chunkings.", "anchors": ["africanus/averaging/dask.py: chan_metadata, row_chan_average, chan_average, time_and_channel"]}
{"id": "C20", "title": "Dask averaging without any channel array", "statement": "Averaging through the dask interface with only row-based columns returns a result with the channel outputs absent.", "quantifier": "all inputs without row-chan and chan arrays", "why_tests_cant": "Error path over a whole class of calls.", "anchors": ["africanus/averaging/dask.py: chan_average (line 222), chan_metadata", "africanus/averaging/time_and_channel_avg.py: ChannelAverageOutput"]}
{"id": "C21", "title": "corrupt_vis applies G_p M G_q^H summed over directions", "statement": "In all three modes the corrupted visibility of each row and channel covered by a time bin is the sum over directions of J_p M J_q^H with the Jones matrices of the row's time bin and antennas (diagonal modes being the diagonal-matrix case).", "quantifier": "every number of times, rows, channels, directions, antennas; all complex values", "why_tests_cant": "All shapes and values.", "anchors": ["africanus/calibration/utils/corrupt_vis.py: corrupt_vis, jones_mul_factory"]}
{"id": "C22", "title": "correct_vis inverts corrupt_vis", "statement": "For one direction and invertible Jones matrices, correct_vis(corrupt_vis(model)) equals the model on unflagged samples, in all three modes; samples with any flagged correlation are set to zero; more than one direction raises ValueError.", "quantifier": "every shape, all invertible Jones, all flag patterns", "why_tests_cant": "Round trip over all values.", "anchors": ["africanus/calibration/utils/correct_vis.py: correct_vis, jones_inverse_mul_factory", "africanus/calibration/utils/corrupt_vis.py"]}
{"id": "C23", "title": "residual_vis is the data minus the corrupted model", "statement": "On unflagged samples residual_vis(vis, model) = vis - corrupt_vis(model); on flagged samples it is 0; hence the residual of corrupted data is zero.", "quantifier": "every shape, values and flags, all modes", "why_tests_cant": "Agreement of two separately coded kernels for all inputs.", "anchors": ["africanus/calibration/utils/residual_vis.py", "africanus/calibration/utils/corrupt_vis.py"]}
{"id": "C24", "title": "Row chunk offsets do not change calibration results", "statement": "Shifting time_bin_indices by a constant offset (as happens when a chunk does not start at row 0 of the full table) does not change corrupt/correct/residual results, so processing row chunks separately and concatenating equals processing all rows at once.", "quantifier": "every offset, every time/row chunking produced by chunkify_rows", "why_tests_cant": "All chunkings.", "anchors": ["africanus/calibration/utils/corrupt_vis.py: corrupt_vis", "africanus/calibration/utils/dask.py", "africanus/calibration/utils/utils.py: chunkify_rows"]}
{"id": "C25", "title": "check_type accepts exactly the documented axis counts", "statement": "check_type returns DIAG_DIAG/DIAG/FULL exactly for the (vis, jones) axis counts documented and raises the documented error otherwise.", "quantifier": "all axis counts and vis_type strings", "why_tests_cant": "All naturals and strings.", "anchors": ["africanus/calibration/utils/utils.py: check_type"]}
{"id": "C26", "title": "chunkify_rows partitions rows at time boundaries", "statement": "Row chunks sum to the number of rows, each chunk holds utimes_per_chunk unique times (the last possibly fewer), time_bin_indices/time_bin_counts delimit, for time-sorted tables, exactly the rows of each unique time.", "quantifier": "every time column and chunk size >= 1", "why_tests_cant": "All lengths.", "anchors": ["africanus/calibration/utils/utils.py: chunkify_rows"]}
{"id": "C27", "title": "Phase-only normal equations are consistent", "statement": "compute_jhj_and_jhr returns the same arrays as compute_jhj and compute_jhr computed separately (flagged samples excluded), jhj is real and non-negative, and jhr vanishes when the residual vanishes.", "quantifier": "all visibilities, models, gains, flags, shapes", "why_tests_cant": "Equality of separately coded kernels for all inputs.", "anchors": ["africanus/calibration/phase_only/phase_only.py: compute_jhj_and_jhr, compute_jhj, compute_jhr"]}
{"id": "C28", "title": "Phase-only jhj and jhr are the Gauss-Newton normal equations", "statement": "For unit-weight samples jhj is the diagonal of J^H J and jhr is J^H r, where J is the derivative of the model visibilities exp(i phi_p) M exp(-i phi_q) with respect to the gain phases.", "quantifier": "all phases, models, antennas, times, channels", "why_tests_cant": "Analytic identity over the reals.", "anchors": ["africanus/calibration/phase_only/phase_only.py: compute_jhj_and_jhr, jacobian_factory"]}
{"id": "C29", "title": "Phase-only Gauss-Newton keeps unit-modulus gains and bounded iterations", "statement": "Every gain returned after at least one iteration has modulus 1, at most maxiter iterations are performed, and a call that performs no iteration fails instead of returning gains.", "quantifier": "all data, tolerances and maxiter", "why_tests_cant": "Loop invariant over an unbounded number of iterations.", "anchors": ["africanus/calibration/phase_only/phase_only.py: gauss_newton"]}
{"id": "C30", "title": "compute_and_corrupt_vis equals predicting then corrupting", "statement": "compute_and_corrupt_vis(model, uvw, freq, jones, lm) equals corrupt_vis applied to the model with the fringe exp(...)/n applied per source.", "quantifier": "all sources, rows, channels, modes", "why_tests_cant": "Agreement of two separately coded kernels for all inputs.", "anchors": ["africanus/calibration/utils/compute_and_corrupt_vis.py", "africanus/calibration/utils/corrupt_vis.py"]}
{"id": "C31", "title": "Phase delays are unit-modulus, 1 at the phase centre and conjugate under baseline reversal", "statement": "phase_delay has modulus 1 for every source on or inside the unit disc, equals 1 at l=m=0 , negating uvw or switching convention conjugates it, it is multiplicative in uvw, and an unknown convention raises ValueError.", "quantifier": "all lm, uvw, frequencies, conventions", "why_tests_cant": "Real-valued identity.", "anchors": ["africanus/rime/phase.py: phase_delay", "africanus/rime/jax/phase.py: phase_delay"]}
{"id": "C32", "title": "Feed rotations are unitary and compose additively", "statement": "feed_rotation(pa) is a unitary matrix for both feed types, feed_rotation(0) is the identity, and feed_rotation(a) feed_rotation(b) = feed_rotation(a+b); unknown feed type raises ValueError.", "quantifier": "all parallactic angles", "why_tests_cant": "Real-valued identity.", "anchors": ["africanus/rime/feeds.py: feed_rotation"]}
{"id": "C33", "title": "transform_sources rotates source coordinates", "statement": "Rotating source coordinates by the parallactic angle (without pointing errors and with unit scaling) preserves the distance of the source to the beam centre.", "quantifier": "all sources and angles", "why_tests_cant": "Fails only away from special angles used in tests.", "anchors": ["africanus/rime/transform.py: transform_sources"]}
{"id": "C34", "title": "predict_vis evaluates the RIME", "statement": "For every allowed combination of supplied terms and Jones kinds, predict_vis returns G_p (B + sum_s E_p X_s E_q^H) G_q^H for each row and channel, absent terms being identities (or zero for the missing sky part).", "quantifier": "all combinations of optional inputs, shapes and values", "why_tests_cant": "All shapes and values; 2^n combinations of optional terms.", "anchors": ["africanus/rime/predict.py: predict_vis, jones_mul_factory, sum_coherencies_factory, apply_dies, add_coh_factory, output_factory"]}
{"id": "C35", "title": "predict_vis argument checking", "statement": "predict_vis rejects with ValueError exactly these inputs: only one of a left/right pair of DDEs or DIEs supplied, an array with a wrong number of axes, arrays of differing kinds (one correlation axis beside two), or nothing supplied; all other combinations are accepted and the kernel is chosen by the common kind.", "quantifier": "all combinations of optional arguments and axis counts", "why_tests_cant": "All combinations.", "anchors": ["africanus/rime/predict.py: predict_checks, _get_jones_types"]}
{"id": "C36", "title": "Source chunking does not change predicted visibilities", "statement": "Splitting the source axis into any chunks, predicting each chunk and adding the parts (serially in a chain or as a parallel tree) gives the same direction-dependent sum as one call with all sources; gains and base visibilities are applied exactly once.", "quantifier": "every chunking of sources, times, rows, channels", "why_tests_cant": "All chunkings and graph shapes.", "anchors": ["africanus/rime/dask_predict.py: predict_vis, LinearReduction, linear_reduction, parallel_reduction, apply_dies"]}
{"id": "C37", "title": "The chain-reduction graph reports its own size correctly", "statement": "The mapping used as a dask graph layer for the chained source reduction has len() equal to the number of keys it iterates.", "quantifier": "all block counts", "why_tests_cant": "All block counts.", "anchors": ["africanus/rime/dask_predict.py: LinearReduction.__len__, __iter__, _create_dict"]}
{"id": "C38", "title": "Swapping the antennas of every baseline conjugate-transposes predictions", "statement": "If antenna1 and antenna2 (and the corresponding Jones arrays) are swapped and source coherencies and base visibilities are replaced by their Hermitian conjugates, the predicted visibilities are the Hermitian conjugates of the original ones.", "quantifier": "all inputs with full 2x2 or diagonal Jones", "why_tests_cant": "Symmetry over all values.", "anchors": ["africanus/rime/predict.py: predict_vis"]}
{"id": "C39", "title": "apply_gains is predict_vis with base visibilities only", "statement": "apply_gains with identity gains returns its input; applying gains G then inverse gains returns the input; it equals G_p V G_q^H.", "quantifier": "all shapes and values", "why_tests_cant": "All values.", "anchors": ["africanus/rime/predict.py: apply_gains"]}
{"id": "C40", "title": "wsclean_predict is additive over sources and handles source types", "statement": "The predicted visibilities are the sum over sources of flux x phase x shape; the result for a concatenated source list is the sum of the parts; a Gaussian of zero extent equals a point source; unknown source types raise ValueError.", "quantifier": "all source lists", "why_tests_cant": "All list lengths and values.", "anchors": ["africanus/rime/wsclean_predict.py: wsclean_predict_impl"]}
{"id": "C41", "title": "Frequency grid interpolation brackets the frequency", "statement": "freq_grid_interp finds, for a strictly increasing beam frequency grid, grid positions bracketing each frequency inside the grid with weights in [0,1] that reproduce the frequency by linear interpolation, and scales 1 inside / freq ratio outside.", "quantifier": "all sorted grids of any length >= 2 and all frequencies", "why_tests_cant": "All grid sizes; binary search invariants.", "anchors": ["africanus/rime/fast_beam_cubes.py: freq_grid_interp"]}
{"id": "C42", "title": "Beam interpolation reads inside the cube and reproduces constants and grid values", "statement": "beam_cube_dde never reads outside the beam cube, its eight weights sum to one and are non-negative inside the cube, and on a grid point it returns the stored beam value.", "quantifier": "all beams, sources, frequencies, pointing errors, scalings", "why_tests_cant": "Memory-safety and real-valued identity.", "anchors": ["africanus/rime/fast_beam_cubes.py: beam_cube_dde"]}
{"id": "C43", "title": "Noll indices enumerate the Zernike modes exactly once", "statement": "The single-index to (n, m) conversion is a bijection from the naturals onto {(n,m): |m| <= n, n - m even}; zernike values vanish outside the unit disc; the radial polynomial's internal error branch is unreachable.", "quantifier": "all indices", "why_tests_cant": "Unbounded index.", "anchors": ["africanus/rime/zernike.py: _convert_index, zernike, zernike_rad"]}
{"id": "C44", "title": "Stokes to correlation conversion round-trips", "statement": "Converting Stokes to linear (or circular) correlations and back returns the original Stokes parameters, and vice versa; an all-unpolarised source gives equal parallel hands and zero cross hands.", "quantifier": "all real Stokes values; all coherency values with conjugate cross hands", "why_tests_cant": "All values.", "anchors": ["africanus/model/coherency/conversion.py: stokes_conv, convert"]}
{"id": "C45", "title": "Conversion rejects missing inputs", "statement": "convert raises MissingConversionInputs iff for some requested known output none of the alternatives has all of its inputs present; it never uses an input that is not in the schema.", "quantifier": "all input and output schemas", "why_tests_cant": "All lists of correlation names.", "anchors": ["africanus/model/coherency/conversion.py: convert_setup"]}
{"id": "C46", "title": "Correlation schemas flatten to distinct in-bounds indices", "statement": "For every regular nested schema, each element gets a distinct index tuple within the reported shape, and a schema is rejected exactly when an element lies outside the shape of its first branch (every list on a level must have the same length and all leaves the same depth).", "quantifier": "all nested schemas", "why_tests_cant": "All nested lists.", "anchors": ["africanus/model/coherency/conversion.py: _element_indices_and_shape"]}
{"id": "C47", "title": "Spectral models reproduce the reference flux", "statement": "At freq = ref_freq spectral_model returns the source's Stokes value for base 'std' (and for log/log10 bases) for any spectral indices; frequency independence for zero spectral indices; 'std' is a power law product.", "quantifier": "all fluxes, spectral indices, numbers of terms, frequencies", "why_tests_cant": "All values.", "anchors": ["africanus/model/spectral/spec_model.py: spectral_model"]}
{"id": "C48", "title": "WSClean spectra: polynomial and logarithmic models", "statement": "spectra returns I + sum_k c_k (nu/nu0 - 1)^(k+1) for ordinary and exp(log I + sum_k c_k log(nu/nu0)^(k+1)) for logarithmic polynomials; at nu0 it returns I; exactly a non-positive flux with a log polynomial raises ValueError (the coefficients may have any sign).", "quantifier": "all fluxes, coefficients, frequencies", "why_tests_cant": "All values and coefficient counts.", "anchors": ["africanus/model/wsclean/spec_model.py: ordinary_spectral_model, log_spectral_model, spectra"]}
{"id": "C49", "title": "WSClean source files are parsed positionally", "statement": "Loading a source list skips blank and comment lines before the header and gives, for each line after the header, one source whose columns are matched to the header names, right ascension hh:mm:ss and declination dd.mm.ss convert to radians with the sign of the leading field applied to all parts, a field in brackets may contain commas, an empty field takes its column's default, and malformed lines (wrong number of fields, fields that are not of the column's form) are rejected.", "quantifier": "all file contents", "why_tests_cant": "All strings.", "anchors": ["africanus/model/wsclean/file_model.py: load, _hour_converter, _deg_converter, arcsec2rad, _parse_header, _parse_col_descriptor, _parse_lines"]}
{"id": "C50", "title": "Gaussian shape amplitudes", "statement": "gaussian_shape is in (0,1], is 1 at zero baseline and for zero extent, symmetric under uv reversal, and independent of the position angle for circular sources.", "quantifier": "all uvw, frequencies, shape parameters", "why_tests_cant": "Real-valued identity.", "anchors": ["africanus/model/shape/gaussian_shape.py: gaussian"]}
{"id": "C51", "title": "Spectral index fit: exact power laws are fixed points", "statement": "When the data of a component follow I0 (nu/nu0)^alpha and the starting point is (alpha, I0), the fit returns it unchanged after one iteration; at most maxiter iterations are done; the returned variances are non-negative for non-negative determinant.", "quantifier": "all frequencies, weights, spectra", "why_tests_cant": "All values.", "anchors": ["africanus/model/spi/component_spi.py: _fit_spi_components_impl"]}
{"id": "C52", "title": "aggregate_chunks coarsens chunks without losing elements", "statement": "aggregate_chunks output chunks sum to the input's total in every dimension, all dimensions get the same number of output chunks, each output chunk is a sum of a non-empty run of consecutive input chunks, no output chunk exceeds max_chunks when no input chunk does, and mismatched inputs raise ValueError.", "quantifier": "all chunk tuples and maxima", "why_tests_cant": "All lengths and values.", "anchors": ["africanus/util/shapes.py: aggregate_chunks"]}
{"id": "C53", "title": "corr_shape decision table", "statement": "corr_shape returns (ncorr,) for 'flat'; for 'matrix' it returns (1,), (2,) and (2, 2) for 1, 2 and 4 correlations and raises ValueError for other numbers; any other shape string raises ValueError.", "quantifier": "all ncorr and strings", "why_tests_cant": "All integers and strings.", "anchors": ["africanus/util/shapes.py: corr_shape"]}
{"id": "C54", "title": "CASA Stokes type maps are mutually inverse", "statement": "STOKES_TYPE_MAP and STOKES_ID_MAP are inverse bijections over all known Stokes types.", "quantifier": "the whole table", "why_tests_cant": "Whole-table property.", "anchors": ["africanus/util/casa_types.py: STOKES_TYPES, STOKES_TYPE_MAP, STOKES_ID_MAP"]}
{"id": "C55", "title": "beam_grids returns one (l, m, freq) grid each or raises", "statement": "beam_grids succeeds exactly when a complete header has an l, m and frequency axis (the last one of each type is used, ValueError otherwise), its grids follow the FITS formula (R - CRPIX) * CDELT + CRVAL, in radians for degree axes, with the requested sign, and a leading '-' exactly negates the grid. A grid given point by point in the header is used as it is.", "quantifier": "all headers", "why_tests_cant": "All headers.", "anchors": ["africanus/util/beams.py: beam_grids, axis_and_sign, BeamAxes"]}
{"id": "C56", "title": "beam_filenames expands schemas completely", "statement": "beam_filenames produces for each distinct correlation type exactly one (re, im) filename pair, under its lower-case name, and substitutes each template variable of the schema; unknown correlation types and ill-formed schemas or unknown variables raise ValueError.", "quantifier": "all schemas and correlations", "why_tests_cant": "All strings.", "anchors": ["africanus/util/beams.py: beam_filenames, FitsFilenameTemplate"]}
{"id": "C57", "title": "memoize_on_key computes each key once under concurrency", "statement": "Under every interleaving of any number of threads the memoised function is evaluated at most once successfully per key, all callers with the same key get the same value, and a failing evaluation is not cached.", "quantifier": "all schedules, any number of threads and calls", "why_tests_cant": "Schedules are unbounded.", "anchors": ["africanus/util/code.py: memoize_on_key"]}
{"id": "C58", "title": "SingletonMixin creates one instance under concurrency", "statement": "Under every interleaving of any number of threads at most one instance is ever created for a class and all callers receive it, for a class whose other ancestors' instance() is not called and whose instances are truthy.", "quantifier": "all schedules, any number of threads", "why_tests_cant": "Schedules are unbounded.", "anchors": ["africanus/util/code.py: SingletonMixin.instance"]}
{"id": "C59", "title": "SingletonMixin subclasses are independent", "statement": "Calling instance() on a subclass returns an instance of the subclass even when a parent's instance was created first.", "quantifier": "all class hierarchies and call orders", "why_tests_cant": "All call histories.", "anchors": ["africanus/util/code.py: SingletonMixin"]}
{"id": "C60", "title": "requires_optional only fails when called", "statement": "Defining a decorated function fails only for requirements of another type (TypeError), when an import raises something other than ImportError, which is passed on, or when all named packages import and import errors were given (ImportError, as documented); otherwise it yields the undecorated function iff all packages can be imported, and else a function whose call raises MissingPackageException naming exactly the missing packages (or skips the test under pytest unless forced; a stub on readthedocs).", "quantifier": "all requirement lists and availability", "why_tests_cant": "All lists.", "anchors": ["africanus/util/requirements.py: requires_optional"]}
{"id": "C61", "title": "Command-line assignments evaluate only literals and whitelisted calls", "statement": "parse_python_assigns returns the variables assigned in order with later ones overriding, only evaluates calls to whitelisted builtins, raises for everything else and requires matching tuple lengths.", "quantifier": "all programs in the input grammar", "why_tests_cant": "All syntax trees.", "anchors": ["africanus/util/cmdline.py: parse_python_assigns"]}
{"id": "C62", "title": "CUDA grid covers the data", "statement": "The computed grid of blocks covers every data element and has no superfluous block in any dimension.", "quantifier": "all data and block sizes", "why_tests_cant": "All sizes.", "anchors": ["africanus/util/cuda.py: grids"]}
{"id": "C63", "title": "register_assign_cycles produces each rotation as disjoint cycles", "statement": "The cycles emitted for a rotation by `case` of N registers perform exactly the rotation when executed in order with one temporary, every index appears in at most one cycle, and the internal assertion never fails.", "quantifier": "all N and cases", "why_tests_cant": "All N.", "anchors": ["africanus/util/jinja2.py: register_assign_cycles"]}
{"id": "C64", "title": "Progress formatting and counting", "statement": "format_time decomposes a duration exactly into units; task counts never exceed the totals under every order of callbacks.", "quantifier": "all durations and histories", "why_tests_cant": "Unbounded.", "anchors": ["africanus/util/dask_util.py: format_time, TaskData, EstimatingProgressBar"]}
{"id": "C65", "title": "kron_matvec equals multiplication with the Kronecker product", "statement": "kron_matvec(A, b) = (A_0 (x) A_1 (x) ... (x) A_{D-1}) b for every list of square matrices, and kron_tensorvec likewise for rectangular ones.", "quantifier": "any number of factors of any sizes", "why_tests_cant": "All sizes.", "anchors": ["africanus/linalg/kronecker_tools.py: kron_matvec, kron_tensorvec, kron_matmat, kron_tensormat, kron_N"]}
{"id": "C66", "title": "Kronecker Cholesky factors", "statement": "kron_cholesky applied to factors gives factors whose Kronecker product L satisfies L L^T = K when each factor has a Cholesky factorisation.", "quantifier": "any number of factors of any sizes", "why_tests_cant": "All sizes.", "anchors": ["africanus/linalg/kronecker_tools.py: kron_cholesky"]}
{"id": "C67", "title": "Membership of boxes and convex hulls is exact on integer points", "statement": "For a bounding box, `point in box` is true exactly for integer points with xl <= x <= xu and yl <= y <= yu; for a convex hull it is true exactly for the integer points of the convex hull, as a set of the plane, of the given points, and the mask of a hull lists each of these points once.", "quantifier": "all boxes and points", "why_tests_cant": "All integers.", "anchors": ["africanus/linalg/geometry.py: BoundingBox, BoundingConvexHull.__contains__"]}
{"id": "C68", "title": "SplitBox partitions a bounding box", "statement": "Splitting a box into n x n boxes gives boxes whose pixels partition the pixels of the original box.", "quantifier": "all boxes and n", "why_tests_cant": "All sizes.", "anchors": ["africanus/linalg/geometry.py: BoundingBoxFactory.SplitBox"]}
{"id": "C69", "title": "PadBox contains the original box and has the requested size", "statement": "Padding a box to a larger desired size gives a box of (at least) the desired size that contains the original box.", "quantifier": "all boxes and desired sizes", "why_tests_cant": "All sizes.", "anchors": ["africanus/linalg/geometry.py: BoundingBoxFactory.PadBox"]}
{"id": "C70", "title": "AxisAlignedBoundingBox contains the hull", "statement": "The axis-aligned bounding box contains every vertex of the hull; with enforce_odd the box has odd side lengths and exceeds the tight box by at most one pixel per dimension.", "quantifier": "all hulls", "why_tests_cant": "All integer vertex sets.", "anchors": ["africanus/linalg/geometry.py: BoundingBoxFactory.AxisAlignedBoundingBox"]}
{"id": "C71", "title": "normalize_masks is a partition of unity", "statement": "After normalisation the weights of all regions covering a (non-negative) pixel sum to one.", "quantifier": "all collections of regions", "why_tests_cant": "All collections.", "anchors": ["africanus/linalg/geometry.py: BoundingConvexHull.normalize_masks"]}
{"id": "C72", "title": "overlaps_with never misses a shared point", "statement": "If two hulls share a point, overlaps_with returns True; and overlaps_with is symmetric.", "quantifier": "all pairs of convex polygons", "why_tests_cant": "All polygons.", "anchors": ["africanus/linalg/geometry.py: BoundingConvexHull.overlaps_with"]}
{"id": "C73", "title": "project_regions accumulates region data", "statement": "Projecting regional data of several boxes onto an image gives at every pixel the sum of the regions' contributions at that pixel; extracting and projecting a partition returns the image.", "quantifier": "all images and boxes", "why_tests_cant": "All sizes.", "anchors": ["africanus/linalg/geometry.py: BoundingBox.project_regions, BoundingConvexHull.regional_data"]}
{"id": "C74", "title": "Packed convolution kernels hold the same taps", "statement": "unpack_kernel(pack_kernel(K)) = K for every kernel with odd width and oversampling, and the packed lookup used in gridding reads the tap that the unpacked lookup reads.", "quantifier": "all widths and oversampling factors", "why_tests_cant": "All sizes.", "anchors": ["africanus/gridding/perleypolyhedron/kernels.py: pack_kernel, unpack_kernel", "africanus/gridding/perleypolyhedron/policies/convolution_policies.py"]}
{"id": "C75", "title": "Gridding Stokes policies round-trip", "statement": "For every supported pair of stokes->correlation and correlation->stokes policies converting back and forth is the identity on the Stokes value.", "quantifier": "all supported policies and values", "why_tests_cant": "All values.", "anchors": ["africanus/gridding/perleypolyhedron/policies/stokes_conversion_policies.py"]}
{"id": "C76", "title": "Gridding is linear and degridding is its transpose", "statement": "The un-normalised gridder output is linear in the visibilities, and grid and degrid kernels with the same taps are transposes of each other.", "quantifier": "all visibilities, grids, taps", "why_tests_cant": "All values.", "anchors": ["africanus/gridding/perleypolyhedron/gridder.py", "africanus/gridding/perleypolyhedron/degridder.py", "africanus/gridding/perleypolyhedron/policies/convolution_policies.py"]}
{"id": "C77", "title": "Gridding row chunks through dask gives the grid of all rows", "statement": "Gridding through the dask interface with rows split in chunks gives the same grid as gridding all rows at once.", "quantifier": "all row chunkings", "why_tests_cant": "All chunkings.", "anchors": ["africanus/gridding/perleypolyhedron/dask.py: gridder"]}
{"id": "C78", "title": "Phase rotation policies are inverse to each other", "statement": "Rotating a visibility to a new phase centre with one sign and back with the other sign returns the original visibility, and preserves its modulus.", "quantifier": "all phase centres, uvw, wavelengths", "why_tests_cant": "All values.", "anchors": ["africanus/gridding/perleypolyhedron/policies/phase_transform_policies.py: phase_rotate"]}
{"id": "C79", "title": "Baseline rotation policy is an orthogonal rotation", "statement": "Rotating uvw to a new phase centre preserves baseline length and is the identity if the centre does not change.", "quantifier": "all uvw and centres", "why_tests_cant": "All values.", "anchors": ["africanus/gridding/perleypolyhedron/policies/baseline_transform_policies.py: uvw_rotate"]}
{"id": "C80", "title": "Streamed gridding grids every row block once", "statement": "For every number of row blocks and streams, the graph used for the nifty gridder grids every row block exactly once and the final result is the sum over all blocks.", "quantifier": "all numbers of row blocks and streams >= 1", "why_tests_cant": "All block counts.", "anchors": ["africanus/gridding/nifty/dask.py: GridStreamReduction, FinalGridReduction"]}
{"id": "C81", "title": "wgridder residual equals dirty minus Hessian", "statement": "residual(image, vis) equals dirty(vis) - hessian(image), with imaging bands mapped to the same channel ranges, and summing per-row-chunk results equals processing all rows.", "quantifier": "all images, visibilities, band layouts, row chunkings", "why_tests_cant": "All values and chunkings.", "anchors": ["africanus/gridding/wgridder/im2residim.py", "africanus/gridding/wgridder/vis2im.py", "africanus/gridding/wgridder/hessian.py", "africanus/gridding/wgridder/im2vis.py"]}
{"id": "C82", "title": "estimate_cell_size satisfies the Nyquist criterion", "statement": "The returned cell sizes satisfy cell <= 1/(2 factor * max|uv| in wavelengths) , positive for positive inputs, and the image-size check rejects according to the documentation.", "quantifier": "all uv extents, wavelengths, factors", "why_tests_cant": "All values.", "anchors": ["africanus/gridding/util.py: estimate_cell_size"]}
{"id": "C83", "title": "Hogbom CLEAN preserves data: residual plus convolved model equals dirty", "statement": "After any number of iterations residual(x) + sum_p model(p) psf(x - p + centre) = dirty(x), and the input dirty image is unchanged.", "quantifier": "all images, psfs, gains, thresholds, iteration counts", "why_tests_cant": "Loop invariant over unbounded iterations.", "anchors": ["africanus/deconv/hogbom/clean.py: hogbom_clean, update_residual"]}
{"id": "C84", "title": "Hogbom CLEAN performs at most niter iterations", "statement": "At most niter components are subtracted and the loop ends with |peak| <= threshold or the iteration limit.", "quantifier": "all images and limits", "why_tests_cant": "Unbounded iterations.", "anchors": ["africanus/deconv/hogbom/clean.py: hogbom_clean"]}
{"id": "C85", "title": "Peak finding returns the maximum", "statement": "find_peak returns the position of a pixel whose value is the largest in the residual; CLEAN should find the largest absolute value.", "quantifier": "all images", "why_tests_cant": "All images.", "anchors": ["africanus/deconv/hogbom/clean.py: find_peak"]}
{"id": "C86", "title": "im_to_vis and vis_to_im are adjoint", "statement": "For every real image and unflagged visibilities, <im_to_vis(image), vis> = <image, vis_to_im(vis)> (real parts), both are linear, flagged samples do not contribute, unknown convention raises ValueError.", "quantifier": "all images, visibilities, uvw, lm, frequencies", "why_tests_cant": "All values.", "anchors": ["africanus/dft/kernels.py: im_to_vis, vis_to_im"]}
{"id": "C87", "title": "radec <-> lmn round trips", "statement": "radec_to_lm followed by lm_to_radec returns the same direction on the hemisphere around the phase centre, lm_to_radec followed by radec_to_lm returns (l,m) for l^2+m^2 <= 1, l^2+m^2+n^2 = 1, and the phase centre maps to (0,0,1).", "quantifier": "all directions and phase centres", "why_tests_cant": "Real-valued identity.", "anchors": ["africanus/coordinates/coordinates.py: radec_to_lmn, radec_to_lm, lmn_to_radec, lm_to_radec"]}
{"id": "C88", "title": "abs_diff and the squared-exponential kernel", "statement": "abs_diff(x, x) is symmetric with zero diagonal; the kernel matrix is symmetric, has sigma_f^2 on the diagonal and entries in (0, sigma_f^2].", "quantifier": "all point sets", "why_tests_cant": "All sizes and values.", "anchors": ["africanus/gps/kernels.py: exponential_squared", "africanus/gps/utils.py: abs_diff"]}
{"id": "C89", "title": "Spline tridiagonal solver solves the system", "statement": "The tridiagonal solver used for spline coefficients returns the solution of the tridiagonal system.", "quantifier": "all systems", "why_tests_cant": "All sizes and values.", "anchors": ["africanus/averaging/splines.py: solve_trid_system"]}
{"id": "C90", "title": "The number of channels and correlations is consistent", "statement": "The channel and correlation extents used for averaging are those of every supplied array; ValueError is raised exactly when two supplied arrays disagree on one of them.", "quantifier": "all combinations of supplied arrays with positive extents", "why_tests_cant": "2^k combinations of optional arrays and all extents.", "anchors": ["africanus/averaging/time_and_channel_avg.py: chan_corrs"]}
{"id": "C91", "title": "The generated warp transpose transposes", "statement": "The code generated by the warp_transpose macro for a length that is a power of two leaves in register r of thread c what register c of thread r held, for every content, and rendering it for any other length fails.", "quantifier": "all lengths and register contents", "why_tests_cant": "All lengths and values.", "anchors": ["africanus/rime/cuda/macros.j2: warp_transpose", "africanus/util/jinja2.py: register_assign_cycles"]}
{"id": "C92", "title": "The filled mask follows the sparse mask", "statement": "Whatever was done to a region before, the filled mask that is read is the grid of the current sparse mask and weights.", "quantifier": "all regions and histories of reads, assignments, normalisations and invalidations", "why_tests_cant": "All histories of operations.", "anchors": ["africanus/linalg/geometry.py: BoundingConvexHull.mask, sparse_mask, invalidate_cached_masks"]}
{"id": "C93", "title": "The fitted psf model is an elliptical Gaussian", "statement": "twod_gaussian equals offset plus amplitude times the Gaussian of the rotated, scaled distance from the centre; for a positive amplitude it lies above the offset, is largest exactly at the centre, and is unchanged by half a turn and by exchanging the widths with a quarter turn.", "quantifier": "all positions, widths, angles, amplitudes", "why_tests_cant": "All real parameters.", "anchors": ["africanus/deconv/hogbom/clean.py: twod_gaussian"]}
{"id": "C94", "title": "The chunked direct Fourier transforms equal the unchunked ones", "statement": "For every chunking the arguments allow, the dask im_to_vis and vis_to_im return the blocks of what the numpy functions return for the whole arrays.", "quantifier": "all chunkings of rows, channels and correlations, all data and flags", "why_tests_cant": "All chunkings.", "anchors": ["africanus/dft/dask.py: im_to_vis, vis_to_im", "africanus/dft/kernels.py: im_to_vis, vis_to_im"]}
{"id": "C95", "title": "Covariance matrices are positive semi-definite", "statement": "For every set of points and all hyper-parameters the matrix exponential_squared(x, x) has no negative quadratic form, so that it can be used as a covariance.", "quantifier": "all numbers of points, dimensions, points, hyper-parameters", "why_tests_cant": "All point sets and coefficient vectors.", "anchors": ["africanus/gps/kernels.py: exponential_squared"]}
{"id": "C96", "title": "The power spectrum is that of the covariance function", "statement": "exponential_squared with pspec=True returns, at the frequencies of the grid, the Fourier transform of the covariance function, and raises NotImplementedError or ValueError for arguments without one.", "quantifier": "all regular grids and hyper-parameters", "why_tests_cant": "All grids and hyper-parameters.", "anchors": ["africanus/gps/kernels.py: exponential_squared"]}
{"id": "C97", "title": "Splines interpolate", "statement": "A fitted cubic spline evaluated at the knots returns the ordinates, whatever the boundary conditions; derivative orders that do not exist are refused.", "quantifier": "all numbers of knots, increasing abscissae, ordinates, boundary conditions", "why_tests_cant": "All knot sequences.", "anchors": ["africanus/averaging/splines.py: fit_cubic_spline, evaluate_spline"]}
{"id": "C98", "title": "Splines are smooth at the knots", "statement": "At every interior knot the value, first and second derivative of a fitted cubic spline are the same from both sides.", "quantifier": "all numbers of knots, increasing abscissae, ordinates", "why_tests_cant": "All knot sequences.", "anchors": ["africanus/averaging/splines.py: fit_cubic_spline"]}
{"id": "C99", "title": "Gridding kernels are normalised and defined", "statement": "The taps of every gridding kernel sum to one, no square root of a negative number is taken, and even support widths are refused.", "quantifier": "all odd widths, all oversampling factors", "why_tests_cant": "All widths and oversampling factors.", "anchors": ["africanus/gridding/perleypolyhedron/kernels.py: kbsinc, hanningsinc, sinc, uspace"]}
{"id": "C100", "title": "The three detapering functions agree", "statement": "compute_detaper, compute_detaper_dft and compute_detaper_dft_seperable return the same correction for the same kernel.", "quantifier": "all image sizes, widths, oversampling factors and kernels", "why_tests_cant": "All kernels and image sizes.", "anchors": ["africanus/gridding/perleypolyhedron/kernels.py: compute_detaper, compute_detaper_dft, compute_detaper_dft_seperable"]}
{"id": "C101", "title": "Gridding leaves its arguments alone and grids facets independently", "statement": "Gridding does not change the caller's uvw and vis arrays, and the grid of each facet in a list of facets is the one that gridding this facet alone gives.", "quantifier": "all data, facet lists, policies", "why_tests_cant": "All facet lists and data.", "anchors": ["africanus/gridding/perleypolyhedron/gridder.py: gridder", "africanus/gridding/perleypolyhedron/dask.py: gridder"]}
{"id": "C102", "title": "Gridding channel chunks through dask gives the grid of all channels", "statement": "Gridding through the dask interface with the channels split in chunks gives the grid of all channels; chunkings of lambdas, channel map, uvw and vis that differ raise ValueError.", "quantifier": "all channel chunkings", "why_tests_cant": "All chunkings.", "anchors": ["africanus/gridding/perleypolyhedron/dask.py: gridder"]}
{"id": "C103", "title": "The wgridder Hessian is symmetric and positive semi-definite", "statement": "For every image, hessian is a symmetric operator in each band, and positive semi-definite when no weight is negative, with and without flags.", "quantifier": "all images, weights, flags, uvw, frequencies, bins", "why_tests_cant": "All real images and weights.", "anchors": ["africanus/gridding/wgridder/hessian.py: hessian"]}
{"id": "C104", "title": "Gridding never writes outside the grid", "statement": "Whatever the coordinates of the visibilities, only cells of the grid are written.", "quantifier": "all coordinates, image sizes, convolution policies", "why_tests_cant": "All coordinates.", "anchors": ["africanus/gridding/perleypolyhedron/gridder.py: gridder", "africanus/gridding/perleypolyhedron/policies/convolution_policies.py"]}
{"id": "C105", "title": "Kernel lookups are inside the kernel and packing the kernel does not matter", "statement": "Every tap is read from inside the oversampled kernel, less than one step of the oversampled kernel from the exact position, and gridding with a packed kernel gives the same grid as with the kernel it was packed from.", "quantifier": "all coordinates, kernels, widths, oversampling factors", "why_tests_cant": "All coordinates and kernels.", "anchors": ["africanus/gridding/perleypolyhedron/policies/convolution_policies.py", "africanus/gridding/perleypolyhedron/kernels.py: pack_kernel"]}
{"id": "C106", "title": "Degridding through dask does not depend on the chunks", "statement": "Degridding through the dask interface gives, for every chunking of rows, channels and facets, the visibilities of degridding all facets for all rows and channels.", "quantifier": "all chunkings", "why_tests_cant": "All chunkings.", "anchors": ["africanus/gridding/perleypolyhedron/dask.py: degridder"]}
{"id": "C107", "title": "Imaging bands use exactly the channels of their bin", "statement": "Band i of the wgridder functions uses exactly the channels freq_bin_idx[i] up to freq_bin_idx[i] + freq_bin_counts[i]: dirty sums over them, model writes them and leaves channels in no bin zero, so that model and dirty are transposes of each other; chunks that fit the bins give the same.", "quantifier": "all bin layouts, images, weights, flags", "why_tests_cant": "All bin layouts.", "anchors": ["africanus/gridding/wgridder/vis2im.py: dirty", "africanus/gridding/wgridder/im2vis.py: model", "africanus/gridding/wgridder/dask.py"]}
{"id": "C108", "title": "The progress display is within bounds", "statement": "Whatever was completed before an update, the bar has exactly the width asked for, the percentage is between 0 and 100, the estimate is not less than the elapsed time and does not change unless a task was completed, and showing it does not fail.", "quantifier": "all histories of callbacks and update times", "why_tests_cant": "Unbounded histories and all times.", "anchors": ["africanus/util/dask_util.py: update_bar, timer_func"]}
{"id": "C109", "title": "The progress thread and the callbacks do not disturb each other", "statement": "No interleaving of the thread that shows the progress with the callbacks of a computation, including its end, makes the thread fail.", "quantifier": "all schedules", "why_tests_cant": "All interleavings of two threads.", "anchors": ["africanus/util/dask_util.py: update_bar, EstimatingProgressBar"]}
{"id": "C110", "title": "Calibration on chunked arrays gives the unchunked result", "statement": "corrupt_vis, correct_vis, residual_vis, compute_and_corrupt_vis, compute_jhj and compute_jhr on dask arrays give, for every chunking in which the time and row chunks fit, the result of the numpy functions on the whole arrays, with the shape they have; Jones terms chunked over antenna or direction are refused with ValueError before anything is computed.", "quantifier": "all arrays, modes, and chunkings of time, row, channel and correlation", "why_tests_cant": "All chunkings and arrays.", "anchors": ["africanus/calibration/utils/dask.py: corrupt_vis, correct_vis, residual_vis, compute_and_corrupt_vis", "africanus/calibration/phase_only/dask.py: compute_jhj, compute_jhr", "africanus/calibration/utils/utils.py: chunkify_rows"]}
{"id": "C111", "title": "Calibration tasks that share time bins do not disturb each other", "statement": "The rows used by a calibration call do not depend on which other calibration calls, on the same time_bin_indices, ran before it or run at the same time.", "quantifier": "all schedules of all sets of tasks, all histories of calls", "why_tests_cant": "All interleavings and histories.", "anchors": ["africanus/calibration/utils/corrupt_vis.py: corrupt_vis", "africanus/calibration/utils/correct_vis.py: correct_vis", "africanus/calibration/utils/residual_vis.py: residual_vis", "africanus/calibration/phase_only/phase_only.py"]}
{"id": "C112", "title": "Averaging dask arrays gives, chunk by chunk, the numpy average", "statement": "time_and_channel on dask arrays accepts the arguments the numpy function accepts and returns, for every row chunk, the numpy average of that chunk: block (i, k, l) of every output holds the part of the numpy average of row chunk i in channel chunk k and correlation chunk l when the channel chunks hold whole bins, with the declared extents, and a chunk whose average raises makes every output of that chunk raise the same error.", "quantifier": "all tables, optional columns, chunkings of rows, channels (whole bins) and correlations, bin sizes", "why_tests_cant": "All chunkings and combinations of optional columns.", "anchors": ["africanus/averaging/dask.py: time_and_channel, merge_flags, row_mapper, chan_metadata, row_average, row_chan_average, chan_average, _getitem_row, _getitem_row_chan, _getitem_chan"]}
{"id": "C113", "title": "Coordinate conversions of dask arrays equal those of the whole arrays", "statement": "For every chunking of the sources, radec_to_lmn, radec_to_lm, lmn_to_radec and lm_to_radec of dask arrays declare the extents of, and compute block by block, exactly the array the numpy function returns for the whole arrays; where the numpy function raises, some block raises the same error. If the two or three components of a row are spread over several blocks, every block raises ValueError instead of returning a wrong position.", "quantifier": "all source arrays, chunkings, with and without a phase centre", "why_tests_cant": "All chunkings and all inputs.", "anchors": ["africanus/coordinates/dask.py: radec_to_lmn, radec_to_lm, lmn_to_radec, lm_to_radec, _radec_to_lmn, _radec_to_lm, _lmn_to_radec, _lm_to_radec"]}
{"id": "C114", "title": "Terms of the measurement equation on dask arrays equal those of the whole arrays", "statement": "For every chunking in which components, polynomials and beam axes are not split, phase_delay, parallactic_angles, feed_rotation, transform_sources, beam_cube_dde and zernike_dde of dask arrays, for any number of correlation axes, declare the extents of, and compute block by block, exactly the array that the numpy function returns for the whole arrays; where the numpy function raises, some block raises the same error. A split beam, frequency map or extents array, and split source coordinates in phase_delay, raise ValueError. However a chunked axis is split, no part of the input is silently ignored.", "quantifier": "all arrays, all chunkings, any number of correlation axes", "why_tests_cant": "All chunkings and all inputs.", "anchors": ["africanus/rime/dask.py: phase_delay, parallactic_angles, feed_rotation, transform_sources, beam_cube_dde, zernike_dde and their wrappers"]}
{"id": "C115", "title": "Sky models on dask arrays equal those of the whole arrays", "statement": "For every chunking in which components of vectors, spectral coefficients, fitted channels and converted polarisations are not split, gaussian, spectral_model, spectra, fit_spi_components and convert of dask arrays declare the extents of, and compute block by block, exactly the array that the numpy function returns for the whole arrays; where the numpy function raises, dask raises the same error, either at the call or in some block. spectral_model refuses split coefficients with ValueError. However an axis is split, no part of the input is silently ignored or misread.", "quantifier": "all arrays, all chunkings, all bases, schemas and optional arguments", "why_tests_cant": "All chunkings and all inputs.", "anchors": ["africanus/model/shape/dask.py: gaussian", "africanus/model/spectral/dask.py: spectral_model", "africanus/model/wsclean/dask.py: spectra", "africanus/model/spi/dask.py: fit_spi_components", "africanus/model/coherency/dask.py: convert"]}
{"id": "C116", "title": "WSClean predictions of dask arrays equal those of the whole arrays", "statement": "For every chunking of rows, channels and sources in which the components of uvw, lm and shapes are not split, wsclean_predict of dask arrays declares the extents of, and computes block by block, exactly the array that the numpy function returns for the whole arrays: the sum over all sources in all blocks. Where the numpy function raises, some block raises the same error. This holds however the spectral coefficients are split. A log_poly that is a single boolean instead of an array is refused.", "quantifier": "all arrays, all chunkings, all source types", "why_tests_cant": "All chunkings and all inputs.", "anchors": ["africanus/rime/dask_predict.py: wsclean_predict, wsclean_spectrum_wrapper, wsclean_body_wrapper", "africanus/rime/wsclean_predict.py: wsclean_predict_main, wsclean_predict"]}
{"id": "C117", "title": "Visibility predictions of dask arrays equal those of the whole arrays", "statement": "Let the rows, sources and channels of all arrays be cut alike, the antennas be in one block, the rows of every block begin at the first time of the matching block of times, and at least one of direction dependent effects, coherencies and direction independent effects be supplied. Then predict_vis of dask arrays declares the chunks of rows and channels and computes block by block exactly what the numpy function returns for the whole arrays, with the chain over source blocks as well as with any tree that sums them; where numpy raises, some block raises the same error. Antennas in several blocks, pairs cut differently, a number of time blocks other than that of row blocks, clashing numbers of blocks and base visibilities alone raise ValueError. A call that is accepted never reads a block of other rows.", "quantifier": "all arrays, all chunkings, all correlation shapes, both reductions and every summation tree", "why_tests_cant": "All chunkings and all inputs.", "anchors": ["africanus/rime/dask_predict.py: predict_vis, linear_reduction, parallel_reduction, apply_dies", "africanus/rime/predict.py: predict_vis"]}
{"id": "C118", "title": "Phase delays and feed rotations on a GPU or with jax equal those on the CPU", "statement": "For coordinates stored without gaps and numbers of rows and channels that make a grid the device accepts, the cupy version of phase_delay returns what the CPU version returns with the default convention, whatever the order in which the threads of the kernel run and whatever shared and output memory held before. The cupy version of feed_rotation does so for angles of any shape and any strides, and refuses other feed types. The jax version of phase_delay equals the CPU version for every input. Coordinates stored in any other way, such as slices of wider arrays, give the same result as a copy of them.", "quantifier": "all arrays, both precisions, all interleavings of threads, all initial contents of memory", "why_tests_cant": "All schedules and all inputs.", "anchors": ["africanus/rime/cuda/phase.py: phase_delay", "africanus/rime/cuda/phase.cu.j2", "africanus/rime/cuda/feeds.py: feed_rotation", "africanus/rime/cuda/feeds.cu.j2", "africanus/rime/jax/phase.py: phase_delay"]}
{"id": "C119", "title": "Visibility predictions on a GPU equal those on the CPU", "statement": "For arrays of matching extents, indices within them and a grid that the device accepts, the cupy version of predict_vis returns what the CPU version returns, for 2x2 Jones terms, for two correlations and for one, with any combination of direction dependent effects, coherencies, direction independent effects and base visibilities, whatever the order in which the threads run and whatever the registers of inactive threads hold. A number of rows that needs more than 65535 blocks is refused. This holds for base visibilities alone, and for arrays of any number of elements.", "quantifier": "all arrays and combinations of terms, both precisions, all interleavings of threads", "why_tests_cant": "All schedules and all inputs.", "anchors": ["africanus/rime/cuda/predict.py: predict_vis", "africanus/rime/cuda/predict.cu.j2", "africanus/rime/predict.py: predict_vis"]}
{"id": "C120", "title": "Beams on a GPU equal those on the CPU", "statement": "For arrays stored without gaps, a beam of 2 to 127 frequencies and 1, 2 or 4 correlations, and a grid that the device accepts, the cupy version of beam_cube_dde returns what the CPU version returns, at every source, time, antenna, channel and correlation, whatever the order in which the threads run, whatever shared memory held before and whatever was called before. Longer beams, other numbers of correlations, beams that are not complex and beams of fewer than two points along an axis are refused.", "quantifier": "all beams, sources, angles, errors and channels, both precisions, all interleavings of threads, all initial contents of shared memory, all earlier calls", "why_tests_cant": "All schedules, all contents of uninitialised memory and all histories.", "anchors": ["africanus/rime/cuda/beam.py: beam_cube_dde", "africanus/rime/cuda/beam.cu.j2", "africanus/rime/cuda/beam_freq_interp.cu.j2", "africanus/rime/fast_beam_cubes.py: beam_cube_dde"]}
{"id": "C121", "title": "Conversions of coherencies on a GPU equal those on the CPU", "statement": "The cupy version of convert, given contiguous real Stokes parameters and a schema of correlations, or contiguous complex correlations and a schema of Stokes parameters, with as many outputs as inputs, returns what the CPU version returns at every position of the leading axes and of the output schema, whatever the order in which the threads run and whatever their registers held. Everything else raises an exception; what the CPU version refuses is refused.", "quantifier": "all schemas, leading axes of all extents, all values, all interleavings of threads, all initial contents of registers, all earlier calls", "why_tests_cant": "All shapes, including those not a multiple of the number of elements, and all schedules.", "anchors": ["africanus/model/coherency/cuda/conversion.py: convert", "africanus/model/coherency/cuda/conversion.cu.j2", "africanus/rime/cuda/macros.j2: warp_transpose", "africanus/model/coherency/conversion.py: convert"]}
{"id": "C122", "title": "Gridding dask arrays with nifty_gridder gives the grid of the whole arrays", "statement": "nifty grid of dask arrays with the frequencies in one chunk: for any chunks of the rows and any positive number of streams, or none, and whatever the order in which the scheduler runs the tasks, each pixel of each correlation is the sum of the contributions of all samples of the whole arrays which are not flagged and whose w is in range. Arrays in several chunks along the channels are refused, when the graph is built or when it is computed.", "quantifier": "all extents, chunks, numbers of streams, schedules, flags and values", "why_tests_cant": "All chunkings and all schedules.", "anchors": ["africanus/gridding/nifty/dask.py: grid, GridStreamReduction, FinalGridReduction"]}
{"id": "C123", "title": "Degridding dask arrays with nifty_gridder gives the visibilities of the whole arrays", "statement": "nifty degrid of a dask grid in one chunk and of frequencies in one chunk: for any chunks of the rows, the blocks have the declared extents and hold the parts of the visibilities of the whole arrays, with 0 for samples which are flagged or whose w is out of range. Frequencies in several chunks are refused when the graph is built; a grid in several chunks, or flags in several chunks along the channels, raise in every block.", "quantifier": "all extents, chunks, flags and values", "why_tests_cant": "All chunkings.", "anchors": ["africanus/gridding/nifty/dask.py: degrid"]}
{"id": "C124", "title": "Images from grids, grids from images and pickled configurations of nifty_gridder", "statement": "nifty dirty and model of a dask array whose first two axes are in one chunk each give, for any chunks of the correlations, what the library gives for each correlation of the whole array; in more chunks every block raises. A gridding configuration that is pickled and unpickled is the same configuration, and two configurations have the same dask token only if they are the same.", "quantifier": "all extents, chunks and values, all configurations", "why_tests_cant": "All chunkings and configurations.", "anchors": ["africanus/gridding/nifty/dask.py: dirty, model, GridderConfigWrapper, grid_config"]}
{"id": "C125", "title": "Header files are installed once, completely and from the published archive", "statement": "cub_dir and trove_dir of one process with any number of threads: whatever the network delivers, whichever exceptions are raised and wherever the process is killed and started again, when a call returns, the include directory holds exactly the files of an archive with the published hash, and never changes again; at most one thread installs at a time, and none after a call has returned; after an exception the lock is free, and a thread can always make a step or waits for one that can.", "quantifier": "all numbers of threads, schedules, contents of downloads, exceptions and crash points", "why_tests_cant": "All schedules and crash points.", "anchors": ["africanus/util/cub.py: cub_dir, _install_cub, is_cub_installed, download_cub", "africanus/util/trove.py: trove_dir, _install_trove, is_trove_installed, download_trove"]}
{"id": "C126", "title": "Measures of hulls and boxes", "statement": "The area and the circumference of a hull do not depend on where it is or at which corner the list starts; edges lead round the hull and their midpoints are in it; the first term of the area is the area of the polygon; the area of a box is the number of its pixels and the product of the extents it reports.", "quantifier": "all sets of points with a hull and all limits", "why_tests_cant": "Unbounded set of polygons.", "anchors": ["africanus/linalg/geometry.py: BoundingConvexHull.area, BoundingConvexHull.circumference, BoundingConvexHull.edges, BoundingConvexHull.edge_midpoints, BoundingBox.box_npx"]}
{"id": "C127", "title": "Compiling with nvcc leaves the process as it was", "statement": "compile_using_nvcc returns a module compiled by one run of the nvcc that was found, with the options of the caller and for the architecture asked for, or raises CompileError with the errors; however it ends, standard error and other open files, the compiler for other sources, the list of options and temporary directories are as before, and nothing is left behind.", "quantifier": "all answers of the operating system, of nvcc and of other programs, and all exceptions", "why_tests_cant": "All outcomes and exceptions of external programs.", "anchors": ["africanus/util/nvcc.py: compile_using_nvcc, stdchannel_redirected, _tempdir, _UnixCCompiler, get_cuda_info, get_gencode_options, get_cuda_version, get_compiler"]}
{"id": "C128", "title": "How nvcc is found and asked", "statement": "nvcc and the directory of CUDA are found in the documented order (NVCC, CUDA_PATH, PATH, /usr/local/cuda); what was found once is kept, failures are not; the lines about a host compiler are found in the output of nvcc exactly if they are there, at the first place.", "quantifier": "all environments, file systems, outputs and sequences of calls", "why_tests_cant": "Unbounded set of environments and outputs.", "anchors": ["africanus/util/nvcc.py: get_cuda_path, get_nvcc_path, search_on_path, _match_output_lines, get_compiler_base_options, get_cuda_info"]}
{"id": "C129", "title": "Restored images show the model with the clean beam", "statement": "restore returns the clean components blurred with a clean beam (the elliptical Gaussian fitted to the part of the psf above half of its peak, with largest sample one) plus the residual; after hogbom_clean this is the dirty image with the psf around every component replaced by the clean beam, at the same place.", "quantifier": "all images, psfs, gains, iteration counts and outcomes of the fit", "why_tests_cant": "All images and fits; needs the invariant of the CLEAN loop.", "anchors": ["africanus/deconv/hogbom/clean.py: fit_2d_gaussian, restore"]}
{"id": "C130", "title": "Declared element types are the computed ones", "statement": "The element type that a Dask array returned by the package declares is the type of every block it computes, whatever the types and chunks of the arguments, and the type that the same function returns for NumPy arrays; arguments are refused with the same exceptions.", "quantifier": "all combinations of element types of the arguments, present and absent arguments, and numbers of blocks", "why_tests_cant": "Over a thousand combinations of types per function, with and without streams; tests use double precision throughout.", "anchors": ["africanus/rime/dask.py: phase_delay, feed_rotation, parallactic_angles, transform_sources", "africanus/rime/dask_predict.py: predict_vis, wsclean_predict", "africanus/model/spectral/dask.py: spectral_model", "africanus/model/wsclean/dask.py: spectra", "africanus/dft/dask.py: im_to_vis, vis_to_im", "africanus/calibration/phase_only/dask.py", "africanus/calibration/utils/dask.py", "africanus/gridding/wgridder/dask.py: dirty"]}
{"id": "C131", "title": "Inferred complex types lose nothing and waste nothing", "statement": "infer_complex_dtype returns the smallest complex type to which the elements of all arguments can be cast safely, whatever their order and whether they are NumPy, Numba or Dask arrays; an argument that is not an array raises ValueError.", "quantifier": "all lists of arguments", "why_tests_cant": "Lists of any length of thirteen types.", "anchors": ["africanus/util/type_inference.py: infer_complex_dtype"]}
{"id": "C132", "title": "Types on the GPU", "statement": "The functions for CuPy arrays return arrays of the type that the functions for NumPy arrays return; the C types in the kernels have the kind and size of the elements, and the C functions are those of the right precision.", "quantifier": "all combinations of element types and function names", "why_tests_cant": "All combinations of types; needs a GPU to test.", "anchors": ["africanus/util/cuda.py: cuda_type, cuda_function", "africanus/rime/cuda/phase.py", "africanus/rime/cuda/feeds.py", "africanus/rime/cuda/beam.py", "africanus/rime/cuda/predict.py"]}
{"id": "C133", "title": "Kernels kept for the GPU fit their arguments", "statement": "Keeping the kernels that were generated for earlier calls cannot be observed: in every history of calls, each call gets the kernel that would be generated for its own arguments, or the exception.", "quantifier": "all sequences of calls with arrays of all element types and shapes", "why_tests_cant": "A stale kernel only shows after a particular earlier call; needs a GPU to test.", "anchors": ["africanus/util/code.py: memoize_on_key", "africanus/rime/cuda/phase.py: _key_fn, _generate_kernel", "africanus/rime/cuda/feeds.py: _key_fn, _generate_kernel", "africanus/rime/cuda/beam.py: _freq_interp_key, _generate_interp_kernel, _main_key_fn, _generate_main_kernel", "africanus/rime/cuda/predict.py: _key_fn, _generate_kernel", "africanus/model/coherency/cuda/conversion.py: _key_fn, _generate_kernel"]}
{"id": "C134", "title": "Averaging does not depend on the order of the rows", "statement": "Giving time_and_channel the rows of a table in another order, with times in another unit or from another origin, gives the same output rows in the same order (times and intervals in the other unit): each made of the same input rows, with the same flags, antennas and averaged columns and, where the weights used do not sum to zero, the same sigmas and visibilities. A table that is refused is refused in every order.", "quantifier": "all tables, all orders of the rows, all positive scales and all offsets of time", "why_tests_cant": "Tests average one table in one order.", "anchors": ["africanus/averaging/time_and_channel_mapping.py: row_mapper", "africanus/averaging/time_and_channel_avg.py: row_average, row_chan_average"]}
{"id": "C135", "title": "Averaging over less than two samples changes nothing", "statement": "When no two samples of a baseline fit into time_bin_secs (and the samples of a baseline start in the order of their times), averaging returns as many rows as it was given, each with its own time, interval, antennas, uvw, time centroid, exposure, weight and flag, and, with chan_bin_size 1, its own flags and weights of samples and visibilities of non-zero weight; the rows are only put in order of time.", "quantifier": "all tables with such intervals", "why_tests_cant": "Tests try bins that hold several samples.", "anchors": ["africanus/averaging/time_and_channel_mapping.py: row_mapper", "africanus/averaging/time_and_channel_avg.py: row_average, row_chan_average"]}
{"id": "C136", "title": "CLEAN recovers a point source", "statement": "Cleaning the image of one source of positive flux, seen through a psf that is 1 at its middle and less elsewhere, with a gain below one, leaves one component at the pixel of the source: after k rounds it has 1 - (1 - gain)^k of the flux, the residual is the dirty image times (1 - gain)^k, and the rounds end when that factor is at most the threshold or the limit is reached. Changing the unit of the dirty image changes the unit of model and residual.", "quantifier": "all sizes, positions, fluxes, psfs, gains, thresholds and limits", "why_tests_cant": "Depends on the position and on every pixel of the psf.", "anchors": ["africanus/deconv/hogbom/clean.py: hogbom_clean, update_residual, find_peak"]}
{"id": "C137", "title": "Symmetries of the direct Fourier transforms", "statement": "im_to_vis of a real image gives conjugate visibilities on reversed baselines; the conventions fourier and casa differ by the direction of the baselines; only baselines in wavelengths matter; neither the order of the sources nor that of the rows does. Imaging the visibilities of a single source with vis_to_im gives its flux times the number of unflagged rows at the source, and no larger absolute value anywhere else.", "quantifier": "all images, visibilities, baselines, frequencies, flags and source positions in the unit disc", "why_tests_cant": "Tests compare with a reference implementation on random data.", "anchors": ["africanus/dft/kernels.py: im_to_vis, vis_to_im"]}
{"id": "C138", "title": "The ways of predicting a list of sources agree", "statement": "For a list of point and Gaussian sources, wsclean_predict gives the same visibilities as summing flux times phase_delay times gaussian with predict_vis and, for point sources, as im_to_vis. Reversed baselines have conjugate visibilities, a baseline of length zero sees the total flux, and no visibility exceeds the sum of the absolute fluxes.", "quantifier": "all lists of sources, baselines and frequencies", "why_tests_cant": "Each function is tested against its own reference only.", "anchors": ["africanus/rime/wsclean_predict.py: wsclean_predict", "africanus/rime/predict.py: predict_vis", "africanus/rime/phase.py: phase_delay", "africanus/model/shape/gaussian_shape.py: gaussian", "africanus/dft/kernels.py: im_to_vis"]}
{"id": "C139", "title": "What phase-only calibration cannot see", "statement": "gauss_newton cannot see a phase common to all antennas: initial gains multiplied by such phases give the returned gains multiplied by them, with the same jhj, jhr and number of iterations, and the entries of jhr of all antennas add up to zero. Scaling all weights, renumbering the antennas or recording baselines in the other direction (with conjugate data and model) changes the results only accordingly.", "quantifier": "all problems with gains that are not zero, phases, weights, permutations of the antennas and sets of reversed rows", "why_tests_cant": "Tests compare with known gains on one simulated problem.", "anchors": ["africanus/calibration/phase_only/phase_only.py: gauss_newton, compute_jhj, compute_jhr"]}
{"id": "C140", "title": "beam_factory and beam_grids fit together", "statement": "beam_factory succeeds for every odd number of at least three pixels and every list of frequencies; beam_grids reads from its header sky axes from -1.5 to 1.5 degrees with the middle pixel at zero and a frequency axis that does not decrease and starts and ends at the first and last frequency; the regular description of the frequency axis agrees with it. The beam is 1 at the middle, between 0 and 1, symmetric and falls off outwards.", "quantifier": "all sizes, frequencies, types, schemas and random numbers", "why_tests_cant": "Random jitter; only the default frequencies are tested.", "anchors": ["africanus/testing/beam_factory.py: beam_factory", "africanus/util/beams.py: beam_grids, beam_filenames"]}
{"id": "C141", "title": "Spline fits transform with the data", "statement": "A natural cubic spline fitted to a linear combination of values is, with its derivatives, that combination of the fitted splines; values on a straight line give that line with its slope and zero second derivative, also beyond the knots; moving knots and queries together changes nothing, whatever the end conditions; neither does changing the unit of the axis.", "quantifier": "all increasing knots, values, combinations, shifts, units and queries", "why_tests_cant": "Tests fit a few fixed curves and compare with scipy.", "anchors": ["africanus/averaging/splines.py: fit_cubic_spline, solve_trid_system, evaluate_spline"]}
{"id": "C142", "title": "Hashes of files, numbered listings and templates of documentation", "statement": "sha_hash_file returns the hash of the whole content of a file of any length; format_code numbers every line from one, keeps each line and can be undone; mod_docs replaces exactly the occurrences found from left to right and leaves other text alone; doc_tuple_to_str puts the fields together in order; DocstringTemplate.substitute replaces $(name) by its value, $$ by a dollar sign and nothing else, raises KeyError for missing names and ValueError for ${name}.", "quantifier": "all files, codes, texts, replacements, templates and values", "why_tests_cant": "Tests have no files larger than a block and no templates at all.", "anchors": ["africanus/util/files.py: sha_hash_file", "africanus/util/code.py: format_code", "africanus/util/docs.py: mod_docs, doc_tuple_to_str, DocstringTemplate"]}
{"id": "C143", "title": "How predictions compose", "statement": "Sources may be predicted in parts, with the first result as base visibilities of the second call; gains may be applied afterwards with apply_gains or multiplied into direction dependent terms; applying gains twice is applying their product; the order of the sources does not matter; predictions are linear in coherencies and base visibilities; a selection of rows that includes the first time index gives the selected rows.", "quantifier": "all numbers of sources, rows, channels and correlations, all combinations of terms, all orders and selections", "why_tests_cant": "Tests compare whole predictions with einsum on random arrays.", "anchors": ["africanus/rime/predict.py: predict_vis, apply_gains"]}
{"id": "C144", "title": "Fits of spectral indices under changes of units, order and weights", "statement": "fit_spi_components does not depend on the unit of frequency nor on the order of the channels; with the damping of the determinant inactive it does not depend on the scale of the weights, scales with the unit of flux, and a channel of weight zero is a channel that is not there.", "quantifier": "all data, weights, frequencies, orders of channels, tolerances and numbers of iterations", "why_tests_cant": "Tests fit two simulated components with one set of weights.", "anchors": ["africanus/model/spi/component_spi.py: fit_spi_components"]}
{"id": "C145", "title": "Direction cosines under changes of the coordinate system", "statement": "On the hemisphere around the phase centre, scalar products of direction cosines are cosines of angles on the sky, whatever the phase centre; only differences of right ascension matter, for conversions in both directions; reflections of right ascension and declination reflect l and m; full turns change nothing.", "quantifier": "all directions, phase centres, shifts and numbers of turns", "why_tests_cant": "Tests compare conversions there and back on a few random directions.", "anchors": ["africanus/coordinates/coordinates.py: radec_to_lm, radec_to_lmn, lm_to_radec, lmn_to_radec"]}
{"id": "C146", "title": "Averaging channels in two steps", "statement": "Averaging over a channels (and over time) and the result over b channels, without averaging rows again, gives the number of channels, flags, weights, visibilities, sigmas and channel metadata of averaging over a * b channels at once.", "quantifier": "all rows, channels, correlations, flags, weights and bin sizes", "why_tests_cant": "Tests average once.", "anchors": ["africanus/averaging/time_and_channel_avg.py: time_and_channel, row_chan_average, chan_average", "africanus/averaging/time_and_channel_mapping.py: channel_mapper"]}
{"id": "C147", "title": "Zernike modes are orthogonal", "statement": "The modes with different Noll indices are orthogonal on the unit disc with the usual norms, the power of a Zernike beam is the sum of the powers of its modes, a beam given by different modes determines its coefficients, turning the coordinates only mixes the two modes of equal degree and opposite order, and on the axis only modes of order zero contribute.", "quantifier": "all Noll indices, radii, angles and complex coefficients", "why_tests_cant": "Tests evaluate a few modes at a few points; orthogonality is a statement on all modes and the whole disc.", "anchors": ["africanus/rime/zernike.py: zernike, zernike_rad, nb_zernike_dde"]}
{"id": "C148", "title": "Zernike modes of high degree", "statement": "The factorials in the radial polynomials are computed in 64-bit integers without changing the modes.", "quantifier": "all Noll indices, radii and angles", "why_tests_cant": "Tests use the lowest modes; whether products overflow depends on the degree.", "anchors": ["africanus/rime/zernike.py: fac, pre_fac, zernike_rad, zernike"]}
{"id": "C149", "title": "How corruptions and corrections compose", "statement": "corrupt_vis gives what predict_vis gives for the same Jones terms and coherencies; corrupting with H and then with G is corrupting with the products G H, correcting with G and then with H is correcting with G H, the residual for some directions of the residual for others is the residual for all of them, and swapping the antennas of every baseline conjugate-transposes corrupted visibilities.", "quantifier": "all times, rows, antennas, channels, directions, Jones terms, models and flags; time bins disjoint and, for corrections, invertible terms", "why_tests_cant": "A test compares the functions on one random array each; that the two conventions agree and compose is a statement on all terms.", "anchors": ["africanus/calibration/utils/corrupt_vis.py: corrupt_vis", "africanus/calibration/utils/correct_vis.py: correct_vis", "africanus/calibration/utils/residual_vis.py: residual_vis", "africanus/rime/predict.py: predict_vis"]}
{"id": "C150", "title": "The algebra of Kronecker products", "statement": "kron_matvec with the factors A_i after kron_matvec with the factors B_i is kron_matvec with the products A_i B_i; identity factors change nothing, inverse factors undo, transposed factors give the transpose, the result is linear in the vector and in each factor, and the factors of kron_cholesky applied after their adjoints apply the covariance.", "quantifier": "all lists of square factors, of any number and sizes, and all vectors of the right size", "why_tests_cant": "A test multiplies out a few random factors; the rules are statements on all numbers and sizes of factors.", "anchors": ["africanus/linalg/kronecker_tools.py: kron_matvec, kron_cholesky"]}
{"id": "C151", "title": "Kronecker products of any element type", "statement": "kron_matmat and kron_tensormat return the product for real and for complex operands, and kron_cholesky returns factors for any type of array.", "quantifier": "all factors, right hand sides and element types", "why_tests_cant": "Tests use random floats; what is lost in storing shows only for other types.", "anchors": ["africanus/linalg/kronecker_tools.py: kron_matmat, kron_tensormat, kron_cholesky"]}
{"id": "C152", "title": "Frequencies of integer type", "statement": "The shapes of Gaussian sources, interpolated beams and averaged channel frequencies do not depend on whether the frequencies are given as integers or as the same numbers in floating point.", "quantifier": "all frequencies, sources, baselines, beams, grids and bins", "why_tests_cant": "Tests use floats throughout; the claim is on all numbers a frequency can be.", "anchors": ["africanus/model/shape/gaussian_shape.py: gaussian", "africanus/rime/fast_beam_cubes.py: freq_grid_interp, beam_cube_dde", "africanus/averaging/time_and_channel_avg.py: chan_average"]}
{"id": "C153", "title": "CLEAN can be resumed", "statement": "Running hogbom_clean on the residual of a first run and adding the models gives the model and the residual of one run with all the rounds, provided the threshold is the same intensity; a run that has reached its threshold changes nothing when repeated.", "quantifier": "all dirty images, psfs of twice the size, gains, thresholds and numbers of rounds", "why_tests_cant": "A test can compare one split of one image; the claim is on every split of every run.", "anchors": ["africanus/deconv/hogbom/clean.py: hogbom_clean"]}
{"id": "C154", "title": "Spectra do not depend on the reference frequency", "statement": "A spectrum written about one reference frequency can be written about any other one, with the flux there and the same number of spectral parameters, and the spectral models evaluate both to the same values at every frequency; power laws keep their indices. Spectra do not depend on the unit of frequency and scale with the unit of flux.", "quantifier": "all sources, polarisations, mixtures of models, numbers of spectral parameters, frequencies and positive reference frequencies", "why_tests_cant": "A test compares a few frequencies of one source; the claim is an identity between functions for any number of parameters.", "anchors": ["africanus/model/spectral/spec_model.py: spectral_model", "africanus/model/wsclean/spec_model.py: spectra"]}
{"id": "C155", "title": "Closure quantities do not depend on the antennas", "statement": "Phase delays along baselines that add up to zero multiply to one, so a point source has closure phase zero. Along closed polygons of antennas the phase of the product of visibilities corrupted by nonzero antenna gains is that of the model, ratios over four antennas are those of the model, and for 2x2 gains the same holds for determinants and for closure traces.", "quantifier": "all arrays, polygons of any number of antennas, gains, models, time bins and channels", "why_tests_cant": "A test takes one triangle of random numbers; the claim is for every polygon and every set of gains.", "anchors": ["africanus/calibration/utils/corrupt_vis.py: corrupt_vis", "africanus/rime/phase.py: phase_delay", "africanus/rime/wsclean_predict.py: wsclean_predict"]}
{"id": "C156", "title": "Terms of the example prediction are multiplied", "statement": "The example program multiplies the terms of each source, row and channel: scalar terms in any order, brightness matrices as matrices in the given order when there are four correlations, and correlation by correlation otherwise. Unknown terms, terms with a wrong number of dimensions, and lists without a brightness or without a row dependent term, are refused.", "quantifier": "all lists of terms, arrays, and numbers of correlations", "why_tests_cant": "The labels of the sum are built by a loop over the terms; a test multiplies one list.", "anchors": ["africanus/rime/examples/predict.py: baseline_jones_multiply, corr_schema, vis_factory"]}
{"id": "C157", "title": "Sky models are parsed without loss", "statement": "The example program splits a sky model into points and Gaussians, each in the order of the file with its own position, fluxes, spectral index and reference frequency (those of the sky model when the source has none), and loses no source; a source of another kind is refused.", "quantifier": "all sky models", "why_tests_cant": "A test parses one file.", "anchors": ["africanus/rime/examples/predict.py: parse_sky_model"]}
{"id": "C158", "title": "Data are joined with their own tables", "statement": "The example program predicts each group of rows with the phase centre, frequencies and polarisations that its field and data description name, in the order of the correlations of the measurement set. Beams are applied as those of the feeds which measured the correlations, and refused unless there are four correlations of one kind of feeds.", "quantifier": "all measurement sets", "why_tests_cant": "Test measurement sets have one spectral window.", "anchors": ["africanus/rime/examples/predict.py: predict, corr_schema, dde_factory"]}
{"id": "C159", "title": "The model is convolved with the restoring beam", "statement": "The example fit of spectral indices convolves each band of the model image with the restoring beam, so that each component appears as the beam centred on its pixel, nothing wraps around the edges, and the result has the shape of the model.", "quantifier": "all images, beams, paddings, fast lengths and FFT libraries", "why_tests_cant": "The result depends on parities of the padded lengths; the example program has no tests.", "anchors": ["africanus/model/spi/examples/simple_spi_fitter.py: convolve_model, main"]}
{"id": "C160", "title": "The restoring beam of the example fit has the requested shape", "statement": "The beam is one at the centre, between zero and one, symmetric about the centre, zero beyond five times the larger width, and has the requested full widths at half maximum and position angle.", "quantifier": "all grids, widths and angles", "why_tests_cant": "The example program has no tests; widths and angles range over real numbers.", "anchors": ["africanus/model/spi/examples/simple_spi_fitter.py: Gaussian2D"]}
{"id": "C161", "title": "The example fit maps each bright pixel once", "statement": "Exactly the pixels above the threshold in every band are fitted, each once; each fitted value is put at its own pixel and all others are zero, for images of any shape; the work is divided into chunks of positive size.", "quantifier": "all images, thresholds and numbers of processors", "why_tests_cant": "The example program has no tests, and square images hide exchanged axes.", "anchors": ["africanus/model/spi/examples/simple_spi_fitter.py: main"]}
{"id": "C162", "title": "Prediction from FITS images sums every pixel at its position", "statement": "The example prediction gives for each row and channel the sum over pixels of the flux times the phase of the pixel at the coordinates of the header, in every correlation where Stokes I appears; headers in other units or without a frequency axis are refused.", "quantifier": "all images, headers, baselines and frequencies", "why_tests_cant": "The example program has no tests; signs of the steps and numbers of bright pixels vary between images.", "anchors": ["africanus/dft/examples/predict_from_fits.py: predict"]}
{"id": "C163", "title": "Generated phase gains are unit phases drawn from the stated covariance", "statement": "The example program for phase-only gains turns unit white noise into gains of modulus one whose phases at any two times, channels and directions have as covariance the product of Gaussian covariances in time, frequency and direction, independently of the units and origins of times and frequencies.", "quantifier": "all times, channels, directions, hyperparameters and noise", "why_tests_cant": "The example program has no tests; covariances are sums over all noise samples.", "anchors": ["africanus/gps/examples/generate_phase_only_gains.py"]}
{"id": "C164", "title": "The example phase screen is applied to every source and every hand is calibrated", "statement": "The screen of each time, antenna and correlation is a plane over the source coordinates that gives a gain of modulus one, with phase inversely proportional to frequency; simulated visibilities are the sums over sources of spectrum, fringe and the gains of both antennas in the parallel hands; other numbers of correlations are refused; and the program fits the parallel hands of what it simulates.", "quantifier": "all source positions, frequencies, coefficients and numbers of correlations", "why_tests_cant": "The example program has no tests; the number of correlations varies between measurement sets.", "anchors": ["africanus/calibration/utils/examples/apply_phase_screen_to_ms.py: make_screen, simulate, calibrate"]}
{"id": "C165", "title": "Loaded beam cubes keep every voxel with its coordinates", "statement": "The example prediction loads one beam cube per correlation, real and imaginary parts from their own files, with every voxel at the indices of its coordinates in l, m and frequency and extents that place every voxel at its coordinate; files that disagree, unknown data types and missing axes are refused.", "quantifier": "all headers, axis orders, steps and cubes", "why_tests_cant": "The example program has no tests; axis orders and signs of steps vary between beams.", "anchors": ["africanus/rime/examples/predict.py: load_beams"]}
{"id": "C166", "title": "The beam of the example fit is the beam of the files at each component", "statement": "The example spectral fit takes half the sum of the squared moduli of the two correlations, from files in any order, and gives each component and band the beam at its position and frequency; beams that do not cover the components or that are in other units are refused.", "quantifier": "all prefixes, file orders, headers, beams, components and bands", "why_tests_cant": "The example program has no tests; directories, axes and signs of steps vary between beams.", "anchors": ["africanus/model/spi/examples/simple_spi_fitter.py: interpolate_beam"]}
{"id": "C167", "title": "The example program that applies gains writes every visibility between the gains of its time", "statement": "The example program that applies gains to a measurement set writes, for every row and channel, the sum over the model columns (one per direction) of the model between the gains of the two antennas at the time of the row: in each hand for one and two correlations, and as two-by-two matrices for four; whatever the number of times in a chunk. Other numbers of correlations are refused.", "quantifier": "all tables, numbers of times per chunk, antennas, channels, model columns and gains", "why_tests_cant": "The example program has no tests; every number of times per chunk gives another set of chunks.", "anchors": ["africanus/calibration/utils/examples/apply_gains_to_ms.py: main"]}
{"id": "C168", "title": "The example program for point sources applies the gains of each direction to the fringe of its source", "statement": "The example program that corrupts point sources writes, for every row and channel, the sum over the sources of the sky model of the spectrum and fringe of the source between the gains of the two antennas in its direction at the time of the row, whatever the number of times in a chunk, with the declared element type of what is computed. Empty sky models are refused.", "quantifier": "all tables, sky models, numbers of times per chunk, phase centres, frequencies and gains", "why_tests_cant": "The example program has no tests; every number of times per chunk gives another set of chunks.", "anchors": ["africanus/calibration/utils/examples/apply_gains_time_varying_sources.py: main"]}
{"id": "C169", "title": "Averaged visibilities are averages", "statement": "Averaging over time and channel is linear in the visibilities and leaves constant visibilities as they are; with positive weights each averaged visibility lies in every convex set that holds the samples of its bin, so never outside their range; a bin is linear in, and depends on, its own samples alone.", "quantifier": "all rows, bins, flags, weights, channels and visibilities", "why_tests_cant": "Tests average a few generated arrays.", "anchors": ["africanus/averaging/time_and_channel_avg.py: time_and_channel", "africanus/averaging/time_and_channel_avg.py: row_chan_average"]}
{"id": "C170", "title": "Beam cubes commute with the symmetries of the cube", "statement": "Values looked up in a beam cube scale with the cube by any complex number and conjugate with it. Within the frequencies of the cube they are those of the unrotated beam without errors at the direction moved by the pointing error, turned by the parallactic angle and stretched by the antenna scaling; full turns change nothing and half turns reflect the direction. Outside the frequencies the first or last plane is read at directions scaled by the ratio of frequencies. Other units of directions, pointing errors and extents, and axes stored in the other direction with exchanged extents, give the same values.", "quantifier": "all cubes, extents, frequencies, directions, angles, pointing errors and scalings", "why_tests_cant": "Tests compare with one interpolation of a few random cubes.", "anchors": ["africanus/rime/fast_beam_cubes.py: beam_cube_dde", "africanus/rime/fast_beam_cubes.py: freq_grid_interp"]}
{"id": "C171", "title": "Physical light stays physical", "statement": "Real Stokes parameters convert to Hermitian linear and circular coherency matrices of trace twice the intensity and determinant I^2 - Q^2 - U^2 - V^2, which are positive semi-definite exactly when no more is polarised than there is and are related by a unitary change of basis. Predicted correlations of an antenna with itself stay positive semi-definite under any Jones terms. Unitary gains preserve the power of visibilities.", "quantifier": "all Stokes parameters, schemas, Jones terms, coherencies, antennas, times and channels", "why_tests_cant": "Tests compare conversions with formulas on random values; positivity is not tested.", "anchors": ["africanus/model/coherency/conversion.py: convert", "africanus/rime/predict.py: predict_vis"]}
{"id": "C172", "title": "Gridding does not depend on how baselines are written down", "statement": "The order of the rows does not change the grid. Baselines written the other way round (negated coordinates, conjugated visibilities, exchanged cross hands) give the conjugate grid reflected in its centre, as all kernels of the package are symmetric. Baselines moved by whole cells move the grid by as many cells.", "quantifier": "all rows, channels, bands, kernels, policies, grids, permutations and moves, normalised or not", "why_tests_cant": "Tests grid a few visibilities and compare images with a tolerance.", "anchors": ["africanus/gridding/perleypolyhedron/gridder.py: gridder", "africanus/gridding/perleypolyhedron/policies/convolution_policies.py: convolve_1d_axisymmetric_unpacked_scatter", "africanus/gridding/perleypolyhedron/kernels.py: kbsinc, hanningsinc, sinc"]}
{"id": "C173", "title": "Calibration never makes the fit worse and comes to rest", "statement": "For one direction and data not brighter than the model, phase-only calibration returns gains whose weighted sum of squared residuals is not larger than that of the initial gains, in every time bin, channel and correlation; more iterations do not make it larger; and the number of iterations is bounded by the initial misfit over the model power and the square of the tolerance, so that from some limit on the result is the same.", "quantifier": "all numbers of times, antennas, channels, correlations and rows, all baselines, flags, weights, data, models, unit gains and tolerances", "why_tests_cant": "Tests calibrate one simulated array; convergence for every array and every starting point is not a finite statement.", "anchors": ["africanus/calibration/phase_only/phase_only.py: gauss_newton, compute_jhj, compute_jhr", "africanus/calibration/utils/residual_vis.py: residual_vis"]}
{"id": "C174", "title": "CLEAN approaches the sky and reaches its threshold", "statement": "Let the dirty image be a sky seen through a psf that is 1 at its centre (n - 1, n - 1), point symmetric, and gives no image negative power, as the psf of every array does. With a gain between 0 and 2 the power of what remains of the sky after CLEAN is at most that of the sky, and the threshold is reached if enough rounds are allowed, with an explicit bound.", "quantifier": "all image sizes, skies, arrays, weights, gains between 0 and 2, thresholds and limits", "why_tests_cant": "Tests clean a few images; that no array and no sky make CLEAN diverge cannot be tested.", "anchors": ["africanus/deconv/hogbom/clean.py: hogbom_clean, find_peak, update_residual, build_cleanmap"]}
{"id": "C175", "title": "Updates of spectral index fits go downhill and rest at stationary points", "statement": "From every component with two usable channels the update of the fit points downhill: the derivative of the weighted misfit along it is negative unless the update changes nothing, and it changes nothing exactly where the misfit is stationary in index and intensity. The update should therefore not make the misfit larger.", "quantifier": "all numbers of channels, data, weights, beams, frequencies, starting points and clamps of the determinant", "why_tests_cant": "Tests fit a few exact power laws from near starting points.", "anchors": ["africanus/model/spi/component_spi.py: fit_spi_components"]}
{"id": "C176", "title": "Interpolated beams are continuous", "statement": "The interpolated beam is a continuous function of the direction, the parallactic angle, the pointing error, the antenna scaling and the frequency, also across grid lines, at the edge of the cube and beyond the ends of its frequency grid.", "quantifier": "all cube sizes, extents, frequency grids and cube values, at every point", "why_tests_cant": "Continuity is a statement about all pairs of neighbouring points, of which tests take none.", "anchors": ["africanus/rime/fast_beam_cubes.py: beam_cube_dde, freq_grid_interp"]}
{"id": "C177", "title": "How much averaging and errors of position take from a source", "statement": "No visibility exceeds the sum of the fluxes. Visibilities of neighbouring baselines, frequencies and source positions differ by at most 2 pi times the distance in wavelengths, times the offset, times the flux. Averaging samples in which the phase of a point source of flux A stays within D of a middle keeps between A cos D and A and is within A D of the middle sample.", "quantifier": "all arrays, images, source positions, frequencies, conventions, bins and weights", "why_tests_cant": "The bounds are inequalities over real numbers; tests sample a few.", "anchors": ["africanus/dft/kernels.py: im_to_vis", "africanus/rime/phase.py: phase_delay", "africanus/averaging/time_and_channel_avg.py: time_and_channel"]}
{"id": "C178", "title": "Sums over the grid and constant grids", "statement": "The cells of a band sum to the Stokes parameters of its samples times the sums of their taps; a normalised grid of samples with equal Stokes parameters sums to that value up to one part in 1e8 of the total taps; and a constant grid is degridded to that constant, up to the same guard, on every baseline.", "quantifier": "all configurations without facet rotation, all visibilities and all baselines whose taps fall on the grid", "why_tests_cant": "Tests grid a few baselines and compare images loosely.", "anchors": ["africanus/gridding/perleypolyhedron/gridder.py: gridder", "africanus/gridding/perleypolyhedron/degridder.py: degridder", "africanus/gridding/perleypolyhedron/policies/convolution_policies.py: convolve_1d_axisymmetric_packed_scatter, convolve_1d_axisymmetric_packed_gather"]}
{"id": "C179", "title": "Regions do not depend on the origin of the image", "statement": "Shifting the points, limits and masks of regions by a whole number of pixels shifts hulls, boxes, aligned boxes, split boxes, padded boxes, membership and masks by the same amount and leaves overlaps, sizes, weights and errors as they are.", "quantifier": "all points, masks, regions, shifts, numbers of parts, sizes and distances, and every convex hull that is itself independent of the origin", "why_tests_cant": "Tests use regions at a few places, mostly with positive coordinates.", "anchors": ["africanus/linalg/geometry.py: BoundingConvexHull, BoundingBox, BoundingBoxFactory"]}
{"id": "C180", "title": "Detapering functions are one at the centre, bounded and symmetric", "statement": "Each of the three detapering functions of a separable kernel is the square of the kernel's sum at the centre of the image (one for a normalised kernel), never negative, never larger than the square of the sum of the moduli of the taps, the same at opposite pixels and under exchange of the axes, and a product of its diagonal values.", "quantifier": "all image sizes, kernels, odd widths and oversampling factors", "why_tests_cant": "Tests compare the functions with each other on one kernel.", "anchors": ["africanus/gridding/perleypolyhedron/kernels.py: compute_detaper, compute_detaper_dft, compute_detaper_dft_seperable"]}
{"id": "C181", "title": "Averaging conserves the weight and the flux of good samples", "statement": "Summed over the samples that neither row flags nor sample flags exclude, the weights are the same before and after averaging, and so are the weights times the visibilities: the flux at the phase centre of a naturally weighted image does not change.", "quantifier": "all rows, channels, correlations, flags, weights of one sign, visibilities and bin sizes for which the call succeeds", "why_tests_cant": "Conservation must hold for every pattern of flags; tests have a few.", "anchors": ["africanus/averaging/time_and_channel_avg.py: time_and_channel, row_chan_average, merge_flags", "africanus/averaging/time_and_channel_mapping.py: row_mapper, channel_mapper"]}
{"id": "C182", "title": "What the gains of one time bin, channel and correlation depend on", "statement": "The phases solved for one time bin, channel and correlation depend only on the unflagged visibilities, models, weights and initial gains of that cell, in any order of its rows; permuting rows within bins, time bins, channels or correlations permutes the solution and leaves the number of iterations unchanged.", "quantifier": "all arrays, antennas, directions, flags, weights, tolerances, iteration limits and permutations", "why_tests_cant": "Independence from other data ranges over all other data.", "anchors": ["africanus/calibration/phase_only/phase_only.py: gauss_newton, compute_jhj, compute_jhr"]}
{"id": "C183", "title": "Calibration finds the gains of noiseless data", "statement": "On data that are the model seen through gains of modulus one, phase-only calibration approaches these gains up to a phase common to all antennas: errors never spread, any accuracy is reached after enough iterations, and a run that stops by its tolerance is accurate to a multiple of the tolerance.", "quantifier": "all arrays whose antennas are linked by unflagged data with weights, directly or over others, all models, weights, true gains, initial gains, tolerances and iteration limits, one direction", "why_tests_cant": "Convergence quantifies over all accuracies and all arrays; tests check one simulated array to a few digits.", "anchors": ["africanus/calibration/phase_only/phase_only.py: gauss_newton, compute_jhj, compute_jhr"]}
{"id": "C184", "title": "Gridding and degridding agree with the direct Fourier transform", "statement": "Degridding the centred Fourier transform of an image gives im_to_vis of its pixels, placed at the cell size and with the wavelengths of the channels, up to a phase error per pixel of at most pi (width + 1) (|x| + |y|) / npix, with x and y its offset from the centre, plus the guard of 1e-8 on the weights; the transform of a grid is likewise the direct transform of the samples. The exact factor, the transform of the kernel, is given too, and at the centre pixel the transforms are equal. The transforms compared with are inverse to each other.", "quantifier": "all images, kernels with taps that are not negative, baselines whose taps fall on the grid, channels, Stokes conversions and sizes", "why_tests_cant": "The error bound ranges over all images, kernels and baselines; tests compare one image at a loose tolerance.", "anchors": ["africanus/gridding/perleypolyhedron/gridder.py: gridder", "africanus/gridding/perleypolyhedron/degridder.py: degridder", "africanus/dft/kernels.py: im_to_vis"]}
{"id": "C185", "title": "The gridder and convert use the same Stokes parameters", "statement": "Every Stokes conversion of the degridder gives the correlations that model.coherency.convert gives for that parameter, the four conversions to four correlations add up to those of all parameters, every conversion of the gridder has as real part the parameter that convert gives, and the number of correlations announced is the number in the name of the conversion.", "quantifier": "all conversions the gridder supports and all values", "why_tests_cant": "Two modules have their own tables; tests of each never compare them over all names and values.", "anchors": ["africanus/gridding/perleypolyhedron/policies/stokes_conversion_policies.py: stokes2corr, corr2stokes, ncorr_out", "africanus/model/coherency/conversion.py: convert"]}
{"id": "C186", "title": "Gaussian shapes are Fourier transforms of Gaussian sources", "statement": "The shape function of gaussian is the visibility, the Fourier integral over the sky, of a Gaussian source of unit flux whose brightness falls to half on the ellipse with the given full widths and position angle; at another position it is multiplied by the phase of the position, and wsclean_predict gives the flux times its conjugate on baselines without w.", "quantifier": "all baselines, frequencies, positive widths, angles, positions and fluxes", "why_tests_cant": "An identity between an integral over the sky and a formula for all real parameters; tests compare two implementations of the same formula.", "anchors": ["africanus/model/shape/gaussian_shape.py: gaussian", "africanus/rime/wsclean_predict.py: wsclean_predict"]}
{"id": "C187", "title": "Dirty images are convolutions with the dirty beam", "statement": "Without w, vis_to_im of the visibilities im_to_vis gives for a real image is the sum over the sources of brightness times the dirty beam at the offset from the source; the dirty beam is vis_to_im of unit visibilities, symmetric, and largest at its centre, where it is the number of unflagged baselines. For baselines on a complete regular grid matching a regular grid of pixels, vis_to_im after im_to_vis is multiplication by the number of baselines.", "quantifier": "all images, baselines without w, source positions in the unit disc, channels, flags and both conventions; all grid sizes and cells", "why_tests_cant": "Deconvolution relies on this for every layout of baselines and every image; a test compares a few point sources.", "anchors": ["africanus/dft/kernels.py: im_to_vis, vis_to_im"]}
{"id": "C188", "title": "Covariances of distinct points can be factored", "statement": "The matrix of exponential_squared for points that are pairwise distinct is positive definite, and only then; so in exact arithmetic the example program that simulates gains succeeds for all distinct times, channels and directions (not all in the same number), and kron_cholesky with its jitter fails for no covariances of this kind, whether points coincide or not.", "quantifier": "all numbers of points and dimensions, all coordinates, all length scales and amplitudes other than zero", "why_tests_cant": "Definiteness is about all vectors and all sets of points; a test factors one matrix.", "anchors": ["africanus/gps/kernels.py: exponential_squared", "africanus/linalg/kronecker_tools.py: kron_cholesky", "africanus/gps/examples/generate_phase_only_gains.py"]}
{"id": "C189", "title": "Simulating, imaging and deconvolving fit together", "statement": "The image that vis_to_im makes of what im_to_vis gives for a sky on a regular grid of pixels, and the psf it makes of unit visibilities on the grid of twice the size centred on pixel (n - 1, n - 1), both divided by the number of unflagged baselines, are as hogbom_clean needs them: the image is the sky seen through the psf, and the psf is one at its centre, symmetric and positive semi-definite. CLEAN of them reaches its threshold when enough rounds are allowed, never adds power, and finds a single source at its pixel and nowhere else.", "quantifier": "all skies, sizes, cells, baselines without w, channels, correlations, flags that leave a baseline, both conventions; gains between 0 and 2 and positive thresholds", "why_tests_cant": "It joins three functions over all skies and all layouts of baselines; tests check each function on a few inputs.", "anchors": ["africanus/dft/kernels.py: im_to_vis, vis_to_im", "africanus/deconv/hogbom/clean.py: hogbom_clean"]}
{"id": "C190", "title": "Feed rotation turns the plane of polarisation", "statement": "Between feed rotations by an angle chi the correlations of light are those of light with the same I and V and with Q + iU multiplied by exp(-2 i chi), for linear and circular feeds alike; the rotations of the two kinds of feed are one and the same in two bases. predict_vis with a feed rotation that at each time is common to all antennas gives the visibilities of the sky turned in that way. With circular feeds at different angles the parallel hands turn by the difference and the crossed hands by the sum.", "quantifier": "all real Stokes parameters, angles, schemas, sources, rows, channels, times and antennas", "why_tests_cant": "Signs and factors of two of a rotation are easily compensated by the same error in a test; the statement is over all angles and both bases at once.", "anchors": ["africanus/rime/feeds.py: feed_rotation", "africanus/model/coherency/conversion.py: convert", "africanus/rime/predict.py: predict_vis"]}
{"id": "C191", "title": "A sky without negative brightness gives positive semi-definite visibilities", "statement": "The visibilities of all pairs of antennas, at baselines that are differences of antenna positions, of a sky without negative brightness make a Hermitian positive semi-definite matrix: for im_to_vis of an image, for the prediction of WSClean point and Gaussian sources, and for predict_vis with positive semi-definite source coherencies and any Jones terms of the antennas, there as the matrix of all feeds of all antennas. One negative pixel breaks it.", "quantifier": "all numbers of antennas and their positions, sources, shapes, frequencies, both conventions, all Jones terms", "why_tests_cant": "It is a statement on all vectors of weights of all arrays.", "anchors": ["africanus/dft/kernels.py: im_to_vis", "africanus/rime/wsclean_predict.py: wsclean_predict", "africanus/rime/predict.py: predict_vis"]}
{"id": "C192", "title": "Self-calibration recovers the model", "statement": "Data that are the model seen through antenna phases without noise, corrected by correct_vis with the gains that phase calibration returns, are the model: with exactly its amplitudes, and up to a fixed multiple of the tolerance when calibration stopped by it, or to any accuracy after enough iterations. residual_vis vanishes to the same accuracy. The phase common to all antennas, which calibration leaves undetermined, does not matter.", "quantifier": "all arrays of linked antennas, models, non-negative weights, flags, phases, tolerances and numbers of iterations", "why_tests_cant": "It joins the solver to the functions that apply its gains, over all data and histories of the iteration.", "anchors": ["africanus/calibration/phase_only/phase_only.py: gauss_newton", "africanus/calibration/utils/correct_vis.py: correct_vis", "africanus/calibration/utils/residual_vis.py: residual_vis"]}
{"id": "C193", "title": "Averaging and calibration can be exchanged where gains are constant", "statement": "Where the gains of each antenna do not change over the rows and channels that are averaged together, averaging corrupted visibilities gives the averaged model corrupted with these gains, and averaging corrected visibilities gives the averaged data corrected with them (no sample of the bin being flagged), for every output row and channel. Where the gains do change, by at most d in the product of the two antennas over the samples of a bin, the average of a corrupted model of at most B is within d B of the averaged model corrupted with the gains of any one of the samples.", "quantifier": "all data, models, gains, weights that are not negative, flags, times, solution intervals and bins of time and channels", "why_tests_cant": "It joins two packages with their own row order, time bins and flags, over all inputs.", "anchors": ["africanus/averaging/time_and_channel_avg.py: time_and_channel", "africanus/calibration/utils/corrupt_vis.py: corrupt_vis", "africanus/calibration/utils/correct_vis.py: correct_vis"]}
{"id": "C194", "title": "The sign of what CLEAN finds", "statement": "If some pixel of the dirty image is not negative and a round removes at most the whole peak, hogbom_clean returns a model without negative components and a residual whose largest pixel is not negative, and allowing more rounds only adds to the model at every pixel. With a psf that is nowhere negative the residual is nowhere above the dirty image. If the largest pixel is zero nothing is cleaned, so that sources of negative flux are never found; if all pixels are negative or zero, so are model and residual. The last row and the last column of the psf do not matter.", "quantifier": "all square dirty images, psfs of twice the size, gains, thresholds and limits of rounds", "why_tests_cant": "The signs follow from an invariant of all rounds, for every image.", "anchors": ["africanus/deconv/hogbom/clean.py: hogbom_clean, find_peak, update_residual"]}
{"id": "C195", "title": "Flagged data do not leak into good data", "statement": "Whatever is stored in flagged rows and samples: averaging gives the same numbers of rows and channels, the same uvw, time centroid, exposure, weight and sigma for every output row with a row that is not flagged, and the same flag, weight, visibility and sigma for every output sample with a sample that is not flagged (weights adding up to zero only if they are all zero); correct_vis and residual_vis give the same arrays; phase-only calibration gives the same gains after the same number of iterations; vis_to_im gives the same image.", "quantifier": "all tables, flags of rows and samples (row flags 0 or 1), values of flagged entries, gains, tolerances and images", "why_tests_cant": "Data of any value may be hidden behind a flag; that none of them matters is a statement about pairs of runs.", "anchors": ["africanus/averaging/time_and_channel_avg.py: time_and_channel", "africanus/calibration/utils/correct_vis.py: correct_vis", "africanus/calibration/utils/residual_vis.py: residual_vis", "africanus/calibration/phase_only/phase_only.py: gauss_newton", "africanus/dft/kernels.py: vis_to_im"]}
{"id": "C196", "title": "Errors of the data are not amplified", "statement": "If the visibilities of the samples of a bin change by at most some amount each, their average over positive weights changes by at most that amount. Correcting with scalar gains divides the modulus of an error by those of the two gains and corrupting multiplies it by them, so that phase-only gains leave the size of errors alone. No visibility of im_to_vis changes by more than the sum of the changes of the image, and no pixel of vis_to_im by more than the sum of the changes of the unflagged visibilities. On a complete regular grid of baselines that matches the pixels, the power of the visibilities of im_to_vis is the power of the image times the number of baselines.", "quantifier": "all pairs of data, tables, weights, gains, baselines, images, channels and both conventions", "why_tests_cant": "How noise propagates is a bound over all pairs of data; tests run on single data.", "anchors": ["africanus/averaging/time_and_channel_avg.py: time_and_channel", "africanus/calibration/utils/correct_vis.py: correct_vis", "africanus/calibration/utils/corrupt_vis.py: corrupt_vis", "africanus/dft/kernels.py: im_to_vis, vis_to_im"]}
{"id": "C197", "title": "Compiling several files on Windows", "statement": "On Windows, compiling a list of sources compiles each CUDA C file by one successful run of the nvcc that was found, in their order and with the options for all devices, and the others by the compiler of the platform, stops with CompileError at the first CUDA C file that fails, needs CUDA only for CUDA C files, and returns the object files in the order of the sources.", "quantifier": "all lists of sources, options and answers of the compilers and of distutils", "why_tests_cant": "Needs Windows, CUDA and every outcome of the compilers.", "anchors": ["africanus/util/nvcc.py: _MSVCCompiler.compile, _MSVCCompiler._compile_cu"]}
{"id": "C198", "title": "Statistics of tasks are kept by name and add up", "statement": "Every key of a Dask graph has a bin for the progress display; keys with the same name, given as text, as bytes or as the first element of a tuple, share it. Sums of statistics do not depend on order or grouping, the sum in place gives the same, also with itself, and changes no other object. If the tasks are divided in two, the statistics of the whole are the sums of those of the parts after any history of callbacks.", "quantifier": "all keys, statistics, divisions of the tasks and histories of callbacks", "why_tests_cant": "Histories of callbacks of a scheduler have no bound.", "anchors": ["africanus/util/dask_util.py: key_bin, TaskData.__add__, TaskData.__iadd__, EstimatingProgressBar"]}
{"id": "C199", "title": "Templates without jinja2", "statement": "The template environment can be imported without jinja2. Every use of it then raises MissingPackageException naming jinja2, or skips the test if the last valid call marked a test run; with jinja2 it is the environment of jinja2. The marker of test runs is that of the last call with a boolean; other calls raise and change nothing.", "quantifier": "all histories of marks, uses of the environment and outcomes of imports", "why_tests_cant": "Depends on what is installed and on the history of marks.", "anchors": ["africanus/util/jinja2.py: FakeEnvironment, _jinja2_env_factory", "africanus/util/testing.py: in_pytest, mark_in_pytest"]}
{"id": "C200", "title": "Building the documentation", "statement": "With the environment variable READTHEDOCS set to some text, and only then, the decorators of numba are replaced so that the documentation can be built without compiling. A function then still has the arguments and defaults of the plain function and does what the plain function does, and the constants stay those of pi to a tenth of a percent.", "quantifier": "all functions, calls and values of READTHEDOCS", "why_tests_cant": "Every function of the package is decorated; tests never run with READTHEDOCS set.", "anchors": ["africanus/util/numba.py: _fake_decorator, jit, njit, generated_jit, register_jitable, overload", "africanus/util/docs.py: on_rtd", "africanus/constants/consts.py: two_pi_over_c, DEG2RAD, ARCSEC2RAD"]}
{"id": "C201", "title": "Averaging rows that have been averaged", "statement": "Averaging again with the same bin width changes nothing. Averaging with one bin width and then with a larger one puts the same rows together, with the same averaged times and intervals, flags, weights and visibilities, as averaging with the larger one at once.", "quantifier": "all tables of rows, bin widths and flags", "why_tests_cant": "Depends on the times of all rows and on both bin widths; tests average once.", "anchors": ["africanus/averaging/time_and_channel_mapping.py: row_mapper"]}
{"id": "C202", "title": "Weights and errors stay consistent", "statement": "If the weights of data are the inverse squares of their sigmas, so are the averaged weights and the averaged sigmas. An averaged sigma is not larger than that of any sample that went in, and no other weights would have made it smaller. This holds for weights and sigmas of rows and of samples, also where the weights of rows stand for every channel.", "quantifier": "all tables of rows, flags, bin widths, numbers of channels, weights and sigmas", "why_tests_cant": "An inequality over all weights; tests compare with a few averaged values.", "anchors": ["africanus/averaging/time_and_channel_avg.py: row_average, row_chan_average, sigma_spectrum_add_factory, sigma_spectrum_normaliser_factory"]}
{"id": "C203", "title": "Moving the phase centre and turning the field", "statement": "Directions and baselines turned together describe the same observation. With any rotation of space, phase delays and the visibilities of im_to_vis are multiplied with one phase per baseline and channel, which depends only on the change of w, and vis_to_im of visibilities with that phase gives the same image. Two phase centres of radec_to_lm are related by such a rotation. Shapes of Gaussian sources and wsclean_predict do not change when sources, position angles and baselines are turned about the phase centre.", "quantifier": "all rotations, phase centres, directions, baselines, frequencies, images, visibilities, flags and conventions", "why_tests_cant": "An identity for all rotations and real values; tests use a few fixed directions.", "anchors": ["africanus/rime/phase.py: phase_delay", "africanus/dft/kernels.py: im_to_vis, vis_to_im", "africanus/coordinates/coordinates.py: radec_to_lm", "africanus/model/shape/gaussian_shape.py: gaussian", "africanus/rime/wsclean_predict.py: wsclean_predict_impl"]}
{"id": "C204", "title": "Facets away from the phase centre", "statement": "Rotating the phases of visibilities to the centre of a facet takes the phase of a source there away on every baseline and in every channel. Together with the rotation of the baselines every source gets the visibilities it would have with the centre of the facet as phase centre. With the planar approximation of baselines instead, the visibilities are those of the offsets of l and m from the centre of the facet, up to a phase of w (1 - cos a) / n wavelengths, where a is the angle of the source from the centre of the facet and n the cosine of the angle between the centres.", "quantifier": "all phase centres, centres of facets, sources, spectra, baselines and wavelengths", "why_tests_cant": "Identities and an error bound over real values; tests compare one facet to some precision.", "anchors": ["africanus/gridding/perleypolyhedron/policies/phase_transform_policies.py: phase_rotate", "africanus/gridding/perleypolyhedron/policies/baseline_transform_policies.py: uvw_rotate, uvw_planarwapprox", "africanus/gridding/perleypolyhedron/gridder.py: gridder"]}
{"id": "C205", "title": "NumPy and compiled spectra of WSClean components", "statement": "The NumPy functions ordinary_spectral_model and log_spectral_model give the documented polynomials of each source. Whenever the compiled spectra succeeds, its values are those of the logarithmic model for logarithmic sources and of the ordinary model for the others. The NumPy functions also accept one reference frequency for all sources, which the compiled function refuses, and refuse numbers of sources that neither agree nor are one.", "quantifier": "all numbers of sources, coefficients and channels, fluxes, coefficients, flags and frequencies", "why_tests_cant": "Equality of two implementations for all inputs; tests compare them on random numbers to some precision.", "anchors": ["africanus/model/wsclean/spec_model.py: ordinary_spectral_model, log_spectral_model, spectra"]}
{"id": "C206", "title": "How the w-gridder's four functions fit together", "statement": "With the same options, and bins that start with the first channel, share none and name channels that exist, hessian gives the dirty image of the visibilities that model predicts, with the weights given to one of the two calls; with the weights given to both calls it is the Hessian of the squared weights; residual gives the dirty image of the visibilities minus the ones predicted without weights, which is half the direction of steepest descent of the weighted squared misfit, whose second derivative is twice the Hessian; where it is zero and no weight is negative, no image fits better. Omitting celly means square cells, omitting nthreads or giving zero means all processors, and the number of threads does not matter unless the library makes it matter.", "quantifier": "all images, visibilities, weights, flags, coordinates, frequencies and bins with the stated shape, and any linear library", "why_tests_cant": "Equality of compositions for all inputs; tests compare a few images to the precision of the gridder.", "anchors": ["africanus/gridding/wgridder/vis2im.py: dirty", "africanus/gridding/wgridder/im2vis.py: model", "africanus/gridding/wgridder/im2residim.py: residual", "africanus/gridding/wgridder/hessian.py: hessian"]}
