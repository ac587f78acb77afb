{
 "claims": [
  {
   "property": "C01",
   "status": "proved",
   "theorems": [
    "Verif.Averaging.C01_channel_map"
   ],
   "note": ""
  },
  {
   "property": "C02",
   "status": "proved",
   "theorems": [
    "Verif.Averaging.C02_rows_partitioned_by_baseline"
   ],
   "note": "antenna numbers int32, times below the sentinel"
  },
  {
   "property": "C03",
   "status": "proved",
   "theorems": [
    "Verif.Averaging.C03_time_mean_interval_sum",
    "Verif.Averaging.C03_interval_conserved"
   ],
   "note": "exact arithmetic"
  },
  {
   "property": "C04",
   "status": "proved",
   "theorems": [
    "Verif.Averaging.C04_output_sorted",
    "Verif.Averaging.C04_ties"
   ],
   "note": ""
  },
  {
   "property": "C05",
   "status": "proved",
   "theorems": [
    "Verif.Averaging.C05_flag_conjunction",
    "Verif.Averaging.C06_no_other_error"
   ],
   "note": ""
  },
  {
   "property": "C06",
   "status": "proved",
   "theorems": [
    "Verif.Averaging.C06_value_error_iff_duplicate",
    "Verif.Averaging.C06_no_other_error",
    "Verif.Averaging.C06_time_and_channel_outcome"
   ],
   "note": ""
  },
  {
   "property": "C07",
   "status": "partial",
   "theorems": [
    "Verif.Averaging.C07_bins_fit_partial",
    "Verif.Averaging.C07_violated"
   ],
   "note": "holds when lower edges do not decrease; refuted in general"
  },
  {
   "property": "C08",
   "status": "partial",
   "theorems": [
    "Verif.Averaging.C08_sharing_partial",
    "Verif.Averaging.C08_regular_bin_count_partial",
    "Verif.Averaging.C08_violated"
   ],
   "note": "refuted by the code (bin_low is not reset); exact behaviour proved"
  },
  {
   "property": "C09",
   "status": "proved",
   "theorems": [
    "Verif.Averaging.C09_unique",
    "Verif.Averaging.C09_counts_sum"
   ],
   "note": ""
  },
  {
   "property": "C10",
   "status": "proved",
   "theorems": [
    "Verif.Averaging.C10_baseline_packing",
    "Verif.Averaging.C10_pack_roundtrip"
   ],
   "note": ""
  },
  {
   "property": "C11",
   "status": "proved",
   "theorems": [
    "Verif.Averaging.C11_row_average"
   ],
   "note": "row flags 0/1"
  },
  {
   "property": "C12",
   "status": "partial",
   "theorems": [
    "Verif.Averaging.C12_row_mapper_partial",
    "Verif.Averaging.C12_violated"
   ],
   "note": "row mapping treats all positive flags alike; row_average does not (refuted)"
  },
  {
   "property": "C13",
   "status": "proved",
   "theorems": [
    "Verif.Averaging.C13_sigma",
    "Verif.Averaging.C13_sigma_real",
    "Verif.Averaging.C13_sigma_spectrum"
   ],
   "note": "exact arithmetic"
  },
  {
   "property": "C14",
   "status": "proved",
   "theorems": [
    "Verif.Averaging.C14_vis_weighted_mean"
   ],
   "note": "exact arithmetic, row flags 0/1"
  },
  {
   "property": "C15",
   "status": "proved",
   "theorems": [
    "Verif.Averaging.C15_flag_conjunction",
    "Verif.Averaging.C15_no_zero_filled_bin",
    "Verif.Averaging.C15_time_and_channel"
   ],
   "note": ""
  },
  {
   "property": "C16",
   "status": "proved",
   "theorems": [
    "Verif.Averaging.C16_weight_spectrum_sum",
    "Verif.Averaging.C16_weight_conserved"
   ],
   "note": ""
  },
  {
   "property": "C17",
   "status": "proved",
   "theorems": [
    "Verif.Averaging.C17_chan_average",
    "Verif.Averaging.C17_totals_conserved"
   ],
   "note": ""
  },
  {
   "property": "C18",
   "status": "proved",
   "theorems": [
    "Verif.Averaging.C18_merge_both",
    "Verif.Averaging.C18_merge_flag_only",
    "Verif.Averaging.C18_merge_rest"
   ],
   "note": ""
  },
  {
   "property": "C19",
   "status": "partial",
   "theorems": [
    "Verif.Averaging.C19_row_chan_chunks_partial",
    "Verif.Averaging.C19_violated"
   ],
   "note": "holds for row-chan data; refuted for channel metadata (bin size not passed on)"
  },
  {
   "property": "C20",
   "status": "partial",
   "theorems": [
    "Verif.Averaging.C20_row_chan_absent_partial",
    "Verif.Averaging.C20_violated"
   ],
   "note": "refuted: TypeError; the row-chan part holds"
  },
  {
   "property": "C21",
   "status": "proved",
   "theorems": [
    "Verif.Calibration.C21_corrupt_full",
    "Verif.Calibration.C21_corrupt_diag",
    "Verif.Calibration.C21_corrupt_diag_diag"
   ],
   "note": "exact arithmetic"
  },
  {
   "property": "C22",
   "status": "proved",
   "theorems": [
    "Verif.Calibration.C22_correct_full",
    "Verif.Calibration.C22_correct_diag",
    "Verif.Calibration.C22_correct_diag_diag",
    "Verif.Calibration.C22_directions_value_error"
   ],
   "note": "exact arithmetic; single direction, invertible gains"
  },
  {
   "property": "C23",
   "status": "proved",
   "theorems": [
    "Verif.Calibration.C23_residual_full",
    "Verif.Calibration.C23_residual_diag",
    "Verif.Calibration.C23_residual_diag_diag",
    "Verif.Calibration.C23_residual_of_corrupted"
   ],
   "note": "exact arithmetic"
  },
  {
   "property": "C24",
   "status": "proved",
   "theorems": [
    "Verif.Calibration.C24_offset",
    "Verif.Calibration.C24_corrupt_chunk",
    "Verif.Calibration.C24_residual_chunk",
    "Verif.Calibration.C24_correct_chunk",
    "Verif.Calibration.C24_chunks_of_chunkify",
    "Verif.Calibration.C24_corrupt_all_chunks"
   ],
   "note": ""
  },
  {
   "property": "C25",
   "status": "proved",
   "theorems": [
    "Verif.Calibration.C25_check_type_ok",
    "Verif.Calibration.C25_check_type_error"
   ],
   "note": ""
  },
  {
   "property": "C26",
   "status": "proved",
   "theorems": [
    "Verif.Calibration.C26_chunkify_rows",
    "Verif.Calibration.C26_zero_chunk"
   ],
   "note": ""
  },
  {
   "property": "C27",
   "status": "proved",
   "theorems": [
    "Verif.Calibration.C27_both_eq_separate",
    "Verif.Calibration.C27_entries",
    "Verif.Calibration.C27_jhj_nonneg",
    "Verif.Calibration.C27_jhr_zero"
   ],
   "note": "exact arithmetic"
  },
  {
   "property": "C28",
   "status": "partial",
   "theorems": [
    "Verif.Calibration.C28_normal_equations_partial",
    "Verif.Calibration.C28_violated"
   ],
   "note": "jhj counts autocorrelations with |V|^2 twice although their derivative is zero (refuted); holds for tables without autocorrelations; jhr holds in general"
  },
  {
   "property": "C29",
   "status": "proved",
   "theorems": [
    "Verif.Calibration.C29_unit_gains",
    "Verif.Calibration.C29_no_iteration",
    "Verif.Calibration.C29_modes",
    "Verif.Calibration.C29_fixed_point"
   ],
   "note": "exact arithmetic"
  },
  {
   "property": "C30",
   "status": "proved",
   "theorems": [
    "Verif.Calibration.C30_compute_and_corrupt",
    "Verif.Calibration.C30_ok"
   ],
   "note": "exact arithmetic"
  },
  {
   "property": "C31",
   "status": "proved",
   "theorems": [
    "Verif.Rime.C31_value",
    "Verif.Rime.C31_unit",
    "Verif.Rime.C31_centre",
    "Verif.Rime.C31_symmetries"
   ],
   "note": "exact arithmetic"
  },
  {
   "property": "C32",
   "status": "proved",
   "theorems": [
    "Verif.Rime.C32_types",
    "Verif.Rime.C32_unitary",
    "Verif.Rime.C32_zero",
    "Verif.Rime.C32_add"
   ],
   "note": "exact arithmetic"
  },
  {
   "property": "C33",
   "status": "partial",
   "theorems": [
    "Verif.Rime.C33_rotation_partial",
    "Verif.Rime.C33_distance_partial",
    "Verif.Rime.C33_violated"
   ],
   "note": "refuted: the rotated l is used when computing m; exact deviation and the cases where the claim holds are proved"
  },
  {
   "property": "C34",
   "status": "proved",
   "theorems": [
    "Verif.Rime.C34_predict_full",
    "Verif.Rime.C34_predict_diag"
   ],
   "note": "exact arithmetic"
  },
  {
   "property": "C35",
   "status": "proved",
   "theorems": [
    "Verif.Rime.C35_checks_ok",
    "Verif.Rime.C35_checks_error",
    "Verif.Rime.C35_types",
    "Verif.Rime.C35_types_error",
    "Verif.Rime.C35_kind"
   ],
   "note": ""
  },
  {
   "property": "C36",
   "status": "proved",
   "theorems": [
    "Verif.Rime.C36_linear_full",
    "Verif.Rime.C36_parallel_full",
    "Verif.Rime.C36_linear_diag",
    "Verif.Rime.C36_parallel_diag",
    "Verif.Rime.C36_block_full",
    "Verif.Rime.C36_block_diag",
    "Verif.Rime.C36_base_vis_only"
   ],
   "note": "something besides base visibilities supplied (otherwise the dask version raises ValueError, C36_base_vis_only)"
  },
  {
   "property": "C37",
   "status": "partial",
   "theorems": [
    "Verif.Rime.C37_length_partial",
    "Verif.Rime.C37_closed",
    "Verif.Rime.C37_violated"
   ],
   "note": "refuted for more than one source block; exact condition proved"
  },
  {
   "property": "C38",
   "status": "proved",
   "theorems": [
    "Verif.Rime.C38_reverse_full",
    "Verif.Rime.C38_reverse_diag"
   ],
   "note": "exact arithmetic"
  },
  {
   "property": "C39",
   "status": "proved",
   "theorems": [
    "Verif.Rime.C39_apply_full",
    "Verif.Rime.C39_apply_diag",
    "Verif.Rime.C39_identity_full",
    "Verif.Rime.C39_identity_diag",
    "Verif.Rime.C39_inverse_full",
    "Verif.Rime.C39_inverse_diag"
   ],
   "note": "exact arithmetic"
  },
  {
   "property": "C40",
   "status": "proved",
   "theorems": [
    "Verif.Rime.C40_sum",
    "Verif.Rime.C40_additive",
    "Verif.Rime.C40_zero_extent",
    "Verif.Rime.C40_unknown_type"
   ],
   "note": "exact arithmetic; spectra are an input here (see C48)"
  },
  {
   "property": "C41",
   "status": "proved",
   "theorems": [
    "Verif.Rime.C41_freq_grid"
   ],
   "note": "exact arithmetic"
  },
  {
   "property": "C42",
   "status": "proved",
   "theorems": [
    "Verif.Rime.C42_reads_inside",
    "Verif.Rime.C42_size_check",
    "Verif.Rime.C42_constant",
    "Verif.Rime.C42_grid_point",
    "Verif.Rime.C42_modulus",
    "Verif.Rime.C42_linear",
    "Verif.Rime.C42_between"
   ],
   "note": "exact arithmetic"
  },
  {
   "property": "C43",
   "status": "proved",
   "theorems": [
    "Verif.Rime.C43_noll_mode",
    "Verif.Rime.C43_noll_injective",
    "Verif.Rime.C43_noll_surjective",
    "Verif.Rime.C43_outside",
    "Verif.Rime.C43_value",
    "Verif.Rime.C43_dde",
    "Verif.Rime.C43_radial_one"
   ],
   "note": "exact arithmetic"
  },
  {
   "property": "C44",
   "status": "proved",
   "theorems": [
    "Verif.ModelData.C44_stokes_linear",
    "Verif.ModelData.C44_stokes_circular",
    "Verif.ModelData.C44_linear_stokes",
    "Verif.ModelData.C44_circular_stokes",
    "Verif.ModelData.C44_unpolarised"
   ],
   "note": "exact arithmetic; real Stokes values and conjugate cross hands, as the conversions from correlations to Stokes drop the other part"
  },
  {
   "property": "C45",
   "status": "proved",
   "theorems": [
    "Verif.ModelData.C45_missing_iff",
    "Verif.ModelData.C45_ok",
    "Verif.ModelData.C45_reads",
    "Verif.ModelData.C45_unknown_output"
   ],
   "note": "the outputs are known to the conversion table; an unknown first output raises UnboundLocalError (C45_unknown_output)"
  },
  {
   "property": "C46",
   "status": "partial",
   "theorems": [
    "Verif.ModelData.C46_accept_iff",
    "Verif.ModelData.C46_reject",
    "Verif.ModelData.C46_indices",
    "Verif.ModelData.C46_in_bounds",
    "Verif.ModelData.C46_identifiers",
    "Verif.ModelData.C46_violated"
   ],
   "note": "distinctness, bounds and rejection of uneven lists hold; refuted: leaves of different depth are accepted"
  },
  {
   "property": "C47",
   "status": "proved",
   "theorems": [
    "Verif.ModelData.C47_value",
    "Verif.ModelData.C47_reference",
    "Verif.ModelData.C47_flat",
    "Verif.ModelData.C47_power_law",
    "Verif.ModelData.C47_models_agree",
    "Verif.ModelData.C47_errors",
    "Verif.ModelData.C47_numpy_agrees"
   ],
   "note": "exact arithmetic"
  },
  {
   "property": "C48",
   "status": "partial",
   "theorems": [
    "Verif.ModelData.C48_value_partial",
    "Verif.ModelData.C48_error_iff",
    "Verif.ModelData.C48_error_kind",
    "Verif.ModelData.C48_reference",
    "Verif.ModelData.C48_violated"
   ],
   "note": "values as documented whenever it succeeds; refuted: a non-positive coefficient of a log polynomial is rejected too"
  },
  {
   "property": "C49",
   "status": "partial",
   "theorems": [
    "Verif.ModelData.Wsclean.C49_accept_iff",
    "Verif.ModelData.Wsclean.C49_content",
    "Verif.ModelData.Wsclean.C49_fields",
    "Verif.ModelData.Wsclean.C49_header",
    "Verif.ModelData.Wsclean.C49_header_errors",
    "Verif.ModelData.Wsclean.C49_names",
    "Verif.ModelData.Wsclean.C49_convert",
    "Verif.ModelData.Wsclean.C49_empty",
    "Verif.ModelData.Wsclean.C49_column",
    "Verif.ModelData.Wsclean.C49_hours",
    "Verif.ModelData.Wsclean.C49_degrees",
    "Verif.ModelData.Wsclean.C49_angle_reject_partial",
    "Verif.ModelData.Wsclean.C49_violated"
   ],
   "note": "exact arithmetic, ASCII files; refuted for malformed positions with trailing text (accepted) and comments after the header (not skipped)"
  },
  {
   "property": "C50",
   "status": "proved",
   "theorems": [
    "Verif.ModelData.C50_value",
    "Verif.ModelData.C50_range",
    "Verif.ModelData.C50_one",
    "Verif.ModelData.C50_symmetric",
    "Verif.ModelData.C50_circular",
    "Verif.ModelData.C50_attenuates"
   ],
   "note": "exact arithmetic"
  },
  {
   "property": "C51",
   "status": "proved",
   "theorems": [
    "Verif.ModelData.C51_iterations",
    "Verif.ModelData.C51_fixed_point",
    "Verif.ModelData.C51_variances",
    "Verif.ModelData.C51_gauss_newton",
    "Verif.ModelData.C51_variance_value",
    "Verif.ModelData.C51_failures",
    "Verif.ModelData.C51_default_start"
   ],
   "note": "exact arithmetic"
  },
  {
   "property": "C52",
   "status": "partial",
   "theorems": [
    "Verif.Util.C52_groups_partial",
    "Verif.Util.C52_totals",
    "Verif.Util.C52_errors",
    "Verif.Util.C52_form",
    "Verif.Util.C52_violated",
    "Verif.Util.C52_empty"
   ],
   "note": "all parts hold except that groups are non-empty: refuted, a leading empty chunk is produced when the first chunk reaches the maximum; an empty chunk list raises UnboundLocalError"
  },
  {
   "property": "C53",
   "status": "proved",
   "theorems": [
    "Verif.Util.C53_table",
    "Verif.Util.C53_values"
   ],
   "note": ""
  },
  {
   "property": "C54",
   "status": "proved",
   "theorems": [
    "Verif.Util.C54_inverse",
    "Verif.Util.C54_coherency"
   ],
   "note": "whole table"
  },
  {
   "property": "C55",
   "status": "proved",
   "theorems": [
    "Verif.Util.Beams.C55_grids",
    "Verif.Util.Beams.C55_ok_iff",
    "Verif.Util.Beams.C55_sign"
   ],
   "note": "exact arithmetic; ASCII keys"
  },
  {
   "property": "C56",
   "status": "proved",
   "theorems": [
    "Verif.Util.Beams.C56_filename",
    "Verif.Util.Beams.C56_dictionary",
    "Verif.Util.Beams.C56_errors"
   ],
   "note": "ASCII schemas"
  },
  {
   "property": "C57",
   "status": "proved",
   "theorems": [
    "Verif.Util.Memo.C57_once",
    "Verif.Util.Memo.C57_value",
    "Verif.Util.Memo.C57_failure",
    "Verif.Util.Memo.C57_progress",
    "Verif.Util.Memo.C57_steps"
   ],
   "note": "the decorated function does not call itself (the lock is not re-entrant)"
  },
  {
   "property": "C58",
   "status": "proved",
   "theorems": [
    "Verif.Util.Singleton.C58_once",
    "Verif.Util.Singleton.C58_same",
    "Verif.Util.Singleton.C58_progress",
    "Verif.Util.Singleton.C58_falsy"
   ],
   "note": "falsy instances are created again (C58_falsy)"
  },
  {
   "property": "C59",
   "status": "partial",
   "theorems": [
    "Verif.Util.Singleton.C59_partial",
    "Verif.Util.Singleton.C59_violated",
    "Verif.Util.Singleton.C59_violated_two_objects"
   ],
   "note": "refuted: a subclass returns the instance of a parent that was created first"
  },
  {
   "property": "C60",
   "status": "proved",
   "theorems": [
    "Verif.Util.Requirements.C60_define",
    "Verif.Util.Requirements.C60_call",
    "Verif.Util.Requirements.C60_other",
    "Verif.Util.Requirements.C60_import_raises"
   ],
   "note": "Exceptions other than ImportError that an import raises pass through (C60_import_raises)."
  },
  {
   "property": "C61",
   "status": "proved",
   "theorems": [
    "Verif.Util.Cmdline.C61_result",
    "Verif.Util.Cmdline.C61_last_wins",
    "Verif.Util.Cmdline.C61_only_slice",
    "Verif.Util.Cmdline.C61_errors"
   ],
   "note": ""
  },
  {
   "property": "C62",
   "status": "proved",
   "theorems": [
    "Verif.Util.C62_cover",
    "Verif.Util.C62_errors"
   ],
   "note": ""
  },
  {
   "property": "C63",
   "status": "proved",
   "theorems": [
    "Verif.Util.Cycles.C63_rotation",
    "Verif.Util.Cycles.C63_cycles"
   ],
   "note": ""
  },
  {
   "property": "C64",
   "status": "proved",
   "theorems": [
    "Verif.Util.Progress.C64_shown",
    "Verif.Util.Progress.C64_width",
    "Verif.Util.Progress.C64_counts",
    "Verif.Util.Progress.C64_no_error",
    "Verif.Util.Progress.C64_time",
    "Verif.Util.Progress.C64_time_sum",
    "Verif.Util.Progress.C64_halves"
   ],
   "note": "exact arithmetic; the callbacks hold the lock, so their calls are a sequence; seconds are rounded and may be shown as 60"
  },
  {
   "property": "C65",
   "status": "partial",
   "theorems": [
    "Verif.Linalg.Kron.C65_matvec",
    "Verif.Linalg.Kron.C65_matmat",
    "Verif.Linalg.Kron.C65_tensorvec_partial",
    "Verif.Linalg.Kron.C65_tensormat_partial",
    "Verif.Linalg.Kron.C65_violated"
   ],
   "note": "matvec and matmat for all factors; tensorvec and tensormat only for extents below 128: the extents are kept in int8 arrays"
  },
  {
   "property": "C66",
   "status": "proved",
   "theorems": [
    "Verif.Linalg.Kron.C66_cholesky",
    "Verif.Linalg.Kron.C66_exact",
    "Verif.Linalg.Kron.C66_lower"
   ],
   "note": "np.linalg.cholesky is a parameter"
  },
  {
   "property": "C67",
   "status": "proved",
   "theorems": [
    "Verif.Linalg.Geometry.C67_box",
    "Verif.Linalg.Geometry.C67_hull",
    "Verif.Linalg.Geometry.C67_mask",
    "Verif.Linalg.Geometry.C67_tolerance"
   ],
   "note": "scipy ConvexHull is a parameter with its documented result"
  },
  {
   "property": "C68",
   "status": "partial",
   "theorems": [
    "Verif.Linalg.Geometry.C68_partition_partial",
    "Verif.Linalg.Geometry.C68_one_pixel",
    "Verif.Linalg.Geometry.C68_violated",
    "Verif.Linalg.Geometry.C68_reject"
   ],
   "note": "refuted for box sizes that leave an inverted last box; partition proved if every sub-box is at least two pixels wide and high"
  },
  {
   "property": "C69",
   "status": "partial",
   "theorems": [
    "Verif.Linalg.Geometry.C69_size",
    "Verif.Linalg.Geometry.C69_contains_partial",
    "Verif.Linalg.Geometry.C69_violated",
    "Verif.Linalg.Geometry.C69_reject"
   ],
   "note": "refuted for even sizes that are not enlarged"
  },
  {
   "property": "C70",
   "status": "partial",
   "theorems": [
    "Verif.Linalg.Geometry.C70_aligned_partial",
    "Verif.Linalg.Geometry.C70_violated"
   ],
   "note": "refuted for square=True"
  },
  {
   "property": "C71",
   "status": "partial",
   "theorems": [
    "Verif.Linalg.Geometry.C71_partition_partial",
    "Verif.Linalg.Geometry.C71_violated",
    "Verif.Linalg.Geometry.C71_empty"
   ],
   "note": "refuted if some mask has a pixel with negative x"
  },
  {
   "property": "C72",
   "status": "partial",
   "theorems": [
    "Verif.Linalg.Geometry.C72_shared",
    "Verif.Linalg.Geometry.C72_symmetric_partial",
    "Verif.Linalg.Geometry.C72_violated"
   ],
   "note": "shared points are never missed; symmetry refuted"
  },
  {
   "property": "C73",
   "status": "partial",
   "theorems": [
    "Verif.Linalg.Geometry.C73_extract_partial",
    "Verif.Linalg.Geometry.C73_project",
    "Verif.Linalg.Geometry.C73_reject",
    "Verif.Linalg.Geometry.C73_roundtrip_partial",
    "Verif.Linalg.Geometry.C73_violated",
    "Verif.Linalg.Geometry.C73_oob_ignored"
   ],
   "note": "extraction refuted for images that are not square"
  },
  {
   "property": "C74",
   "status": "proved",
   "theorems": [
    "Verif.Gridding.C74_roundtrip",
    "Verif.Gridding.C74_roundtrip_packed",
    "Verif.Gridding.C74_lookup",
    "Verif.Gridding.C74_rejects"
   ],
   "note": ""
  },
  {
   "property": "C75",
   "status": "proved",
   "theorems": [
    "Verif.Gridding.C75_supported",
    "Verif.Gridding.C75_roundtrip",
    "Verif.Gridding.C75_orthogonal",
    "Verif.Gridding.C75_ncorr",
    "Verif.Gridding.C75_ncorr_written",
    "Verif.Gridding.C75_no_counterpart"
   ],
   "note": "every name supported in both directions; RLLR_FROM_Q has no counterpart"
  },
  {
   "property": "C76",
   "status": "partial",
   "theorems": [
    "Verif.Gridding.C76_linear",
    "Verif.Gridding.C76_value",
    "Verif.Gridding.C76_adjoint_partial",
    "Verif.Gridding.C76_violated"
   ],
   "note": "linear with every policy; adjoint without a baseline transform; refuted with one: gridder and degridder transform differently"
  },
  {
   "property": "C77",
   "status": "partial",
   "theorems": [
    "Verif.Gridding.C77_rows_partial",
    "Verif.Gridding.C77_violated"
   ],
   "note": "refuted: the grids of the row chunks are averaged instead of summed; equal up to the number of chunks"
  },
  {
   "property": "C78",
   "status": "proved",
   "theorems": [
    "Verif.Gridding.C78_inverse",
    "Verif.Gridding.C78_modulus",
    "Verif.Gridding.C78_offset",
    "Verif.Gridding.C78_identity"
   ],
   "note": "exact arithmetic"
  },
  {
   "property": "C79",
   "status": "partial",
   "theorems": [
    "Verif.Gridding.C79_violated",
    "Verif.Gridding.C79_violated_overwrite",
    "Verif.Gridding.C79_matrix_partial",
    "Verif.Gridding.C79_first_partial",
    "Verif.Gridding.C79_planar"
   ],
   "note": "refuted: the policy rotate reads the number after the row instead of w and uses already replaced components; proved: the matrix is a rotation, the planar policy is as documented"
  },
  {
   "property": "C80",
   "status": "proved",
   "theorems": [
    "Verif.Nifty.C80_once",
    "Verif.Nifty.C80_sum",
    "Verif.Nifty.C80_progress",
    "Verif.Nifty.C80_exclusive",
    "Verif.Nifty.C80_streams",
    "Verif.Nifty.C80_other",
    "Verif.Nifty.C80_closed"
   ],
   "note": "all schedules of the task graph; gridding of a block is a parameter"
  },
  {
   "property": "C81",
   "status": "proved",
   "theorems": [
    "Verif.Wgridder.C81_residual",
    "Verif.Wgridder.C81_dirty_chunks",
    "Verif.Wgridder.C81_hessian_chunks",
    "Verif.Wgridder.C81_residual_chunks"
   ],
   "note": "ducc0 by the sums its documentation states; the dirty image refuses empty row chunks"
  },
  {
   "property": "C82",
   "status": "partial",
   "theorems": [
    "Verif.CellSize.C82_nyquist",
    "Verif.CellSize.C82_check",
    "Verif.CellSize.C82_types",
    "Verif.CellSize.C82_violated",
    "Verif.CellSize.C82_zero_baseline"
   ],
   "note": "refuted: the image-size check is the opposite of the documented one"
  },
  {
   "property": "C83",
   "status": "proved",
   "theorems": [
    "Verif.Deconv.C83_accounts_for_dirty",
    "Verif.Deconv.C83_rejects"
   ],
   "note": "the psf is centred at (n-1, n-1); exact arithmetic; that the input is not changed is the copy on the first line of the function, the model has no aliasing"
  },
  {
   "property": "C84",
   "status": "partial",
   "theorems": [
    "Verif.Deconv.C84_rounds_partial",
    "Verif.Deconv.C84_violated"
   ],
   "note": "refuted: up to niter + 1 components; everything else about the rounds is proved"
  },
  {
   "property": "C85",
   "status": "partial",
   "theorems": [
    "Verif.Deconv.C85_find_peak_partial",
    "Verif.Deconv.C85_empty_partial",
    "Verif.Deconv.C85_violated"
   ],
   "note": "largest value, not largest absolute value"
  },
  {
   "property": "C86",
   "status": "proved",
   "theorems": [
    "Verif.Dft.C86_im_to_vis",
    "Verif.Dft.C86_vis_to_im",
    "Verif.Dft.C86_unknown_convention",
    "Verif.Dft.C86_im_to_vis_linear",
    "Verif.Dft.C86_vis_to_im_linear",
    "Verif.Dft.C86_adjoint",
    "Verif.Dft.C86_flagged_ignored"
   ],
   "note": "exact arithmetic; sources inside the unit disc"
  },
  {
   "property": "C87",
   "status": "partial",
   "theorems": [
    "Verif.Coordinates.C87_unit_partial",
    "Verif.Coordinates.C87_centre_partial",
    "Verif.Coordinates.C87_lm_partial",
    "Verif.Coordinates.C87_components_partial",
    "Verif.Coordinates.C87_radec_round_trip_partial",
    "Verif.Coordinates.C87_lm_round_trip_partial",
    "Verif.Coordinates.C87_violated"
   ],
   "note": "round trips refuted beyond the pole and where the denominator vanishes; proved everywhere else"
  },
  {
   "property": "C88",
   "status": "proved",
   "theorems": [
    "Verif.Gps.C88_abs_diff",
    "Verif.Gps.C88_abs_diff_vectors",
    "Verif.Gps.C88_metric",
    "Verif.Gps.C88_transpose",
    "Verif.Gps.C88_kernel_value",
    "Verif.Gps.C88_kernel",
    "Verif.Gps.C88_columns"
   ],
   "note": "exact arithmetic, l and sigmaf not zero"
  },
  {
   "property": "C89",
   "status": "partial",
   "theorems": [
    "Verif.Splines.C89_partial",
    "Verif.Splines.C89_violated",
    "Verif.Splines.C89_violated_left_value",
    "Verif.Splines.C89_violated_right_type",
    "Verif.Splines.C89_slopes_partial",
    "Verif.Splines.C89_first_knot",
    "Verif.Splines.C89_memory_violated",
    "Verif.Splines.C89_slopes_violated"
   ],
   "note": "refuted for every three knots not on a line and, with prescribed slopes at both ends, for all knots and values (the result depends on memory outside the array); solved only for points on a line"
  },
  {
   "property": "C90",
   "status": "proved",
   "theorems": [
    "Verif.Averaging.C90_chan_corrs"
   ],
   "note": "positive extents"
  },
  {
   "property": "C91",
   "status": "proved",
   "theorems": [
    "Verif.Util.Cycles.C91_transpose",
    "Verif.Util.Cycles.C91_reject"
   ],
   "note": "threads of one group, __shfl_sync as documented, one component per register"
  },
  {
   "property": "C92",
   "status": "partial",
   "theorems": [
    "Verif.Linalg.Geometry.C92_fresh_partial",
    "Verif.Linalg.Geometry.C92_violated"
   ],
   "note": "refuted if the sparse mask is set after the filled mask was read"
  },
  {
   "property": "C93",
   "status": "proved",
   "theorems": [
    "Verif.Deconv.C93_elliptical",
    "Verif.Deconv.C93_centre",
    "Verif.Deconv.C93_bounds",
    "Verif.Deconv.C93_symmetries"
   ],
   "note": "exact arithmetic"
  },
  {
   "property": "C94",
   "status": "partial",
   "theorems": [
    "Verif.Dft.C94_vis_to_im_partial",
    "Verif.Dft.C94_im_to_vis_partial",
    "Verif.Dft.C94_rejects_partial",
    "Verif.Dft.C94_violated"
   ],
   "note": "refuted for vis_to_im with the correlations in several chunks"
  },
  {
   "property": "C95",
   "status": "proved",
   "theorems": [
    "Verif.Gps.C95_positive_semidefinite"
   ],
   "note": "exact arithmetic"
  },
  {
   "property": "C96",
   "status": "partial",
   "theorems": [
    "Verif.Gps.C96_violated",
    "Verif.Gps.C96_transform_partial",
    "Verif.Gps.C96_rejects_partial"
   ],
   "note": "refuted: factor sqrt(2 pi l) instead of sqrt(2 pi) l, and frequencies that are not angular"
  },
  {
   "property": "C97",
   "status": "partial",
   "theorems": [
    "Verif.Splines.C97_interpolates_partial",
    "Verif.Splines.C97_violated",
    "Verif.Splines.C97_violated_outside",
    "Verif.Splines.C97_last_derivative",
    "Verif.Splines.C97_violated_last",
    "Verif.Splines.C97_rejects"
   ],
   "note": "the last knot and points outside the knots are refuted; all other knots are interpolated"
  },
  {
   "property": "C98",
   "status": "partial",
   "theorems": [
    "Verif.Splines.C98_smooth_partial",
    "Verif.Splines.C98_violated"
   ],
   "note": "refuted: the second derivative jumps; smooth if the solver solved the system"
  },
  {
   "property": "C99",
   "status": "proved",
   "theorems": [
    "Verif.Gridding.C99_rejects_even",
    "Verif.Gridding.C99_sums_to_one",
    "Verif.Gridding.C99_kbsinc_domain"
   ],
   "note": "exact arithmetic; sums that are not zero"
  },
  {
   "property": "C100",
   "status": "proved",
   "theorems": [
    "Verif.Gridding.C100_separable",
    "Verif.Gridding.C100_fft"
   ],
   "note": "exact arithmetic; scipy Fourier transforms by their defining sums"
  },
  {
   "property": "C101",
   "status": "partial",
   "theorems": [
    "Verif.Gridding.C101_arguments_partial",
    "Verif.Gridding.C101_facets_partial",
    "Verif.Gridding.C101_violated"
   ],
   "note": "refuted with a phase transform: the visibilities of the caller are changed and later facets use them"
  },
  {
   "property": "C102",
   "status": "partial",
   "theorems": [
    "Verif.Gridding.C102_first_chunk",
    "Verif.Gridding.C102_violated",
    "Verif.Gridding.C102_rejects"
   ],
   "note": "refuted: only the first chunk of channels is gridded; what remains true is the refusal of chunks that differ"
  },
  {
   "property": "C103",
   "status": "proved",
   "theorems": [
    "Verif.Wgridder.C103_symmetric",
    "Verif.Wgridder.C103_psd"
   ],
   "note": "ducc0 by the sums its documentation states; exact arithmetic"
  },
  {
   "property": "C104",
   "status": "partial",
   "theorems": [
    "Verif.Gridding.C104_safe_partial",
    "Verif.Gridding.C104_violated"
   ],
   "note": "refuted for the nearest neighbour policy"
  },
  {
   "property": "C105",
   "status": "proved",
   "theorems": [
    "Verif.Gridding.C105_nearest",
    "Verif.Gridding.C105_packed_taps",
    "Verif.Gridding.C105_packed_grid"
   ],
   "note": "exact arithmetic"
  },
  {
   "property": "C106",
   "status": "partial",
   "theorems": [
    "Verif.Gridding.C106_chunks_partial",
    "Verif.Gridding.C106_first_chunk",
    "Verif.Gridding.C106_violated",
    "Verif.Gridding.C106_rejects"
   ],
   "note": "refuted for several chunks of facets"
  },
  {
   "property": "C107",
   "status": "partial",
   "theorems": [
    "Verif.Wgridder.C107_dirty_partial",
    "Verif.Wgridder.C107_model_partial",
    "Verif.Wgridder.C107_rest_partial",
    "Verif.Wgridder.C107_transpose_partial",
    "Verif.Wgridder.C107_model_chunks_partial",
    "Verif.Wgridder.C107_bands",
    "Verif.Wgridder.C107_violated"
   ],
   "note": "refuted for bins whose first channel is not 0: they are shifted to channel 0"
  },
  {
   "property": "C108",
   "status": "partial",
   "theorems": [
    "Verif.Util.Progress.C108_display",
    "Verif.Util.Progress.C108_estimate",
    "Verif.Util.Progress.C108_violated",
    "Verif.Util.Progress.C108_violated_jump"
   ],
   "note": "refuted: a task of no measured time ends the display thread, and the estimate changes without a completed task; bar width, percentage and estimate bounds are proved"
  },
  {
   "property": "C109",
   "status": "partial",
   "theorems": [
    "Verif.Util.Progress.C109_safe_partial",
    "Verif.Util.Progress.C109_loop",
    "Verif.Util.Progress.C109_violated"
   ],
   "note": "refuted: the dictionary is emptied without the lock"
  },
  {
   "property": "C110",
   "status": "partial",
   "theorems": [
    "Verif.Calibration.C110_corrupt_vis",
    "Verif.Calibration.C110_flags",
    "Verif.Calibration.C110_residual_vis_partial",
    "Verif.Calibration.C110_correct_vis_partial",
    "Verif.Calibration.C110_compute_and_corrupt_vis",
    "Verif.Calibration.C110_jhj_jhr_blocks_partial",
    "Verif.Calibration.C110_chunkify_fits",
    "Verif.Calibration.C110_refuses",
    "Verif.Calibration.C110_modes",
    "Verif.Calibration.C110_jhj_modes",
    "Verif.Calibration.C110_jhj_shape_violated",
    "Verif.Calibration.C110_corr_chunks_violated"
   ],
   "note": "refuted in two cases: compute_jhj/compute_jhr declare the number of rows for an axis of times, and flags are combined per correlation chunk; all other chunkings are proved"
  },
  {
   "property": "C111",
   "status": "partial",
   "theorems": [
    "Verif.Calibration.C111_schedules_partial",
    "Verif.Calibration.C111_alone",
    "Verif.Calibration.C111_finishes",
    "Verif.Calibration.C111_again",
    "Verif.Calibration.C111_race_violated",
    "Verif.Calibration.C111_reuse_violated"
   ],
   "note": "refuted: time_bin_indices is shifted in place, so tasks of two channel chunks race and a chunked computation leaves the array changed; proved for blocks without common entries or starting at row 0, under every schedule"
  },
  {
   "property": "C112",
   "status": "partial",
   "theorems": [
    "Verif.Averaging.C112_blocks_partial",
    "Verif.Averaging.C112_errors",
    "Verif.Averaging.C112_refused",
    "Verif.Averaging.C112_chan_only_violated",
    "Verif.Averaging.C112_corr_chunks_violated"
   ],
   "note": "proved for every accepted call; refuted: channel arrays alone are refused by dask with ValueError, and row weights in several correlation chunks are truncated to the first chunk although all correlations are declared"
  },
  {
   "property": "C113",
   "status": "proved",
   "theorems": [
    "Verif.Dask.C113_radec_to_lmn",
    "Verif.Dask.C113_radec_to_lm",
    "Verif.Dask.C113_lmn_to_radec",
    "Verif.Dask.C113_lm_to_radec",
    "Verif.Dask.C113_split_components",
    "Verif.Dask.C113_numpy"
   ],
   "note": ""
  },
  {
   "property": "C114",
   "status": "partial",
   "theorems": [
    "Verif.Dask.C114_numpy_phase",
    "Verif.Dask.C114_numpy_feed",
    "Verif.Dask.C114_numpy_transform",
    "Verif.Dask.C114_numpy_beam",
    "Verif.Dask.C114_numpy_zernike",
    "Verif.Dask.C114_numpy_parallactic",
    "Verif.Dask.C114_phase_delay",
    "Verif.Dask.C114_parallactic_angles",
    "Verif.Dask.C114_feed_rotation",
    "Verif.Dask.C114_transform_sources",
    "Verif.Dask.C114_beam_cube_dde",
    "Verif.Dask.C114_beam_refused",
    "Verif.Dask.C114_phase_split",
    "Verif.Dask.C114_zernike_dde_partial",
    "Verif.Dask.C114_zernike_violated"
   ],
   "note": "zernike_dde silently ignores all but the first block of polynomials: proved as C114_zernike_violated; C114_zernike_dde_partial assumes one block. parallactic_angles with an external backend assumes at least one time."
  },
  {
   "property": "C115",
   "status": "partial",
   "theorems": [
    "Verif.Dask.C115_numpy_gaussian",
    "Verif.Dask.C115_numpy_spectral_model",
    "Verif.Dask.C115_numpy_spectra_partial",
    "Verif.Dask.C115_numpy_fit",
    "Verif.Dask.C115_gaussian",
    "Verif.Dask.C115_spectral_model",
    "Verif.Dask.C115_spectral_model_pol_partial",
    "Verif.Dask.C115_spectral_model_violated",
    "Verif.Dask.C115_spectral_model_refused",
    "Verif.Dask.C115_spectra_partial",
    "Verif.Dask.C115_spectra_violated",
    "Verif.Dask.C115_fit_spi_partial",
    "Verif.Dask.C115_fit_spi_violated",
    "Verif.Dask.C115_convert_partial",
    "Verif.Dask.C115_convert_violated"
   ],
   "note": "The last sentence fails: spectra and fit_spi_components ignore all but the first block of coefficients or channels, spectral_model restarts the list of bases in every block of polarisations, and convert adds up the blocks of split polarisations. Each is proved as a _violated theorem on concrete arrays; the _partial theorems exclude these chunkings. At most one polarisation axis for spectral_model and none for spectra."
  },
  {
   "property": "C116",
   "status": "partial",
   "theorems": [
    "Verif.Dask.C116_numpy_partial",
    "Verif.Dask.C116_predict_partial",
    "Verif.Dask.C116_cell",
    "Verif.Dask.C116_violated",
    "Verif.Dask.C116_bool_refused"
   ],
   "note": "Refuted for split coefficients: only the first block is used. The partial theorem has the coefficients in one block. Components of uvw, lm and shapes in several blocks would read outside the arrays in numba; this is not modelled."
  },
  {
   "property": "C117",
   "status": "partial",
   "theorems": [
    "Verif.Dask.C117_numpy",
    "Verif.Dask.C117_full_partial",
    "Verif.Dask.C117_diag_partial",
    "Verif.Dask.C117_refused",
    "Verif.Dask.C117_violated",
    "Verif.Dask.C117_not_agrees"
   ],
   "note": "The last sentence fails: chunks are not aligned, so coherencies in one block of rows are accepted with rows in several blocks, and the first rows of it are used for every block. All else is proved, for matching chunks. Base visibilities are modelled with the chunks of the output."
  },
  {
   "property": "C118",
   "status": "partial",
   "theorems": [
    "Verif.Cuda.C118_phase_partial",
    "Verif.Cuda.C118_phase_refused",
    "Verif.Cuda.C118_phase_violated",
    "Verif.Cuda.C118_jax",
    "Verif.Cuda.C118_feed",
    "Verif.Cuda.C118_feed_refused"
   ],
   "note": "The last sentence fails for phase_delay: lm and uvw are read through raw pointers, so lmn[:, :2] gives wrong phases (C118_phase_violated). All else is proved."
  },
  {
   "property": "C119",
   "status": "partial",
   "theorems": [
    "Verif.Cuda.C119_full_partial",
    "Verif.Cuda.C119_diag_partial",
    "Verif.Cuda.C119_refused",
    "Verif.Cuda.C119_types",
    "Verif.Cuda.C119_axes",
    "Verif.Cuda.C119_base_vis_violated",
    "Verif.Cuda.C119_index_violated"
   ],
   "note": "The last sentence fails: with base visibilities alone the kernel does not compile, and indices are 32 bit integers, so that arrays of more than 2^31 elements are misread. Everything else is proved. Shuffles are assumed to work for all active lanes although the code passes a mask that names five of them."
  },
  {
   "property": "C120",
   "status": "partial",
   "theorems": [
    "Verif.Cuda.C120_partial",
    "Verif.Cuda.C120_refused",
    "Verif.Cuda.C120_channels_violated",
    "Verif.Cuda.C120_extents_violated",
    "Verif.Cuda.C120_size_violated"
   ],
   "note": "Proved for channels below 1024 in blocks of 32 columns of which at least four exist. It fails elsewhere: channels from the 1024th on search uninitialised shared memory (C120_channels_violated), a last block of one to three columns does not load all extents (C120_extents_violated). Beams of one point are accepted once a kernel for arrays of the same types was generated (C120_size_violated)."
  },
  {
   "property": "C121",
   "status": "partial",
   "theorems": [
    "Verif.Cuda.C121_partial",
    "Verif.Cuda.C121_accepts_only",
    "Verif.Cuda.C121_errors",
    "Verif.Cuda.C121_strided",
    "Verif.Cuda.C121_large_violated",
    "Verif.Cuda.C121_shape_violated"
   ],
   "note": "Proved for fewer than 2^31 numbers and for floating point types (integers are not modelled). With 2^31 numbers or more nothing is written (C121_large_violated). Once a kernel for the same schemas and type exists, the last extents of the input are no longer compared with the schema (C121_shape_violated). A schema whose length is not a power of two is refused although the CPU accepts it."
  },
  {
   "property": "C122",
   "status": "partial",
   "theorems": [
    "Verif.Nifty.C122_grid_partial",
    "Verif.Nifty.C122_frequency_chunks",
    "Verif.Nifty.C122_channel_chunks",
    "Verif.Nifty.C122_streams_violated"
   ],
   "note": "Proved for arrays with the same chunks along the rows. With visibilities or weights in other row chunks than the coordinates, the grid is computed without streams but raises with streams (C122_streams_violated). What nifty_gridder does to a sample is a parameter."
  },
  {
   "property": "C123",
   "status": "proved",
   "theorems": [
    "Verif.Nifty.C123_degrid",
    "Verif.Nifty.C123_frequency_chunks",
    "Verif.Nifty.C123_chunks"
   ],
   "note": "The flags have the row chunks of the coordinates. What nifty_gridder does to a sample is a parameter."
  },
  {
   "property": "C124",
   "status": "proved",
   "theorems": [
    "Verif.Nifty.C124_dirty",
    "Verif.Nifty.C124_model",
    "Verif.Nifty.C124_whole",
    "Verif.Nifty.C124_chunks",
    "Verif.Nifty.C124_pickle",
    "Verif.Nifty.C124_token"
   ],
   "note": "What nifty_gridder does to a grid or image is a parameter. In several chunks the declared extents are multiples of those of the image (second half of C124_chunks)."
  },
  {
   "property": "C125",
   "status": "partial",
   "theorems": [
    "Verif.Install.C125_complete_partial",
    "Verif.Install.C125_cub_partial",
    "Verif.Install.C125_trove_partial",
    "Verif.Install.C125_no_crash",
    "Verif.Install.C125_exclusive",
    "Verif.Install.C125_once",
    "Verif.Install.C125_progress",
    "Verif.Install.C125_crash_violated",
    "Verif.Install.C125_processes_violated"
   ],
   "note": "With crashes, proved if the temporary directory is on the same file system as the include directory. On another one, a process killed while the files are copied leaves an incomplete directory that the next process takes for installed (C125_crash_violated). The lock is not shared by processes: one that started before the installation removes the files under another (C125_processes_violated). rmtree is assumed to remove everything."
  },
  {
   "property": "C126",
   "status": "partial",
   "theorems": [
    "Verif.Linalg.Geometry.C126_invariant",
    "Verif.Linalg.Geometry.C126_edges",
    "Verif.Linalg.Geometry.C126_midpoints",
    "Verif.Linalg.Geometry.C126_polygon",
    "Verif.Linalg.Geometry.C126_box",
    "Verif.Linalg.Geometry.C126_violated",
    "Verif.Linalg.Geometry.C126_npx_violated"
   ],
   "note": "Over exact real numbers. The circumference counts one more for every edge, so the area is the number of pixels only for boxes; for a triangle it is neither the number of pixels nor the area (C126_violated). With reversed limits the extents of a box are wrong by two (C126_npx_violated)."
  },
  {
   "property": "C127",
   "status": "partial",
   "theorems": [
    "Verif.Nvcc.C127_restored",
    "Verif.Nvcc.C127_redirected",
    "Verif.Nvcc.C127_cleanup",
    "Verif.Nvcc.C127_command",
    "Verif.Nvcc.C127_object_violated",
    "Verif.Nvcc.C127_leak_violated",
    "Verif.Nvcc.C127_exhausted_violated",
    "Verif.Nvcc.C127_options_violated",
    "Verif.Nvcc.C127_arch_violated",
    "Verif.Nvcc.C127_python3_violated",
    "Verif.Nvcc.C127_error_violated"
   ],
   "note": "Descriptors, temporary directories and the compiler object are restored in all cases. Violated: in Python 3 nothing is ever compiled, because literal_eval rejects bytes (C127_python3_violated); every use leaks a descriptor until none is left (C127_leak_violated, C127_exhausted_violated); the list of the caller is changed (C127_options_violated); the architecture is ignored (C127_arch_violated); CompileError is never raised, but TypeError (C127_error_violated); the object file stays outside of the temporary directory (C127_command). rmtree is assumed to remove everything and dup2 of an open descriptor not to fail."
  },
  {
   "property": "C128",
   "status": "partial",
   "theorems": [
    "Verif.Nvcc.C128_search",
    "Verif.Nvcc.C128_cuda_path",
    "Verif.Nvcc.C128_cached",
    "Verif.Nvcc.C128_nvcc",
    "Verif.Nvcc.C128_match_partial",
    "Verif.Nvcc.C128_match_ends",
    "Verif.Nvcc.C128_nvcc_violated",
    "Verif.Nvcc.C128_match_violated"
   ],
   "note": "If NVCC is set, an AttributeError is raised (C128_nvcc_violated). Lines at the very end of the output are not found (C128_match_violated); with a line feed at the end they are (C128_match_ends). Regular expressions and path names are parameters."
  },
  {
   "property": "C129",
   "status": "partial",
   "theorems": [
    "Verif.Deconv.C129_beam",
    "Verif.Deconv.C129_unit_peak",
    "Verif.Deconv.C129_restore",
    "Verif.Deconv.C129_shapes",
    "Verif.Deconv.C129_error",
    "Verif.Deconv.C129_position",
    "Verif.Deconv.C129_one_pixel_violated",
    "Verif.Deconv.C129_oblong_violated"
   ],
   "note": "Proved for square images with at least two pixels along a side; curve_fit is a parameter. Images of one pixel can be cleaned but not restored (C129_one_pixel_violated). For a psf that is not square the samples of the clean beam are permuted (C129_oblong_violated). C129_position: components keep their place if the clean beam is centred at (n - 1, n - 1), and are moved by one pixel if it is centred at (n, n)."
  },
  {
   "property": "C130",
   "status": "partial",
   "theorems": [
    "Verif.Types.C130_agree",
    "Verif.Types.C130_spectral_model_partial",
    "Verif.Types.C130_spectral_model_violated",
    "Verif.Types.C130_spectra_partial",
    "Verif.Types.C130_spectra_violated",
    "Verif.Types.C130_wsclean_predict",
    "Verif.Types.C130_gains_partial",
    "Verif.Types.C130_gains_violated",
    "Verif.Types.C130_jhj_violated",
    "Verif.Types.C130_im_to_vis_partial",
    "Verif.Types.C130_im_to_vis_violated",
    "Verif.Types.C130_vis_to_im_partial",
    "Verif.Types.C130_dirty_partial",
    "Verif.Types.C130_dirty_violated",
    "Verif.Types.C130_parallactic_angles_partial",
    "Verif.Types.C130_parallactic_angles_violated",
    "Verif.Types.C130_predict_partial",
    "Verif.Types.C130_predict_violated",
    "Verif.Types.C130_base_vis_violated"
   ],
   "note": "Proved for phase_delay, feed_rotation, transform_sources, gaussian, corrupt_vis, correct_vis, residual_vis and wsclean_predict; for the other functions the theorems say for which types it holds. It fails for spectral_model and spectra (only the type of the Stokes parameters is declared), compute_jhj (complex declared, real computed), compute_jhr and compute_and_corrupt_vis (the type of the model is declared, that of the gains computed), parallactic_angles (the type of the times is declared), predict_vis (the base visibilities are left out; alone they raise ValueError), im_to_vis (default type) and dirty (UnboundLocalError)."
  },
  {
   "property": "C131",
   "status": "proved",
   "theorems": [
    "Verif.Types.C131_least",
    "Verif.Types.C131_order",
    "Verif.Types.C131_error"
   ],
   "note": ""
  },
  {
   "property": "C132",
   "status": "partial",
   "theorems": [
    "Verif.Types.C132_agree",
    "Verif.Types.C132_accepts",
    "Verif.Types.C132_predict_partial",
    "Verif.Types.C132_predict_violated",
    "Verif.Types.C132_types",
    "Verif.Types.C132_functions"
   ],
   "note": "predict_vis on the GPU passes the absent arrays to np.result_type, which takes None for float64: in single precision the result has double precision unless all six arrays are given (C132_predict_violated)."
  },
  {
   "property": "C133",
   "status": "partial",
   "theorems": [
    "Verif.Types.C133_terms",
    "Verif.Types.C133_predict",
    "Verif.Types.C133_beam_partial",
    "Verif.Types.C133_beam_violated",
    "Verif.Types.C133_convert_partial",
    "Verif.Types.C133_convert_violated"
   ],
   "note": "Proved for phase_delay, feed_rotation, predict_vis and the interpolation of frequencies. It fails for beam_cube_dde and convert, whose generators also check the shape of an argument, which is not in the key: after a call with a good shape, a bad one is not refused."
  },
  {
   "property": "C134",
   "status": "proved",
   "theorems": [
    "Verif.Averaging.C134_rows",
    "Verif.Averaging.C134_error",
    "Verif.Averaging.C134_columns",
    "Verif.Averaging.C134_samples"
   ],
   "note": ""
  },
  {
   "property": "C135",
   "status": "proved",
   "theorems": [
    "Verif.Averaging.C135_rows",
    "Verif.Averaging.C135_columns",
    "Verif.Averaging.C135_samples"
   ],
   "note": ""
  },
  {
   "property": "C136",
   "status": "partial",
   "theorems": [
    "Verif.Deconv.C136_point_partial",
    "Verif.Deconv.C136_scale",
    "Verif.Deconv.C136_centre_violated"
   ],
   "note": "Proved for psfs whose peak is at pixel (n - 1, n - 1). With the peak at (n, n), where fftshift puts it, the subtraction misses the source by a pixel: every round adds the same component again and the source stays in the residual."
  },
  {
   "property": "C137",
   "status": "proved",
   "theorems": [
    "Verif.Dft.C137_conjugate",
    "Verif.Dft.C137_conventions",
    "Verif.Dft.C137_wavelengths",
    "Verif.Dft.C137_order",
    "Verif.Dft.C137_point"
   ],
   "note": ""
  },
  {
   "property": "C138",
   "status": "proved",
   "theorems": [
    "Verif.Dft.C138_wsclean_predict",
    "Verif.Dft.C138_im_to_vis",
    "Verif.Dft.C138_wsclean_symmetry"
   ],
   "note": "Over exact real and complex numbers; Gaussians whose minor axis is zero if the major axis is."
  },
  {
   "property": "C139",
   "status": "proved",
   "theorems": [
    "Verif.Calibration.C139_gauge",
    "Verif.Calibration.C139_weights",
    "Verif.Calibration.C139_antennas",
    "Verif.Calibration.C139_baselines",
    "Verif.Calibration.C139_reference"
   ],
   "note": "Over exact complex numbers. Gains of value zero are excluded where phases are changed: their argument is zero by convention."
  },
  {
   "property": "C140",
   "status": "partial",
   "theorems": [
    "Verif.Util.Beams.C140_succeeds_partial",
    "Verif.Util.Beams.C140_succeeds_violated",
    "Verif.Util.Beams.C140_round_trip",
    "Verif.Util.Beams.C140_cdelt_violated",
    "Verif.Util.Beams.C140_beam",
    "Verif.Util.Beams.C140_errors",
    "Verif.Util.Beams.C140_names",
    "Verif.Util.Beams.C140_types"
   ],
   "note": "The frequency step is computed as bandwidth / 33 - 1: CDELT3 is wrong for all frequencies, and the jitter scaled with it makes a call with one frequency fail with AssertionError. Success is proved for frequencies that span at least 33 Hz."
  },
  {
   "property": "C141",
   "status": "partial",
   "theorems": [
    "Verif.Splines.C141_linear",
    "Verif.Splines.C141_lines",
    "Verif.Splines.C141_shift",
    "Verif.Splines.C141_unit_violated"
   ],
   "note": "The change of unit fails: the elimination subtracts a pivot where it should divide by it. The other parts are proved in full over ordered fields."
  },
  {
   "property": "C142",
   "status": "proved",
   "theorems": [
    "Verif.Util.Text.C142_hash",
    "Verif.Util.Text.C142_listing",
    "Verif.Util.Text.C142_listing_injective",
    "Verif.Util.Text.C142_replace",
    "Verif.Util.Text.C142_replace_none",
    "Verif.Util.Text.C142_replace_empty",
    "Verif.Util.Text.C142_template_invalid",
    "Verif.Util.Text.C142_template_named",
    "Verif.Util.Text.C142_doc_tuple",
    "Verif.Util.Text.C142_template",
    "Verif.Util.Text.C142_template_text",
    "Verif.Util.Text.C142_template_escape",
    "Verif.Util.Text.C142_template_braces"
   ],
   "note": "hashlib is a parameter with the laws of its documentation."
  },
  {
   "property": "C143",
   "status": "proved",
   "theorems": [
    "Verif.Rime.C143_split_full",
    "Verif.Rime.C143_split_diag",
    "Verif.Rime.C143_gains_last_full",
    "Verif.Rime.C143_gains_last_diag",
    "Verif.Rime.C143_gains_in_dde_full",
    "Verif.Rime.C143_gains_in_dde_diag",
    "Verif.Rime.C143_gains_twice_full",
    "Verif.Rime.C143_gains_twice_diag",
    "Verif.Rime.C143_sources_full",
    "Verif.Rime.C143_sources_diag",
    "Verif.Rime.C143_linear_full",
    "Verif.Rime.C143_linear_diag",
    "Verif.Rime.C143_rows_full",
    "Verif.Rime.C143_rows_diag",
    "Verif.Rime.C143_rows_first_needed"
   ],
   "note": "Exact arithmetic over commutative rings with conjugation."
  },
  {
   "property": "C144",
   "status": "partial",
   "theorems": [
    "Verif.ModelData.C144_frequency_unit",
    "Verif.ModelData.C144_channels",
    "Verif.ModelData.C144_weights_partial",
    "Verif.ModelData.C144_weights_violated",
    "Verif.ModelData.C144_zero_weight_partial",
    "Verif.ModelData.C144_zero_weight_violated",
    "Verif.ModelData.C144_flux_unit_partial",
    "Verif.ModelData.C144_flux_unit_violated"
   ],
   "note": "The lower bound of the determinant is an absolute number, so that the fit depends on the scale of weights and fluxes when it acts; the variances count channels of weight zero as data."
  },
  {
   "property": "C145",
   "status": "partial",
   "theorems": [
    "Verif.Coordinates.C145_angles",
    "Verif.Coordinates.C145_angles_violated",
    "Verif.Coordinates.C145_right_ascension",
    "Verif.Coordinates.C145_reflections"
   ],
   "note": "Directions beyond the hemisphere are folded onto it: n is never negative."
  },
  {
   "property": "C146",
   "status": "partial",
   "theorems": [
    "Verif.Averaging.C146_samples",
    "Verif.Averaging.C146_unweighted_violated",
    "Verif.Averaging.C146_channels_partial",
    "Verif.Averaging.C146_channels_violated"
   ],
   "note": "Proved for samples with weights that are not negative, and for frequencies when the channels divide into full bins in the first step. It fails without weights of samples, because a bin with flagged samples then counts as much as a full one, and for frequencies after an incomplete bin."
  },
  {
   "property": "C147",
   "status": "proved",
   "theorems": [
    "Verif.Rime.C147_orthogonal",
    "Verif.Rime.C147_norm",
    "Verif.Rime.C147_power",
    "Verif.Rime.C147_unique",
    "Verif.Rime.C147_unique_violated",
    "Verif.Rime.C147_rotation",
    "Verif.Rime.C147_round",
    "Verif.Rime.C147_centre"
   ],
   "note": "Coefficients are determined if no mode is listed twice; C147_unique_violated shows that this is needed. np.arctan2 is the argument of a complex number."
  },
  {
   "property": "C148",
   "status": "partial",
   "theorems": [
    "Verif.Rime.C148_exact",
    "Verif.Rime.C148_raises",
    "Verif.Rime.C148_raises_violated",
    "Verif.Rime.C148_value_violated"
   ],
   "note": "True exactly up to degree 20. At degree 21 a mode takes the value -21.7 where it should be 1, and from degree 66 on the outermost modes raise ZeroDivisionError."
  },
  {
   "property": "C149",
   "status": "proved",
   "theorems": [
    "Verif.Calibration.C149_predict_full",
    "Verif.Calibration.C149_predict_diag_diag",
    "Verif.Calibration.C149_corrupt_twice_full",
    "Verif.Calibration.C149_corrupt_twice_diag",
    "Verif.Calibration.C149_corrupt_twice_diag_diag",
    "Verif.Calibration.C149_correct_twice_full",
    "Verif.Calibration.C149_correct_twice_diag_diag",
    "Verif.Calibration.C149_peel",
    "Verif.Calibration.C149_reverse_full"
   ],
   "note": "Exact arithmetic in a field with conjugation. predict_vis has no form with diagonal terms and 2x2 coherencies, so the comparison is for the two other forms."
  },
  {
   "property": "C150",
   "status": "proved",
   "theorems": [
    "Verif.Linalg.Kron.C150_twice",
    "Verif.Linalg.Kron.C150_identity",
    "Verif.Linalg.Kron.C150_inverse",
    "Verif.Linalg.Kron.C150_transpose",
    "Verif.Linalg.Kron.C150_linear",
    "Verif.Linalg.Kron.C150_scaled_factor",
    "Verif.Linalg.Kron.C150_cholesky"
   ],
   "note": "Exact arithmetic in a commutative ring (with conjugation, for the Cholesky factors); np.linalg.cholesky is a parameter that returns factors."
  },
  {
   "property": "C151",
   "status": "partial",
   "theorems": [
    "Verif.Linalg.Kron.C151_matmat_real_part",
    "Verif.Linalg.Kron.C151_matmat_partial",
    "Verif.Linalg.Kron.C151_tensormat_partial",
    "Verif.Linalg.Kron.C151_matmat_violated",
    "Verif.Linalg.Kron.C151_cholesky_partial",
    "Verif.Linalg.Kron.C151_cholesky_violated"
   ],
   "note": "kron_matmat and kron_tensormat store into float64 arrays: of complex products only the real part is returned. kron_cholesky stores into an array of the type of its argument: the factors of a stack of integer matrices are rounded."
  },
  {
   "property": "C152",
   "status": "partial",
   "theorems": [
    "Verif.Types.C152_gaussian_partial",
    "Verif.Types.C152_gaussian_integer",
    "Verif.Types.C152_gaussian_violated",
    "Verif.Types.C152_beam_partial",
    "Verif.Types.C152_beam_between",
    "Verif.Types.C152_beam_below",
    "Verif.Types.C152_beam_violated",
    "Verif.Types.C152_channels_partial",
    "Verif.Types.C152_channels_integer",
    "Verif.Types.C152_channels_violated"
   ],
   "note": "Intermediate results are stored in arrays of the type of the frequencies. With integer frequencies below 149.9 MHz a Gaussian source is a point source, a beam between two grid frequencies is that of the upper one, and averaged frequencies are rounded down."
  },
  {
   "property": "C153",
   "status": "proved",
   "theorems": [
    "Verif.Deconv.C153_resume",
    "Verif.Deconv.C153_splits",
    "Verif.Deconv.C153_finished"
   ],
   "note": "niter of a and then of b are the rounds of niter a + b + 1, since each run does one round more than niter (C84). Exact arithmetic."
  },
  {
   "property": "C154",
   "status": "proved",
   "theorems": [
    "Verif.ModelData.C154_moved",
    "Verif.ModelData.C154_index_kept",
    "Verif.ModelData.C154_unit",
    "Verif.ModelData.C154_flux",
    "Verif.ModelData.C154_ordinary",
    "Verif.ModelData.C154_logarithmic"
   ],
   "note": "Logarithmic wsclean components need positive coefficients (C48), which is kept when moving to higher reference frequencies only. Real arithmetic."
  },
  {
   "property": "C155",
   "status": "proved",
   "theorems": [
    "Verif.Calibration.C155_phases",
    "Verif.Calibration.C155_point",
    "Verif.Calibration.C155_polygon",
    "Verif.Calibration.C155_quad",
    "Verif.Calibration.C155_determinants",
    "Verif.Calibration.C155_trace",
    "Verif.Calibration.C155_closure_phase",
    "Verif.Calibration.C155_directions"
   ],
   "note": "Gains are those of one direction. Exact arithmetic."
  },
  {
   "property": "C156",
   "status": "proved",
   "theorems": [
    "Verif.Examples.C156_matrices",
    "Verif.Examples.C156_vectors",
    "Verif.Examples.C156_unknown",
    "Verif.Examples.C156_axes",
    "Verif.Examples.C156_refused"
   ],
   "note": "Commutative ring. einsum is an external function, modelled by its documented sum."
  },
  {
   "property": "C157",
   "status": "proved",
   "theorems": [
    "Verif.Examples.C157_parsed",
    "Verif.Examples.C157_unknown"
   ],
   "note": "What Tigger and str.lower return is input of the model."
  },
  {
   "property": "C158",
   "status": "partial",
   "theorems": [
    "Verif.Examples.C158_partial",
    "Verif.Examples.C158_violated",
    "Verif.Examples.C158_correlations",
    "Verif.Examples.C158_feeds"
   ],
   "note": "Fails for every data description but the first: xds_from_table without grouping gives one dataset, and the program indexes the list of datasets with DATA_DESC_ID, so that such data stop it with an IndexError."
  },
  {
   "property": "C159",
   "status": "partial",
   "theorems": [
    "Verif.Examples.C159_partial",
    "Verif.Examples.C159_position",
    "Verif.Examples.C159_moved_violated",
    "Verif.Examples.C159_unpadded_violated",
    "Verif.Examples.C159_odd_violated"
   ],
   "note": "Needs padding on both axes, at least as wide as the beam, and an even padded last axis without pypocketfft. Fails otherwise: no padding gives an image without pixels, an odd padded last axis without pypocketfft loses a column, and an odd image padded to an even length moves by one pixel."
  },
  {
   "property": "C160",
   "status": "partial",
   "theorems": [
    "Verif.Examples.C160_shape",
    "Verif.Examples.C160_widths",
    "Verif.Examples.C160_width_violated",
    "Verif.Examples.C160_angle_violated",
    "Verif.Examples.C160_one_pixel_violated"
   ],
   "note": "Shape and symmetry hold. Widths fail by the factor (2 ln 2)^(1/4), angles fail as degrees are used as radians, and a beam within one pixel stops with an IndexError."
  },
  {
   "property": "C161",
   "status": "partial",
   "theorems": [
    "Verif.Examples.C161_pixels",
    "Verif.Examples.C161_maps_partial",
    "Verif.Examples.C161_oblong_violated",
    "Verif.Examples.C161_chunks",
    "Verif.Examples.C161_prefix"
   ],
   "note": "Maps hold for square images and fail for others (axes exchanged); fewer components than processors stop the program with ZeroDivisionError."
  },
  {
   "property": "C162",
   "status": "partial",
   "theorems": [
    "Verif.Examples.C162_partial",
    "Verif.Examples.C162_mirror_violated",
    "Verif.Examples.C162_stops_violated",
    "Verif.Examples.C162_refused"
   ],
   "note": "Needs a table of one channel, a positive step along the first axis and not exactly one bright pixel. Fails otherwise: a negative step (the usual one) mirrors the image, and a single bright pixel or the usual two-dimensional CHAN_FREQ stop the program. The interpolation of images to other frequencies is not modelled."
  },
  {
   "property": "C163",
   "status": "partial",
   "theorems": [
    "Verif.Examples.C163_partial",
    "Verif.Examples.C163_units",
    "Verif.Examples.C163_single_violated",
    "Verif.Examples.C163_sizes_violated"
   ],
   "note": "Needs at least two distinct times and channels, numbers of times, channels and directions that are not all equal, and covariances that the Cholesky factorisation accepts. Fails for a single time or channel (division by zero, so that the factorisation refuses NaN) and for equal numbers (the list of factors becomes one array)."
  },
  {
   "property": "C164",
   "status": "partial",
   "theorems": [
    "Verif.Examples.C164_screen",
    "Verif.Examples.C164_gain",
    "Verif.Examples.C164_simulated",
    "Verif.Examples.C164_refused",
    "Verif.Examples.C164_calibrate_violated",
    "Verif.Examples.C164_calibrated"
   ],
   "note": "Simulation holds for one, two and four correlations; the calibration needs four and stops with one or two."
  },
  {
   "property": "C165",
   "status": "partial",
   "theorems": [
    "Verif.Examples.C165_partial",
    "Verif.Examples.C165_axes_violated",
    "Verif.Examples.C165_extents",
    "Verif.Examples.C165_refused"
   ],
   "note": "Needs the m axis to be the second; fails otherwise as the transposition exchanges axes."
  },
  {
   "property": "C166",
   "status": "partial",
   "theorems": [
    "Verif.Examples.C166_partial",
    "Verif.Examples.C166_names",
    "Verif.Examples.C166_linear",
    "Verif.Examples.C166_refused",
    "Verif.Examples.C166_directory_violated",
    "Verif.Examples.C166_axes_violated",
    "Verif.Examples.C166_negative_violated"
   ],
   "note": "The files are combined correctly if the prefix has none of the letters searched for, and values lie within the range of the beam. Fails: the axes are exchanged and stretched, beams with a negative step (the usual one) are always refused, and a prefix containing the letters re stops the program."
  },
  {
   "property": "C167",
   "status": "partial",
   "theorems": [
    "Verif.Examples.C167_hands_partial",
    "Verif.Examples.C167_diag_partial",
    "Verif.Examples.C167_full_partial",
    "Verif.Examples.C167_directions_violated",
    "Verif.Examples.C167_unsorted_violated",
    "Verif.Examples.C167_refused"
   ],
   "note": "Needs at most three model columns and rows in order of time. Fails for more than three columns, which are refused as the model is cut into chunks of three directions, and for rows that are not in order of time: some row gets the gains of another time."
  },
  {
   "property": "C168",
   "status": "partial",
   "theorems": [
    "Verif.Examples.C168_partial",
    "Verif.Examples.C168_unsorted_violated",
    "Verif.Examples.C168_types_violated",
    "Verif.Examples.C168_refused"
   ],
   "note": "Needs rows in order of time: otherwise some row gets the gains of another time. The declared element type is real, as that of the model, while the data are complex."
  },
  {
   "property": "C169",
   "status": "proved",
   "theorems": [
    "Verif.Averaging.C169_linear",
    "Verif.Averaging.C169_constant",
    "Verif.Averaging.C169_convex"
   ],
   "note": "At exact arithmetic."
  },
  {
   "property": "C170",
   "status": "proved",
   "theorems": [
    "Verif.Rime.C170_homogeneous",
    "Verif.Rime.C170_conjugate",
    "Verif.Rime.C170_directions",
    "Verif.Rime.C170_turns",
    "Verif.Rime.C170_units",
    "Verif.Rime.C170_frequencies",
    "Verif.Rime.C170_flip"
   ],
   "note": "At exact arithmetic."
  },
  {
   "property": "C171",
   "status": "proved",
   "theorems": [
    "Verif.ModelData.C171_coherency",
    "Verif.ModelData.C171_autocorrelation",
    "Verif.ModelData.C171_unitary"
   ],
   "note": "At exact arithmetic."
  },
  {
   "property": "C172",
   "status": "partial",
   "theorems": [
    "Verif.Gridding.C172_order_partial",
    "Verif.Gridding.C172_order_violated",
    "Verif.Gridding.C172_reversal",
    "Verif.Gridding.C172_kernels",
    "Verif.Gridding.C172_shift_partial",
    "Verif.Gridding.C172_shift_violated"
   ],
   "note": "The order matters with the baseline policy rotate, which reads beyond its row. Moves by an odd number of cells fail for visibilities half way between two cells, which go to the even one. Reversal is proved for the unpacked policy; C105 shows that packing does not matter."
  },
  {
   "property": "C173",
   "status": "partial",
   "theorems": [
    "Verif.Calibration.C173_descent_partial",
    "Verif.Calibration.C173_more_partial",
    "Verif.Calibration.C173_iterations_partial",
    "Verif.Calibration.C173_rest_partial",
    "Verif.Calibration.C173_bright_violated",
    "Verif.Calibration.C173_directions_violated"
   ],
   "note": "A visibility brighter than its model, or several directions, can make the misfit grow; both with concrete calls."
  },
  {
   "property": "C174",
   "status": "proved",
   "theorems": [
    "Verif.Deconv.C174_power",
    "Verif.Deconv.C174_threshold",
    "Verif.Deconv.C174_array",
    "Verif.Deconv.C174_reaches"
   ],
   "note": "For psfs centred at (n - 1, n - 1); C136_centre_violated has the other middle pixel."
  },
  {
   "property": "C175",
   "status": "partial",
   "theorems": [
    "Verif.ModelData.C175_downhill_partial",
    "Verif.ModelData.C175_rest_partial",
    "Verif.ModelData.C175_violated"
   ],
   "note": "The full update has no line search and can make the misfit larger; a call with three channels shows it."
  },
  {
   "property": "C176",
   "status": "partial",
   "theorems": [
    "Verif.Rime.C176_continuous_partial",
    "Verif.Rime.C176_fades_partial",
    "Verif.Rime.C176_half_plane",
    "Verif.Rime.C176_nonnegative",
    "Verif.Rime.C176_violated"
   ],
   "note": "The beam jumps where neighbouring cells cancel; a cube with values 1 and -1 shows it."
  },
  {
   "property": "C177",
   "status": "proved",
   "theorems": [
    "Verif.Dft.C177_total",
    "Verif.Dft.C177_baselines",
    "Verif.Dft.C177_frequencies",
    "Verif.Dft.C177_positions",
    "Verif.Dft.C177_average"
   ],
   "note": ""
  },
  {
   "property": "C178",
   "status": "proved",
   "theorems": [
    "Verif.Gridding.C178_total",
    "Verif.Gridding.C178_mean",
    "Verif.Gridding.C178_constant",
    "Verif.Gridding.C178_inside"
   ],
   "note": "Baseline and phase policies None; the guard 1e-8 of the code is part of the statement."
  },
  {
   "property": "C179",
   "status": "partial",
   "theorems": [
    "Verif.Linalg.Geometry.C179_hull",
    "Verif.Linalg.Geometry.C179_box",
    "Verif.Linalg.Geometry.C179_contains",
    "Verif.Linalg.Geometry.C179_mask",
    "Verif.Linalg.Geometry.C179_overlaps",
    "Verif.Linalg.Geometry.C179_aligned",
    "Verif.Linalg.Geometry.C179_split",
    "Verif.Linalg.Geometry.C179_square_partial",
    "Verif.Linalg.Geometry.C179_pad_partial",
    "Verif.Linalg.Geometry.C179_violated"
   ],
   "note": "Square and padded boxes are centred on a mean rounded towards zero, which depends on the origin when coordinates are negative."
  },
  {
   "property": "C180",
   "status": "proved",
   "theorems": [
    "Verif.Gridding.C180_centre",
    "Verif.Gridding.C180_bound",
    "Verif.Gridding.C180_symmetric",
    "Verif.Gridding.C180_product"
   ],
   "note": "At exact arithmetic."
  },
  {
   "property": "C181",
   "status": "proved",
   "theorems": [
    "Verif.Averaging.C181_weights",
    "Verif.Averaging.C181_flux"
   ],
   "note": "At exact arithmetic; row flags of 0 and 1 (C12)."
  },
  {
   "property": "C182",
   "status": "partial",
   "theorems": [
    "Verif.Calibration.C182_cells_partial",
    "Verif.Calibration.C182_order",
    "Verif.Calibration.C182_violated"
   ],
   "note": "Cells agree after the same number of iterations; the stopping rule is common to all cells, so a channel that converges slowly changes the gains of the others."
  },
  {
   "property": "C183",
   "status": "partial",
   "theorems": [
    "Verif.Calibration.C183_spread_partial",
    "Verif.Calibration.C183_converges_partial",
    "Verif.Calibration.C183_accuracy_partial",
    "Verif.Calibration.C183_violated"
   ],
   "note": "Needs initial phases whose errors differ by less than half a turn. At half a turn calibration does not move: one baseline with data -1 and model 1 keeps its unit gains."
  },
  {
   "property": "C184",
   "status": "proved",
   "theorems": [
    "Verif.Gridding.C184_directions",
    "Verif.Gridding.C184_degrid",
    "Verif.Gridding.C184_degrid_error",
    "Verif.Gridding.C184_im_to_vis",
    "Verif.Gridding.C184_grid",
    "Verif.Gridding.C184_grid_error",
    "Verif.Gridding.C184_centre",
    "Verif.Gridding.C184_inverse"
   ],
   "note": "No phase or baseline rotation; im_to_vis for baselines with w = 0, since the gridder does not use w."
  },
  {
   "property": "C185",
   "status": "proved",
   "theorems": [
    "Verif.Gridding.C185_names",
    "Verif.Gridding.C185_ncorr",
    "Verif.Gridding.C185_to_corr",
    "Verif.Gridding.C185_all",
    "Verif.Gridding.C185_to_stokes"
   ],
   "note": "Correlations in one axis without nesting."
  },
  {
   "property": "C186",
   "status": "proved",
   "theorems": [
    "Verif.ModelData.C186_half",
    "Verif.ModelData.C186_shape",
    "Verif.ModelData.C186_flux",
    "Verif.ModelData.C186_position",
    "Verif.ModelData.C186_wsclean"
   ],
   "note": "Small fields: the integral is over the tangent plane without the curvature term."
  },
  {
   "property": "C187",
   "status": "proved",
   "theorems": [
    "Verif.Dft.C187_convolution",
    "Verif.Dft.C187_beam",
    "Verif.Dft.C187_peak",
    "Verif.Dft.C187_complete"
   ],
   "note": ""
  },
  {
   "property": "C188",
   "status": "proved",
   "theorems": [
    "Verif.Gps.C188_definite",
    "Verif.Gps.C188_equal",
    "Verif.Examples.C188_gains",
    "Verif.Examples.C188_jitter",
    "Verif.Examples.C188_covariances"
   ],
   "note": "np.linalg.cholesky is a parameter that accepts positive definite matrices and returns factors; factorisation_exists shows that there is one."
  },
  {
   "property": "C189",
   "status": "proved",
   "theorems": [
    "Verif.Deconv.C189_observed",
    "Verif.Deconv.C189_clean",
    "Verif.Deconv.C189_point"
   ],
   "note": "The last part of C189_point needs a psf below one off its centre."
  },
  {
   "property": "C190",
   "status": "proved",
   "theorems": [
    "Verif.ModelData.C190_stokes",
    "Verif.ModelData.C190_bases",
    "Verif.ModelData.C190_predict_linear",
    "Verif.ModelData.C190_predict_circular",
    "Verif.ModelData.C190_circular_baseline"
   ],
   "note": ""
  },
  {
   "property": "C191",
   "status": "proved",
   "theorems": [
    "Verif.Dft.C191_im_to_vis",
    "Verif.Dft.C191_wsclean",
    "Verif.Dft.C191_source",
    "Verif.Dft.C191_predict",
    "Verif.Dft.C191_negative"
   ],
   "note": ""
  },
  {
   "property": "C192",
   "status": "partial",
   "theorems": [
    "Verif.Calibration.C192_selfcal_partial",
    "Verif.Calibration.C192_converges_partial",
    "Verif.Calibration.C192_spread_partial",
    "Verif.Calibration.C192_violated"
   ],
   "note": "Needs initial phases whose errors differ by less than half a turn, as C183; at half a turn the corrected data are the negative of the model."
  },
  {
   "property": "C193",
   "status": "proved",
   "theorems": [
    "Verif.Averaging.C193_corrupt",
    "Verif.Averaging.C193_correct",
    "Verif.Averaging.C193_drift"
   ],
   "note": ""
  },
  {
   "property": "C194",
   "status": "proved",
   "theorems": [
    "Verif.Deconv.C194_positive",
    "Verif.Deconv.C194_longer",
    "Verif.Deconv.C194_residual",
    "Verif.Deconv.C194_absorption",
    "Verif.Deconv.C194_below_zero",
    "Verif.Deconv.C194_psf"
   ],
   "note": ""
  },
  {
   "property": "C195",
   "status": "proved",
   "theorems": [
    "Verif.Averaging.C195_rows",
    "Verif.Averaging.C195_samples",
    "Verif.Averaging.C195_correct",
    "Verif.Averaging.C195_residual",
    "Verif.Averaging.C195_gains",
    "Verif.Averaging.C195_image"
   ],
   "note": ""
  },
  {
   "property": "C196",
   "status": "proved",
   "theorems": [
    "Verif.Averaging.C196_average",
    "Verif.Averaging.C196_correct",
    "Verif.Averaging.C196_corrupt",
    "Verif.Averaging.C196_model",
    "Verif.Averaging.C196_image",
    "Verif.Averaging.C196_parseval"
   ],
   "note": ""
  },
  {
   "property": "C197",
   "status": "partial",
   "theorems": [
    "Verif.Nvcc.C197_commands",
    "Verif.Nvcc.C197_failure",
    "Verif.Nvcc.C197_order_partial",
    "Verif.Nvcc.C197_order_violated",
    "Verif.Nvcc.C197_python3_violated"
   ],
   "note": "Object files of CUDA C come last, so that the order is that of the sources only if no other file follows a CUDA C file; in Python 3 compiling always raises, also without any CUDA C file. Object names and the compiler of the platform are parameters."
  },
  {
   "property": "C198",
   "status": "partial",
   "theorems": [
    "Verif.Util.Progress.C198_names",
    "Verif.Util.Progress.C198_bins_partial",
    "Verif.Util.Progress.C198_violated",
    "Verif.Util.Progress.C198_sums",
    "Verif.Util.Progress.C198_inplace",
    "Verif.Util.Progress.C198_parts"
   ],
   "note": "The empty tuple and bytes that are not text raise; all other keys have a bin."
  },
  {
   "property": "C199",
   "status": "partial",
   "theorems": [
    "Verif.Util.Templates.C199_marker",
    "Verif.Util.Templates.C199_import",
    "Verif.Util.Templates.C199_real",
    "Verif.Util.Templates.C199_missing_partial",
    "Verif.Util.Templates.C199_old_violated"
   ],
   "note": "Fails for a jinja2 that can be imported but lacks a name that is needed: NotImplementedError."
  },
  {
   "property": "C200",
   "status": "partial",
   "theorems": [
    "Verif.Util.FakeNumba.C200_switch",
    "Verif.Util.FakeNumba.C200_signature_partial",
    "Verif.Util.FakeNumba.C200_shifted",
    "Verif.Util.FakeNumba.C200_never",
    "Verif.Util.FakeNumba.C200_violated",
    "Verif.Util.FakeNumba.C200_bare_violated",
    "Verif.Util.FakeNumba.C200_constants"
   ],
   "note": "Signatures stay, but calls do not work: the substitute passes the function itself as an additional first argument, so every call of a function without *args raises TypeError, and a function decorated without parentheses is lost. Constants use 3.14 for pi. The package decorator is external, its behaviour is stated in the model."
  },
  {
   "property": "C201",
   "status": "partial",
   "theorems": [
    "Verif.Averaging.C201_two_steps_partial",
    "Verif.Averaging.C201_visibilities_partial",
    "Verif.Averaging.C201_idempotent_partial",
    "Verif.Averaging.C201_time_violated",
    "Verif.Averaging.C201_gaps_violated"
   ],
   "note": "Proved for regular samples without gaps: grouping, number of rows and intervals in two steps, flags, visibilities, weights and sigmas with weight spectra in two steps of time and channels, and everything for the same width. The times of two steps are means of means, and with gaps the averaged rows are averaged further."
  },
  {
   "property": "C202",
   "status": "partial",
   "theorems": [
    "Verif.Averaging.C202_rows",
    "Verif.Averaging.C202_spectra_partial",
    "Verif.Averaging.C202_row_weights_violated"
   ],
   "note": "Over the real numbers. Holds for weights and sigmas of rows and for spectra of both. Weights of rows are not multiplied with the number of averaged channels, so that they no longer fit the averaged samples."
  },
  {
   "property": "C203",
   "status": "proved",
   "theorems": [
    "Verif.Dft.C203_centres",
    "Verif.Dft.C203_phase_delay",
    "Verif.Dft.C203_im_to_vis",
    "Verif.Dft.C203_vis_to_im",
    "Verif.Dft.C203_gaussian",
    "Verif.Dft.C203_wsclean"
   ],
   "note": "Over the real numbers, for directions with l^2 + m^2 <= 1. Directions beyond the hemisphere around a phase centre are folded onto it (C145)."
  },
  {
   "property": "C204",
   "status": "partial",
   "theorems": [
    "Verif.Gridding.C204_centre",
    "Verif.Gridding.C204_rotated_partial",
    "Verif.Gridding.C204_planar",
    "Verif.Gridding.C204_planar_error",
    "Verif.Gridding.C79_violated"
   ],
   "note": "Over the real numbers, for sources and facets in front of the phase centre. The rotation is the documented one, whose coefficients the code computes but does not apply to u, v and w (C79_violated)."
  },
  {
   "property": "C205",
   "status": "proved",
   "theorems": [
    "Verif.ModelData.C205_value",
    "Verif.ModelData.C205_agree",
    "Verif.ModelData.C205_broadcast",
    "Verif.ModelData.C205_mixed",
    "Verif.ModelData.C205_refused"
   ],
   "note": "Over the real numbers; logarithms of numbers that are not positive are not modelled."
  },
  {
   "property": "C206",
   "status": "proved",
   "theorems": [
    "Verif.Wgridder.C206_options",
    "Verif.Wgridder.C206_hessian",
    "Verif.Wgridder.C206_residual",
    "Verif.Wgridder.C206_descent",
    "Verif.Wgridder.C206_optimal"
   ],
   "note": "ducc0 is an unknown matrix of coefficients, exact arithmetic; other bins are the subject of C107_violated."
  }
 ]
}