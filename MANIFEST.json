{
 "claims": [
  {
   "property": "C01",
   "status": "proved",
   "theorems": [
    "TS.C01_rfft_to_fft_2d",
    "TS.C01_rfft_to_fft_3d",
    "TS.C01_rfft_to_fft_ndim"
   ],
   "note": "2-D and 3-D real inputs; exact complex arithmetic."
  },
  {
   "property": "C02",
   "status": "proved",
   "theorems": [
    "TS.C02_compute_pspec",
    "TS.C02_compute_pspec_apodized",
    "TS.C02_nonneg",
    "TS.C02_scale",
    "TS.C02_shift_invariant",
    "TS.C02_point_symmetric",
    "TS.C02_parseval",
    "TS.C02_weighted_image",
    "TS.C02_beam_correct",
    "TS.C02_ps2D_property"
   ],
   "note": "Exact complex arithmetic; pyfftw path not modelled."
  },
  {
   "property": "C03",
   "status": "partial",
   "theorems": [
    "TS.C03_vca_channel_sum",
    "TS.C03_channel_order",
    "TS.C03_single_channel_partial"
   ],
   "note": "The sum over channels and the independence of their order are proved for the array compute_pspec is run on. A one-channel array gives the power spectrum of its channel (C03_single_channel_partial), but no VCA object holds such an array: the data setter drops the spectral axis, and the spectrum then has one axis (C105_single_channel_violated)."
  },
  {
   "property": "C04",
   "status": "partial",
   "theorems": [
    "TS.C04_vcs_spectrum",
    "TS.C04_nonneg_scale",
    "TS.C04_sky_permutation",
    "TS.C04_parseval",
    "TS.C04_not_the_average",
    "TS.C04_missing_general",
    "TS.C04_vcs_missing_data_partial",
    "TS.C04_noise_not_counted_violated"
   ],
   "note": "The documented average is violated: the code returns a sum over sky pixels (C04_not_the_average). The actual value and its laws are proved for cubes without missing voxels; with missing voxels the value is proved in general (C04_missing_general: summed power of the zero-filled spectra times all sky pixels over the counted ones, NaN when none is counted) and, for cubes of positive values, with the counted pixels being those with a value (C04_vcs_missing_data_partial). A pixel with a missing channel and otherwise negative values is not counted (C04_noise_not_counted_violated)."
  },
  {
   "property": "C05",
   "status": "proved",
   "theorems": [
    "TS.C05_bin_means",
    "TS.C05_each_pixel_once",
    "TS.C05_edges",
    "TS.C05_value_between",
    "TS.C05_defined_iff"
   ],
   "note": ""
  },
  {
   "property": "C06",
   "status": "partial",
   "theorems": [
    "TS.C06_wedge_mask",
    "TS.C06_missing_width",
    "TS.C06_full_turn",
    "TS.C06_middle_kept",
    "TS.C06_point_symmetric_partial",
    "TS.C06_point_symmetric_even",
    "TS.C06_middle_not_symmetric",
    "TS.C06_edge_on_cut"
   ],
   "note": "Wedge membership proved; point symmetry fails on odd-sized maps because of the always-kept middle block (C06_middle_not_symmetric) and the direction pi is lost when the lower limit is -pi (C06_edge_on_cut)."
  },
  {
   "property": "C07",
   "status": "partial",
   "theorems": [
    "TS.C07_pixel_grid",
    "TS.C07_unique_centre",
    "TS.C07_freq_grid_matches_ps2D",
    "TS.C07_pixel_grid_centre_partial",
    "TS.C07_pixel_grid_off_centre"
   ],
   "note": "Grid laws proved; for an even number of rows the pixel grid's centre differs from the zero-frequency row of the reversed frequency grid (C07_pixel_grid_off_centre)."
  },
  {
   "property": "C08",
   "status": "proved",
   "theorems": [
    "TS.C08_splitCosineBell_taper",
    "TS.C08_splitCosineBell_plateau",
    "TS.C08_named_windows",
    "TS.C08_window_bad_shape",
    "TS.C08_apodizing_kernel"
   ],
   "note": ""
  },
  {
   "property": "C09",
   "status": "proved",
   "theorems": [
    "TS.C09_clip_half_open",
    "TS.C09_clip_partition",
    "TS.C09_check_fit_limits"
   ],
   "note": ""
  },
  {
   "property": "C10",
   "status": "partial",
   "theorems": [
    "TS.C10_replicate_partial",
    "TS.C10_reachable_partial",
    "TS.C10_exact_fit",
    "TS.C10_last_residual_never_drawn",
    "TS.C10_not_residual_bootstrap"
   ],
   "note": "Violated: the base is the data, not the fitted values, and the last residual is never drawn (C10_not_residual_bootstrap, C10_last_residual_never_drawn)."
  },
  {
   "property": "C11",
   "status": "proved",
   "theorems": [
    "TS.C11_halving_terminates",
    "TS.C11_terminates",
    "TS.C11_break_in_range",
    "TS.C11_success_improves",
    "TS.C11_init",
    "TS.C11_small_epsilon_raises"
   ],
   "note": "The regression is an arbitrary (possibly raising) oracle; the loops are fuelled and proved to need at most iter_max+1 passes and 5 halvings."
  },
  {
   "property": "C12",
   "status": "partial",
   "theorems": [
    "TS.C12_broken_line_partial",
    "TS.C12_gap",
    "TS.C12_not_joined",
    "TS.C12_failed_fit_partial",
    "TS.C12_failed_fit_extrapolates_wrong"
   ],
   "note": "Holds on grids containing the break; otherwise the second piece is anchored at the nearest grid point (C12_gap, C12_not_joined); failed fits extrapolate wrongly."
  },
  {
   "property": "C13",
   "status": "proved",
   "theorems": [
    "TS.C13_inverse_left",
    "TS.C13_inverse_range",
    "TS.C13_inverse_right",
    "TS.C13_strictly_increasing",
    "TS.C13_stderr_inverse"
   ],
   "note": ""
  },
  {
   "property": "C14",
   "status": "proved",
   "theorems": [
    "TS.C14_ellipse",
    "TS.C14_ellip_range",
    "TS.C14_positive",
    "TS.C14_theta_mod_pi",
    "TS.C14_isotropic",
    "TS.C14_point_symmetric",
    "TS.C14_slope_along_rays",
    "TS.C14_effective_radius",
    "TS.C14_origin",
    "TS.C14_reported_theta",
    "TS.C14_reported_ellip"
   ],
   "note": ""
  },
  {
   "property": "C15",
   "status": "proved",
   "theorems": [
    "TS.C15_t_statistic",
    "TS.C15_laws",
    "TS.C15_scale_invariant",
    "TS.C15_no_errors",
    "TS.C15_vcs",
    "TS.C15_lognormal_needs_fit"
   ],
   "note": ""
  },
  {
   "property": "C16",
   "status": "partial",
   "theorems": [
    "TS.C16_metric",
    "TS.C16_at_most_one",
    "TS.C16_density_bound_partial",
    "TS.C16_bin_width_unbounded",
    "TS.C16_pdf_distance",
    "TS.C16_dendrogram_distance"
   ],
   "note": "Metric laws proved. The bound by 1 is proved for histograms of counts/probabilities (bin_width 1); with densities and bin_width w the code multiplies outside the square root, so the bound is sqrt(w) and C16_bin_width_unbounded shows 1 fails."
  },
  {
   "property": "C17",
   "status": "partial",
   "theorems": [
    "TS.C17_gibbs",
    "TS.C17_negative_when_Q_has_zero",
    "TS.C17_missing_values_mispair",
    "TS.C17_common_missing_partial"
   ],
   "note": "Gibbs inequality and equality case proved for positive Q and complete data. False in general: bins with Q=0<P are dropped (C17_negative_when_Q_has_zero) and missing values are removed from P and Q separately (C17_missing_values_mispair)."
  },
  {
   "property": "C18",
   "status": "proved",
   "theorems": [
    "TS.C18_standardize",
    "TS.C18_center",
    "TS.C18_normalize",
    "TS.C18_normalize_by_mean",
    "TS.C18_offset_invariant",
    "TS.C18_standardize_scale",
    "TS.C18_missing_ignored",
    "TS.C18_dispatch"
   ],
   "note": ""
  },
  {
   "property": "C19",
   "status": "proved",
   "theorems": [
    "TS.C19_linear",
    "TS.C19_log",
    "TS.C19_limits",
    "TS.C19_centres",
    "TS.C19_not_1d"
   ],
   "note": ""
  },
  {
   "property": "C20",
   "status": "proved",
   "theorems": [
    "TS.C20_factor",
    "TS.C20_errors",
    "TS.C20_group"
   ],
   "note": ""
  },
  {
   "property": "C21",
   "status": "proved",
   "theorems": [
    "TS.C21_moves",
    "TS.C21_group",
    "TS.C21_conserves"
   ],
   "note": ""
  },
  {
   "property": "C22",
   "status": "partial",
   "theorems": [
    "TS.C22_integer_shift_is_roll",
    "TS.C22_real_shifts_partial",
    "TS.C22_even_length_fails"
   ],
   "note": "Whole-pixel shifts and shift 0 proved for all arrays incl. missing values. Real-valued shifts: proved when there is no highest-frequency component (all odd lengths); C22_even_length_fails shows composition and power conservation fail otherwise."
  },
  {
   "property": "C23",
   "status": "partial",
   "theorems": [
    "TS.C23_margins_partial",
    "TS.C23_zero_end_wipes",
    "TS.C23_pad_image"
   ],
   "note": "Proved when the trailing pad is non-empty, and for np.pad of an image with pad >= 1; with a zero trailing pad the slice [-0:] overwrites all data (C23_zero_end_wipes)."
  },
  {
   "property": "C24",
   "status": "proved",
   "theorems": [
    "TS.C24_cumulative",
    "TS.C24_scale_free",
    "TS.C24_constant_row",
    "TS.C24_padded_rows_are_lost"
   ],
   "note": ""
  },
  {
   "property": "C25",
   "status": "proved",
   "theorems": [
    "TS.C25_bounded",
    "TS.C25_boundary_checked",
    "TS.C25_surface_values",
    "TS.C25_zero_lag",
    "TS.C25_symmetric",
    "TS.C25_default_lags_symmetric",
    "TS.C25_given_lags",
    "TS.C25_scale_free"
   ],
   "note": "For cubes without axes of length one; a cube with a single channel is refused (C105_single_channel_violated)."
  },
  {
   "property": "C26",
   "status": "partial",
   "theorems": [
    "TS.C26_compared_pairs_partial",
    "TS.C26_zero_lag_partial",
    "TS.C26_no_pair_at_lag",
    "TS.C26_cut_pairs_violated"
   ],
   "note": "Exactly which pairs boundary='cut' compares, for every lag that fits on the map (C26_compared_pairs_partial): the first pixels are the right ones, but each is paired with the pixel at twice the lag on the periodic map. So at every non-zero lag shorter than the map no compared pair is separated by the lag (C26_no_pair_at_lag) and the full statement fails (C26_cut_pairs_violated); it holds at zero lag (C26_zero_lag_partial)."
  },
  {
   "property": "C27",
   "status": "proved",
   "theorems": [
    "TS.C27_metric",
    "TS.C27_weights",
    "TS.C27_value",
    "TS.C27_missing"
   ],
   "note": ""
  },
  {
   "property": "C28",
   "status": "partial",
   "theorems": [
    "TS.C28_own_treatment",
    "TS.C28_vca_partial",
    "TS.C28_vca_violated",
    "TS.C28_pspec_partial",
    "TS.C28_pspec_fit_kwargs_raise",
    "TS.C28_dendro_partial",
    "TS.C28_dendro_second_kwargs_raise",
    "TS.C28_dendro_rerun_keeps_old_deltas",
    "TS.C28_scf_raw",
    "TS.C28_scf_objects_partial",
    "TS.C28_scf_violated",
    "TS.C28_scf_size_mismatch_accepted",
    "TS.C28_scf_object_second",
    "TS.C28_deltavar_raw",
    "TS.C28_deltavar_objects_partial",
    "TS.C28_deltavar_mixed_raise",
    "TS.C28_deltavar_own_lags_raise",
    "TS.C28_deltavar_second_kwargs_ignored",
    "TS.C28_deltavar_rerun_keeps_old_lags",
    "TS.C28_pca",
    "TS.C28_moments"
   ],
   "note": "MVC, VCS, wavelet, bispectrum, PCA and moments constructors in full; VCA, PSpec, Dendrogram, SCF and DeltaVariance only under the stated hypotheses, with theorems showing the violation outside them."
  },
  {
   "property": "C29",
   "status": "proved",
   "theorems": [
    "TS.C29_value",
    "TS.C29_symmetric",
    "TS.C29_rejects",
    "TS.C29_self",
    "TS.C29_reorder",
    "TS.C29_translate",
    "TS.C29_nonneg",
    "TS.C29_zero_iff",
    "TS.C29_subsample",
    "TS.C29_distance_symmetric",
    "TS.C29_distance_self"
   ],
   "note": ""
  },
  {
   "property": "C30",
   "status": "partial",
   "theorems": [
    "TS.C30_rows_partial",
    "TS.C30_sorted",
    "TS.C30_empty_channels_kept",
    "TS.C30_padding_not_sorted",
    "TS.C30_scale_free"
   ],
   "note": "Rows, common length, order and zero padding proved (C30_rows_partial, C30_sorted); channels without values above the limit are kept as zeros (C30_empty_channels_kept) and rows with negative values are not sorted after padding (C30_padding_not_sorted)."
  },
  {
   "property": "C31",
   "status": "partial",
   "theorems": [
    "TS.C31_square_partial",
    "TS.C31_wide_raises",
    "TS.C31_tall_misses",
    "TS.C31_format_checked",
    "TS.C31_normalize"
   ],
   "note": "Proved for square maps; for other maps the code divides the flat index by the wrong axis: IndexError (C31_wide_raises) or whole rows never returned (C31_tall_misses)."
  },
  {
   "property": "C32",
   "status": "proved",
   "theorems": [
    "TS.C32_symmetric",
    "TS.C32_values",
    "TS.C32_psd",
    "TS.C32_scale",
    "TS.C32_offset",
    "TS.C32_missing_not_psd"
   ],
   "note": ""
  },
  {
   "property": "C33",
   "status": "proved",
   "theorems": [
    "TS.C33_sorted",
    "TS.C33_pairs",
    "TS.C33_n_eigs",
    "TS.C33_fraction",
    "TS.C33_cut_by_value",
    "TS.C33_cut_by_proportion",
    "TS.C33_unknown_method",
    "TS.C33_nonneg",
    "TS.C33_total",
    "TS.C33_var_proportion",
    "TS.C33_determined",
    "TS.C33_contracts_met"
   ],
   "note": ""
  },
  {
   "property": "C34",
   "status": "partial",
   "theorems": [
    "TS.C34_sign_flipped",
    "TS.C34_violated",
    "TS.C34_too_few",
    "TS.C34_mean_partial",
    "TS.C34_one_fails"
   ],
   "note": "Violated: for the last k components the returned array is minus the documented mean (C34_sign_flipped, C34_violated), the divisor ignores missing components (C34_too_few), and one component raises (C34_one_fails). The positive-count case is proved (C34_mean_partial)."
  },
  {
   "property": "C35",
   "status": "proved",
   "theorems": [
    "TS.C35_value",
    "TS.C35_laws",
    "TS.C35_scale",
    "TS.C35_scaled_cubes",
    "TS.C35_triangle",
    "TS.C35_bounded",
    "TS.C35_rejects"
   ],
   "note": ""
  },
  {
   "property": "C36",
   "status": "proved",
   "theorems": [
    "TS.C36_brackets",
    "TS.C36_exact",
    "TS.C36_monotone",
    "TS.C36_calibration"
   ],
   "note": ""
  },
  {
   "property": "C37",
   "status": "proved",
   "theorems": [
    "TS.C37_bracket",
    "TS.C37_no_crossing",
    "TS.C37_symmetric_half",
    "TS.C37_eigenspectra",
    "TS.C37_second_half_negative"
   ],
   "note": ""
  },
  {
   "property": "C38",
   "status": "partial",
   "theorems": [
    "TS.C38_offset",
    "TS.C38_scale",
    "TS.C38_positive",
    "TS.C38_error_defined",
    "TS.C38_constant",
    "TS.C38_value_partial",
    "TS.C38_preserve_violated",
    "TS.C38_independent",
    "TS.C38_annulus"
   ],
   "note": "Any linear kernels (convolve_fft is external), both boundaries, nan_treatment=fill (interpolate: C112); offset invariance for any weights vanishing at missing pixels. Value pinned for preserve_nan=False. Violated for preserve_nan=True: pixels set back to missing keep their weight in the denominator."
  },
  {
   "property": "C39",
   "status": "partial",
   "theorems": [
    "TS.C39_accepts_partial",
    "TS.C39_atomic",
    "TS.C39_resolvable",
    "TS.C39_above_half_accepted",
    "TS.C39_deltavar_default",
    "TS.C39_wavelet_default",
    "TS.C39_tsallis_default",
    "TS.C39_constructor_converts",
    "TS.C39_setter_not_converted"
   ],
   "note": "Exact acceptance set proved (C39_accepts_partial): the upper limit lets lags up to side//2+1 through (C39_above_half_accepted); the DeltaVariance default is rejected on maps narrower than 6 pixels (C39_deltavar_default); lags assigned in another unit are used as pixels (C39_setter_not_converted)."
  },
  {
   "property": "C40",
   "status": "proved",
   "theorems": [
    "TS.C40_value",
    "TS.C40_scale",
    "TS.C40_sign",
    "TS.C40_transform",
    "TS.C40_error"
   ],
   "note": "Any linear wavelet kernel; Wavelet.scales are covered by C39."
  },
  {
   "property": "C41",
   "status": "proved",
   "theorems": [
    "TS.C41_periodic",
    "TS.C41_zero_padded",
    "TS.C41_offset",
    "TS.C41_sum_zero",
    "TS.C41_edge_increments",
    "TS.C41_constant_undefined",
    "TS.C41_probabilities",
    "TS.C41_make",
    "TS.C41_function",
    "TS.C41_clip",
    "TS.C41_clip_keeps_outliers"
   ],
   "note": "clip_to_sigma selects on the log-probability, not on the increment (C41_clip, C41_clip_keeps_outliers); a constant map has undefined distributions (C41_constant_undefined)."
  },
  {
   "property": "C42",
   "status": "partial",
   "theorems": [
    "TS.C42_moments_partial",
    "TS.C42_constant",
    "TS.C42_laws",
    "TS.C42_affine",
    "TS.C42_returned_affine",
    "TS.C42_mean_diluted_violated",
    "TS.C42_missing_pixels_count"
   ],
   "note": "Moments, range, affine laws and the skewness-kurtosis inequality proved (C42_moments_partial, C42_laws, C42_affine); violated: weights at missing pixels still count (C42_missing_pixels_count), a constant region has kurtosis -3 (C42_constant)."
  },
  {
   "property": "C43",
   "status": "partial",
   "theorems": [
    "TS.C43_circle",
    "TS.C43_circle_symmetric",
    "TS.C43_maps_partial",
    "TS.C43_min_frac_checked",
    "TS.C43_run_ignores_min_frac",
    "TS.C43_full_circle_rejected",
    "TS.C43_sparse_circle_accepted",
    "TS.C43_radius"
   ],
   "note": "Exact rule proved (C43_maps_partial); the fraction is that of the square, not the circle (C43_full_circle_rejected, C43_sparse_circle_accepted) and run ignores min_frac (C43_run_ignores_min_frac)."
  },
  {
   "property": "C44",
   "status": "partial",
   "theorems": [
    "TS.C44_keeps",
    "TS.C44_weighted",
    "TS.C44_density_count",
    "TS.C44_density_edges",
    "TS.C44_default_bins",
    "TS.C44_first_call_partial",
    "TS.C44_repeat_loses_bin",
    "TS.C44_repeat_violated",
    "TS.C44_ecdf",
    "TS.C44_ecdf_at_bins",
    "TS.C44_find_percentile",
    "TS.C44_find_at_percentile"
   ],
   "note": "Kept data, densities, ECDF and percentiles proved; violated by repeated make_pdf()/run(): bin centres become the next edges, so bins and then data are lost (C44_repeat_loses_bin, C44_repeat_violated)."
  },
  {
   "property": "C45",
   "status": "partial",
   "theorems": [
    "TS.C45_init",
    "TS.C45_spectrum_partial",
    "TS.C45_tapered_partial",
    "TS.C45_nonneg",
    "TS.C45_no_motion",
    "TS.C45_scale",
    "TS.C45_not_difference_spectrum",
    "TS.C45_one_map_missing",
    "TS.C45_missing_pixels_dilute"
   ],
   "note": "Exact formula, non-negativity, zero and scaling laws proved; violated: moduli are subtracted instead of complex amplitudes (C45_not_difference_spectrum), a pixel missing in one map spoils the whole spectrum (C45_one_map_missing), masked pixels dilute <v^2> (C45_missing_pixels_dilute); the window tapers only part of <v^2> (C45_tapered_partial)."
  },
  {
   "property": "C46",
   "status": "partial",
   "theorems": [
    "TS.C46_square",
    "TS.C46_range",
    "TS.C46_defined",
    "TS.C46_scale",
    "TS.C46_tracker_partial",
    "TS.C46_tracker_undercounts",
    "TS.C46_not_square_raises"
   ],
   "note": "Tracker counts a wave vector once per bin however often it was drawn (C46_tracker_undercounts); non-square images can raise IndexError."
  },
  {
   "property": "C47",
   "status": "partial",
   "theorems": [
    "TS.C47_labels",
    "TS.C47_keeps",
    "TS.C47_regions_kept",
    "TS.C47_idempotent",
    "TS.C47_monotone",
    "TS.C47_value_all",
    "TS.C47_value_removal",
    "TS.C47_negation",
    "TS.C47_stats",
    "TS.C47_table_count_violated",
    "TS.C47_table_content_partial",
    "TS.C47_model",
    "TS.C47_beam_area_violated",
    "TS.C47_radii",
    "TS.C47_model_peak"
   ],
   "note": "labelling, removal of small regions, genus value, negation proved; the table has two rows per radius instead of one (C47_table_count_violated) and the beam area uses sqrt(8 ln 2) instead of 8 ln 2 (C47_beam_area_violated)."
  },
  {
   "property": "C48",
   "status": "partial",
   "theorems": [
    "TS.C48_array",
    "TS.C48_nothing",
    "TS.C48_list_violated",
    "TS.C48_autoset_partial",
    "TS.C48_autoset_default",
    "TS.C48_autoset_violated",
    "TS.C48_history",
    "TS.C48_window_partial",
    "TS.C48_window_violated",
    "TS.C48_even_size_violated",
    "TS.C48_window_too_short",
    "TS.C48_fit_points",
    "TS.C48_fit_possible"
   ],
   "note": "arrays and repeated assignment proved; lists are stored two-dimensional (C48_list_violated), autoset fails when the peak is not above min_value + min_delta (C48_autoset_violated), the window excludes its right end and even sizes raise IndexError."
  },
  {
   "property": "C49",
   "status": "partial",
   "theorems": [
    "TS.C49_moment0_agree_partial",
    "TS.C49_moment0_violated",
    "TS.C49_moment0_value",
    "TS.C49_moment1_agree_partial",
    "TS.C49_moment1_nan_noise_violated",
    "TS.C49_moment1_value",
    "TS.C49_moment2_agree",
    "TS.C49_moment2_value",
    "TS.C49_nonneg",
    "TS.C49_unknown_how",
    "TS.C49_noise_shape",
    "TS.C49_auto",
    "TS.C49_auto_same",
    "TS.C49_linewidth_auto_ray",
    "TS.C49_linewidth_value",
    "TS.C49_fwhm"
   ],
   "note": "slice and cube agree with each other and with the error-propagation formula whenever the pixel has a valid voxel and the noise is not NaN (C49_*_agree_partial); a fully masked pixel gives NaN by slice and 0 by cube (C49_moment0_violated), NaN noise gives NaN by slice and a number by cube (C49_moment1_nan_noise_violated)."
  },
  {
   "property": "C50",
   "status": "partial",
   "theorems": [
    "TS.C50_scale_setter",
    "TS.C50_scale_never_negative",
    "TS.C50_object_scale_partial",
    "TS.C50_argument_ignored",
    "TS.C50_argument_alone_violated",
    "TS.C50_no_errors_violated",
    "TS.C50_stale_violated",
    "TS.C50_no_scale_zero",
    "TS.C50_before_moments",
    "TS.C50_ray_violated",
    "TS.C50_units_false_violated"
   ],
   "note": "The scale stored on the object is the one used (C50_object_scale_partial); the scale argument of make_moment_errors is never used (C50_argument_ignored, C50_argument_alone_violated, C50_stale_violated), 'ray' computes no errors (C50_ray_violated), units=False fails (C50_units_false_violated)."
  },
  {
   "property": "C51",
   "status": "partial",
   "theorems": [
    "TS.C51_schedule",
    "TS.C51_schedule_iff",
    "TS.C51_tasks_once",
    "TS.C51_pixels_partial",
    "TS.C51_negative_axis_violated",
    "TS.C51_negative_density",
    "TS.C51_limits_swapped",
    "TS.C51_too_many_channels",
    "TS.C51_one_channel_hdu"
   ],
   "note": "Schedule independence proved for every chunking and completion order (C51_schedule); per-pixel line of sight proved for los_axis 0, 1, 2 and -3 (C51_pixels_partial); -1 and -2 slice the wrong axis (C51_negative_axis_violated)."
  },
  {
   "property": "C52",
   "status": "partial",
   "theorems": [
    "TS.C52_value",
    "TS.C52_nonneg",
    "TS.C52_pos",
    "TS.C52_additive",
    "TS.C52_homogeneous",
    "TS.C52_edge_lost",
    "TS.C52_edges_partial",
    "TS.C52_edges_violated",
    "TS.C52_count_partial",
    "TS.C52_count_violated",
    "TS.C52_axis_partial",
    "TS.C52_sightline",
    "TS.C52_header_partial"
   ],
   "note": "Value, sign, linearity proved; gas exactly on a channel edge is dropped (C52_edge_lost); channel count and edges proved when all velocities share a unit (C52_axis_partial) and wrong otherwise (C52_count_violated, C52_edges_violated)."
  },
  {
   "property": "C53",
   "status": "partial",
   "theorems": [
    "TS.C53_ellip",
    "TS.C53_full_hermitian",
    "TS.C53_image_even",
    "TS.C53_odd_image_not_square",
    "TS.C53_amplitude_partial",
    "TS.C53_image_amplitude_partial",
    "TS.C53_amplitude_violated"
   ],
   "note": "Full Fourier map proved Hermitian with the requested slope; image of an odd size loses a column; the common amplitude factor depends on the draw (C53_amplitude_violated)."
  },
  {
   "property": "C54",
   "status": "partial",
   "theorems": [
    "TS.C54_planes",
    "TS.C54_rms_partial",
    "TS.C54_spectrum",
    "TS.C54_odd_not_cube",
    "TS.C54_size_one",
    "TS.C54_fft_half",
    "TS.C54_size_two_zero"
   ],
   "note": "Real field, rms and spectrum proved for sizes >= 3 (rms) and even sizes (spectrum); odd sizes give n x n x (n-1) (C54_odd_not_cube), size 1 raises (C54_size_one), size 2 can be 0/0 (C54_size_two_zero), return_fft gives only half (C54_fft_half)."
  },
  {
   "property": "C55",
   "status": "proved",
   "theorems": [
    "TS.C55_ndim",
    "TS.C55_lengths",
    "TS.C55_values",
    "TS.C55_each_mode_once"
   ],
   "note": ""
  },
  {
   "property": "C56",
   "status": "partial",
   "theorems": [
    "TS.C56_square_partial",
    "TS.C56_swapped_violated",
    "TS.C56_half_pixel_violated",
    "TS.C56_dimensions",
    "TS.C56_shape_unchecked_violated"
   ],
   "note": "square images have the reference pixel within half a pixel of the centre (C56_square_partial); non-square ones have the axes swapped (C56_swapped_violated) and the shape is never checked against the data."
  },
  {
   "property": "C57",
   "status": "partial",
   "theorems": [
    "TS.C57_header",
    "TS.C57_data",
    "TS.C57_beam",
    "TS.C57_history",
    "TS.C57_input_partial",
    "TS.C57_input_violated"
   ],
   "note": "setters, beam and all histories proved; giving data together with a bad header raises but leaves the new data beside the old header (C57_input_violated)."
  },
  {
   "property": "C58",
   "status": "proved",
   "theorems": [
    "TS.C58_values",
    "TS.C58_round_trip",
    "TS.C58_round_trip_back",
    "TS.C58_cycle",
    "TS.C58_area",
    "TS.C58_frequency",
    "TS.C58_refused",
    "TS.C58_distance",
    "TS.C58_unit_violated"
   ],
   "note": "beyond the property: with axis units other than degrees the angular conversion takes the number for degrees (C58_unit_violated)."
  },
  {
   "property": "C59",
   "status": "partial",
   "theorems": [
    "TS.C59_no_header",
    "TS.C59_with_header",
    "TS.C59_copy_partial",
    "TS.C59_copy_violated",
    "TS.C59_pair_unchecked_violated"
   ],
   "note": "no_header and header results proved; need_copy does not copy a (data, header) pair (C59_copy_violated), whose contents are not checked either."
  },
  {
   "property": "C60",
   "status": "partial",
   "theorems": [
    "TS.C60_checked",
    "TS.C60_one_channel_violated",
    "TS.C60_downsample_partial",
    "TS.C60_downsample_units_violated",
    "TS.C60_downsample_finer_violated",
    "TS.C60_function_violated",
    "TS.C60_regrid",
    "TS.C60_axis",
    "TS.C60_width_partial",
    "TS.C60_width_violated",
    "TS.C60_wide_violated"
   ],
   "note": "regrid method: same width, refusal of finer widths, number of channels, range covered proved; channels are always wider than requested (C60_width_violated), downsampling drops the unit ratio (C60_downsample_units_violated), accepts finer widths and ignores downsamp_function. A cube of one channel is refused whatever quantity is asked for (C60_one_channel_violated)."
  },
  {
   "property": "C61",
   "status": "partial",
   "theorems": [
    "TS.C61_constructor",
    "TS.C61_mvc",
    "TS.C61_history",
    "TS.C61_pspec_partial",
    "TS.C61_weights_violated",
    "TS.C61_walk_down_violated",
    "TS.C61_run_partial",
    "TS.C61_run_violated",
    "TS.C61_pspec_distance_partial",
    "TS.C61_pspec_distance_violated",
    "TS.C61_dendro_distance_violated"
   ],
   "note": "constructors keep every caller array over all histories (C61_history); weights with NaN, walk-down curves, and kwargs dictionaries are modified (C61_*_violated)."
  },
  {
   "property": "C62",
   "status": "partial",
   "theorems": [
    "TS.C62_image_partial",
    "TS.C62_spectrum_partial",
    "TS.C62_spectrum_shape",
    "TS.C62_image_shape",
    "TS.C62_first_pixel_ignored"
   ],
   "note": "Circular autocorrelation with lag 0 at the centre, symmetry and maximum proved, but for the eigenimage/eigenvector with its first entry removed: subtracting the mean of the transform does not subtract the mean of the image (C62_first_pixel_ignored)."
  },
  {
   "property": "C63",
   "status": "proved",
   "theorems": [
    "TS.C63_defined",
    "TS.C63_undefined",
    "TS.C63_symmetric",
    "TS.C63_scale",
    "TS.C63_zero",
    "TS.C63_pairwise_exclusion",
    "TS.C63_value",
    "TS.C63_zero_iff",
    "TS.C63_unequal_lags_fail"
   ],
   "note": "Slope distance is C15. Curves of unequal compared length raise (C63_unequal_lags_fail)."
  },
  {
   "property": "C64",
   "status": "proved",
   "theorems": [
    "TS.C64_count",
    "TS.C64_edges"
   ],
   "note": ""
  },
  {
   "property": "C65",
   "status": "partial",
   "theorems": [
    "TS.C65_nearly_closed",
    "TS.C65_phase",
    "TS.C65_translation_partial",
    "TS.C65_translation_violated"
   ],
   "note": "k3 is truncated separately from k1 and k2, so some triangles miss by one pixel and the value depends on position (C65_translation_violated); proved for draws that close."
  },
  {
   "property": "C66",
   "status": "partial",
   "theorems": [
    "TS.C66_azimuthal_partial",
    "TS.C66_radial_partial",
    "TS.C66_bins_too_wide",
    "TS.C66_empty_half"
   ],
   "note": "Values proved for the bins used; the bins are always wider than requested (C66_bins_too_wide) and half of the azimuthal bins are always empty (C66_empty_half)."
  },
  {
   "property": "C67",
   "status": "proved",
   "theorems": [
    "TS.C67_value",
    "TS.C67_shapes",
    "TS.C67_symm",
    "TS.C67_metric",
    "TS.C67_nan_spreads"
   ],
   "note": ""
  },
  {
   "property": "C68",
   "status": "partial",
   "theorems": [
    "TS.C68_counts",
    "TS.C68_bins_default",
    "TS.C68_bins_first_partial",
    "TS.C68_bins_violated",
    "TS.C68_cutoff_partial",
    "TS.C68_cutoff_violated",
    "TS.C68_ecdf",
    "TS.C68_ecdf_padding_violated"
   ],
   "note": "counts and ecdf proved; the bins option is lost after the first histogram, the last valid threshold is excluded by the distance, NaN padding makes an ecdf row NaN."
  },
  {
   "property": "C69",
   "status": "partial",
   "theorems": [
    "TS.C69_pspec",
    "TS.C69_unbinned",
    "TS.C69_brightness",
    "TS.C69_position",
    "TS.C69_scf_partial",
    "TS.C69_scf_zero_error_violated",
    "TS.C69_deltavar",
    "TS.C69_wavelet"
   ],
   "note": "Proved for power spectra (binned and unbinned), Delta-variance and wavelets, with the external regression specified as a weighted least-squares minimiser. Partial for the SCF: a lag whose spread is exactly 0 gets an infinite weight and makes the slope NaN."
  },
  {
   "property": "C70",
   "status": "partial",
   "theorems": [
    "TS.C70_scf",
    "TS.C70_scf_empty",
    "TS.C70_wavelet",
    "TS.C70_deltavar_partial",
    "TS.C70_deltavar_units_violated",
    "TS.C70_pspec",
    "TS.C70_lag_empty",
    "TS.C70_pspec_empty",
    "TS.C70_pspec_default"
   ],
   "note": "Proved for power spectra, SCF and wavelets. Violated for the Delta-variance when the lags are not in pixels: limits in pixels are compared with unconverted lags."
  },
  {
   "property": "C71",
   "status": "partial",
   "theorems": [
    "TS.C71_break_partial",
    "TS.C71_conversion_derivative",
    "TS.C71_wavelet_unit_violated",
    "TS.C71_line",
    "TS.C71_break_iff",
    "TS.C71_history_partial",
    "TS.C71_break_error_partial",
    "TS.C71_stale_break_error_violated",
    "TS.C71_no_break_error_violated",
    "TS.C71_bootstrap_break_error_violated",
    "TS.C71_bootstrap_slope_errors",
    "TS.C71_wavelet_break_range",
    "TS.C71_deltavar_break_range_partial",
    "TS.C71_deltavar_angular_break_violated"
   ],
   "note": "Break, slope and slope error proved history-free and correct. Violated: the break error of an earlier fit stays when a later break is rejected (all three statistics) or none is requested (Delta-variance, wavelets); wavelet breaks have unit 1/pix; bootstrap break errors use the wrong coefficient; angular Delta-variance lags with a break raise a unit error."
  },
  {
   "property": "C72",
   "status": "partial",
   "theorems": [
    "TS.C72_frequencies_partial",
    "TS.C72_odd_violated",
    "TS.C72_candidates",
    "TS.C72_terminates",
    "TS.C72_found",
    "TS.C72_no_break_partial",
    "TS.C72_no_break_violated",
    "TS.C72_linear_estimate_violated",
    "TS.C72_given",
    "TS.C72_bootstrap_violated",
    "TS.C72_enough_points"
   ],
   "note": "Termination, order and choice of the break proved. Violated: odd channel numbers lose the highest frequency; two or more failing candidates raise instead of falling back; log_break=False with estimated breaks always raises; bootstrap without a break reports no slope error."
  },
  {
   "property": "C73",
   "status": "partial",
   "theorems": [
    "TS.C73_break_error_defined",
    "TS.C73_break_error_partial",
    "TS.C73_break_error_factor_partial",
    "TS.C73_break_error_violated",
    "TS.C73_ordinate_scale_violated",
    "TS.C73_slope_errors_partial",
    "TS.C73_slope_error_violated",
    "TS.C73_no_slope_change_violated"
   ],
   "note": "Violated: the break error is the standard error times the slope change, and scales with the ordinates; the second slope error ignores the covariance of the coefficients."
  },
  {
   "property": "C74",
   "status": "partial",
   "theorems": [
    "TS.C74_value",
    "TS.C74_orthogonal",
    "TS.C74_complete",
    "TS.C74_single_partial",
    "TS.C74_transposed_violated",
    "TS.C74_shape_violated"
   ],
   "note": "Projection, orthogonality, power and completeness proved; one image is returned as it is. Violated: two or more images are returned transposed."
  },
  {
   "property": "C75",
   "status": "proved",
   "theorems": [
    "TS.C75_leastsq",
    "TS.C75_limits",
    "TS.C75_exact",
    "TS.C75_grid",
    "TS.C75_limit_units",
    "TS.C75_ranges"
   ],
   "note": "Orthogonal distance regression enters as an external solver with the contract \"returns the minimiser of the weighted orthogonal distance\"; minimisers of exact data are unique."
  },
  {
   "property": "C76",
   "status": "partial",
   "theorems": [
    "TS.C76_meaning",
    "TS.C76_channels",
    "TS.C76_grid_partial",
    "TS.C76_grid_violated",
    "TS.C76_error_violated",
    "TS.C76_bayes_violated",
    "TS.C76_sound_speed"
   ],
   "note": "Meaning and channel independence proved; grid independence proved for use_gamma=False. Violated: with the default use_gamma=True the length depends on the pixel size; the reported error is off by ln 10 and by 0.434/intercept; the MCMC range ignores sampled indices."
  },
  {
   "property": "C77",
   "status": "partial",
   "theorems": [
    "TS.C77_value",
    "TS.C77_units",
    "TS.C77_resolved_partial",
    "TS.C77_unresolved_violated",
    "TS.C77_error",
    "TS.C77_checked"
   ],
   "note": "Value, units, error and checks proved; monotone for resolved structures. Violated: structures below the beam term get larger widths the smaller they are."
  },
  {
   "property": "C78",
   "status": "partial",
   "theorems": [
    "TS.C78_fit_partial",
    "TS.C78_units",
    "TS.C78_both_fixed_violated",
    "TS.C78_fit_type",
    "TS.C78_parameters",
    "TS.C78_nonpositive",
    "TS.C78_free_location_violated"
   ],
   "note": "Maximum, unit behaviour, parameter order and refusals proved for the lognormal with fixed location. Violations: with a free location the likelihood is unbounded for every data set, so that there is no fit to return; fixing both location and scale raises UnboundLocalError."
  },
  {
   "property": "C79",
   "status": "partial",
   "theorems": [
    "TS.C79_swap",
    "TS.C79_symmetric",
    "TS.C79_lognormal",
    "TS.C79_value_partial",
    "TS.C79_same",
    "TS.C79_ks",
    "TS.C79_standardized",
    "TS.C79_by_mean",
    "TS.C79_choice",
    "TS.C79_one_bin_violated",
    "TS.C79_limits_violated"
   ],
   "note": "Value, bounds, symmetry, identity, KS and invariances proved. Violated: with one bin edge, or bin limits that exclude one image, the Hellinger distance is 0 whatever the images."
  },
  {
   "property": "C80",
   "status": "partial",
   "theorems": [
    "TS.C80_surface",
    "TS.C80_identifiable",
    "TS.C80_best",
    "TS.C80_selection",
    "TS.C80_stale_wedge_violated",
    "TS.C80_returns",
    "TS.C80_range",
    "TS.C80_recovers_partial",
    "TS.C80_default_limits",
    "TS.C80_amplitude_violated",
    "TS.C80_fixed",
    "TS.C80_fixed_map",
    "TS.C80_fixed_violated",
    "TS.C80_errors_violated",
    "TS.C80_bootstrap_violated",
    "TS.C80_direction",
    "TS.C80_grid",
    "TS.C80_scf_partial",
    "TS.C80_radial_weights",
    "TS.C80_half_width",
    "TS.C80_latest_wedge"
   ],
   "note": "Recovery proved for every exact surface with log amplitude at least -10 given a converging fitter; selection, ranges, orientation and SCF surfaces proved. Violations: smaller amplitudes cannot be represented (bound -10); without bootstrap the errors belong to the other of the two fits or are NaN; fix_ellip_params without bootstrap raises IndexError; bootstrap replicates scatter about the data; an earlier azimuthal wedge stays in force."
  },
  {
   "property": "C81",
   "status": "partial",
   "theorems": [
    "TS.C81_no_clash",
    "TS.C81_hdr_invariant",
    "TS.C81_round_trip",
    "TS.C81_prefix",
    "TS.C81_other_files",
    "TS.C81_history",
    "TS.C81_incomplete",
    "TS.C81_missing",
    "TS.C81_directory_violated",
    "TS.C81_suffix_violated",
    "TS.C81_torn_violated",
    "TS.C81_bunit_violated",
    "TS.C81_bunit_partial",
    "TS.C81_mask_violated",
    "TS.C81_name_kept",
    "TS.C81_dict"
   ],
   "note": "Round trip by cube name and directory, by prefix and by names, non-interference, histories, refusal of incomplete objects and keys of to_dict proved. Violations: default loading ignores the directory of the cube; suffixes other than .fits are treated differently; a failed save leaves a mixture of old and new files; the unit in the moment0 header is that of the cube; mask_name always raises AttributeError."
  },
  {
   "property": "C82",
   "status": "partial",
   "theorems": [
    "TS.C82_identifiable",
    "TS.C82_exact",
    "TS.C82_log_form",
    "TS.C82_recovers_partial",
    "TS.C82_amplitude_violated",
    "TS.C82_start",
    "TS.C82_refused",
    "TS.C82_rows",
    "TS.C82_run",
    "TS.C82_points",
    "TS.C82_clip_violated",
    "TS.C82_chisq",
    "TS.C82_chisq_violated",
    "TS.C82_table",
    "TS.C82_gaussian",
    "TS.C82_units"
   ],
   "note": "Identifiability from three distances, recovery of w2 and q, start values, rows, table and unit independence proved. Violations: logA is (1-q) times the log amplitude; the clip acts on log-probabilities, not on increments; redchisq is neither reduced nor a chi-squared of the probabilities; exactly Gaussian histograms have no least-squares solution."
  },
  {
   "property": "C83",
   "status": "partial",
   "theorems": [
    "TS.C83_sound",
    "TS.C83_empty_sound",
    "TS.C83_unchanged",
    "TS.C83_one_file",
    "TS.C83_file_kept",
    "TS.C83_round_trip",
    "TS.C83_data",
    "TS.C83_load_reads",
    "TS.C83_independent",
    "TS.C83_name_violated",
    "TS.C83_collision",
    "TS.C83_interrupted_violated",
    "TS.C83_mvc_violated",
    "TS.C83_pdf_violated",
    "TS.C83_save_load_partial"
   ],
   "note": "Round trip after any history, unchanged original, independence of the loaded object and one file per save proved for every reachable memory. Violations: the .pkl suffix is added on saving only, so loading under the same name fails; an interrupted save destroys the earlier file; MVC and PDF files contain the input map even without keep_data. pickle's byte format is not modelled."
  },
  {
   "property": "C84",
   "status": "partial",
   "theorems": [
    "TS.C84_forward_partial",
    "TS.C84_dictionaries",
    "TS.C84_extra",
    "TS.C84_steps",
    "TS.C84_steps_all",
    "TS.C84_unknown",
    "TS.C84_pca",
    "TS.C84_min_frac_violated",
    "TS.C84_alpha_violated",
    "TS.C84_defaults",
    "TS.C84_unbinned_violated",
    "TS.C84_mvc_unbinned_violated",
    "TS.C84_typo_violated",
    "TS.C84_dendro_save_violated",
    "TS.C84_returns_violated"
   ],
   "note": "Proved for all values: forwarding of shared options, dictionaries and further keywords, step order, refusal of unknown names, PCA's methods and beam. Violations: StatMoments ignores min_frac; alpha's default differs between run and compute_pspec; fit_unbinned inside fit_kwargs is dropped and removed from the caller's dictionary by PowerSpectrum and VCA and makes MVC fail; VCS accepts misspelt options; Dendrogram_Stats.run fails with save_results and no output_name and returns None. Plotting options are not covered."
  },
  {
   "property": "C85",
   "status": "partial",
   "theorems": [
    "TS.C85_percentile",
    "TS.C85_percentile_mono",
    "TS.C85_percentile_ends",
    "TS.C85_thresholds",
    "TS.C85_thresholds_inside",
    "TS.C85_units",
    "TS.C85_limits",
    "TS.C85_unit_errors",
    "TS.C85_max_unit_violated",
    "TS.C85_override_violated",
    "TS.C85_radii",
    "TS.C85_given",
    "TS.C85_given_errors",
    "TS.C85_default_radii_violated",
    "TS.C85_no_smoothing",
    "TS.C85_list_violated",
    "TS.C85_nonneg",
    "TS.C85_value",
    "TS.C85_same",
    "TS.C85_exchange",
    "TS.C85_triangle_partial",
    "TS.C85_symmetric_violated",
    "TS.C85_brightness",
    "TS.C85_self",
    "TS.C85_area_violated",
    "TS.C85_numpts_violated",
    "TS.C85_first_radius_violated",
    "TS.C85_disjoint_violated",
    "TS.C85_triangle_violated"
   ],
   "note": "Proved for all inputs: percentiles and their order, even spacing, range, units and their errors, radii checks, self distance (including that it completes), non-negativity, brightness invariance, the exchange law d(2,1)=d(1,2)/s, triangle inequality for common thresholds. Violations: the triangle inequality fails for curves with different ranges (for every interpolating spline); percentages never override given limits; one default radius instead of five; lists of radii raise; unit check of max_value skipped without a unit; numpts of the distance ignored; only the first radius used; not symmetric for different pixel scales; not per angular area; disjoint ranges extrapolated. The spline and the smoothing are parameters (the spline with the contract Spec.Interpolates)."
  },
  {
   "property": "C86",
   "status": "partial",
   "theorems": [
    "TS.C86_isotropic",
    "TS.C86_weights",
    "TS.C86_mirror",
    "TS.C86_transpose",
    "TS.C86_mirror_sides",
    "TS.C86_roll_partial",
    "TS.C86_wrap_violated",
    "TS.C86_default_lags_violated",
    "TS.C86_wavelet",
    "TS.C86_wavelet_roll"
   ],
   "note": "Proved for all maps: mirror images and right-angle turns with both boundaries, for delta-variance and wavelets; cyclic shifts with boundary='wrap' while the kernels fit into the map; kernels are isotropic, positive, of sum one. Violation: for kernels larger than the map (lags above about 0.35 of its side, always reached by the default lags) 'wrap' is not periodic: the map is surrounded by zeros. nan_treatment='interpolate' is C112; convolve_fft is modelled from its documented behaviour."
  },
  {
   "property": "C87",
   "status": "partial",
   "theorems": [
    "TS.C87_spectrum_partial",
    "TS.C87_even",
    "TS.C87_order",
    "TS.C87_range",
    "TS.C87_completes",
    "TS.C87_init",
    "TS.C87_again",
    "TS.C87_units",
    "TS.C87_uneven_violated",
    "TS.C87_offcentre_violated",
    "TS.C87_theta_none_violated",
    "TS.C87_single_violated",
    "TS.C87_more_lags_violated",
    "TS.C87_fewer_lags_violated",
    "TS.C87_stale_violated",
    "TS.C87_model",
    "TS.C87_model_violated"
   ],
   "note": "Proved for evenly spaced lags with 0 in the middle, for every cube and all bin options. Violations: lags that are symmetric but not evenly spaced, or without 0 in the middle, are accepted and the values are reported at wrong lags; assigning roll_lags keeps the old surface (values at the wrong lags), more lags than before make compute_surface fail and fewer leave zeros in it; theta_0=None raises; one lag raises; fitted_model returns the spectrum although documented as its logarithm."
  },
  {
   "property": "C88",
   "status": "partial",
   "theorems": [
    "TS.C88_histograms_partial",
    "TS.C88_symmetric",
    "TS.C88_intensity_scale",
    "TS.C88_copy",
    "TS.C88_constant_violated",
    "TS.C88_again_violated",
    "TS.C88_metric"
   ],
   "note": "Proved for every pair whose peaks are not all equal at the thresholds used. Violations: a dataset with equal peaks (clipped data) is at distance 0 from every other; a second call of histogram_stat or distance_metric on the same object raises, because the first replaced nbins by an array."
  },
  {
   "property": "C89",
   "status": "partial",
   "theorems": [
    "TS.C89_value_partial",
    "TS.C89_bounds",
    "TS.C89_symmetric",
    "TS.C89_rearranged",
    "TS.C89_same",
    "TS.C89_scale_maps",
    "TS.C89_offset_maps_partial",
    "TS.C89_offset_violated",
    "TS.C89_bins_violated",
    "TS.C89_two_violated",
    "TS.C89_width_violated",
    "TS.C89_raw",
    "TS.C89_object_violated",
    "TS.C89_object_second",
    "TS.C89_scale"
   ],
   "note": "Proved: value, zero, symmetry, dependence on the values only, intensity scale (any weights), offset (when missing pixels have no weight), the bins of raw images. Violations: one bin fewer than nbins, nbins=2 raises IndexError; the distance carries a factor square root of the bin width, so it can exceed 1; an offset changes the maps when pixels are missing and the weights are the default ones; an object given first with another radius makes distance_metric raise TypeError."
  },
  {
   "property": "C90",
   "status": "partial",
   "theorems": [
    "TS.C90_least",
    "TS.C90_succeeds",
    "TS.C90_exact_partial",
    "TS.C90_tilt_violated",
    "TS.C90_width",
    "TS.C90_none"
   ],
   "note": "Proved over the reals for any eigensolver that returns an eigenbasis: least algebraic error, success for points on no conic, success and recovery of centre and semi-axes (up to their order) from five distinct points of an ellipse, the width and the NaN. C90_exact_partial: the traced curve is the ellipse unless it is tilted by exactly 45 degrees with unequal axes; there the angle is wrong (C90_tilt_violated)."
  },
  {
   "property": "C91",
   "status": "partial",
   "theorems": [
    "TS.C91_units",
    "TS.C91_round_trip",
    "TS.C91_refused",
    "TS.C91_cuts",
    "TS.C91_walkdown",
    "TS.C91_components",
    "TS.C91_one_violated",
    "TS.C91_interp_partial",
    "TS.C91_level_violated",
    "TS.C91_edge_violated",
    "TS.C91_first_lag_violated",
    "TS.C91_odd_violated",
    "TS.C91_fit"
   ],
   "note": "Proved: walk-down in full (two or more components), units, inverses, refusals, VCS cuts, 'fit' for Gaussian autocorrelations and any least-squares fitter, sign and number of components. C91_interp_partial: 'interpolate' takes the absolute value 1/e, which is the documented width only where the autocorrelation is 1 at lag 0. Violations: unit eigenvectors with a non-zero first entry get another width by 'interpolate'; crossings next to the Nyquist lag come out too small, even negative; a first minimum at lag 1 gives width 0 with error 0; odd numbers of channels raise IndexError for falling autocorrelations; one component raises."
  },
  {
   "property": "C92",
   "status": "partial",
   "theorems": [
    "TS.C92_lags",
    "TS.C92_fit",
    "TS.C92_pedestal_violated",
    "TS.C92_small_violated",
    "TS.C92_interpolate",
    "TS.C92_interpolate_gauss",
    "TS.C92_stretch_violated",
    "TS.C92_stretch_partial",
    "TS.C92_contour_partial",
    "TS.C92_noise_violated",
    "TS.C92_noise_set",
    "TS.C92_overlap_violated",
    "TS.C92_brightness_partial",
    "TS.C92_faint_violated",
    "TS.C92_beam",
    "TS.C92_beam_header",
    "TS.C92_distance_violated",
    "TS.C92_unknown",
    "TS.C92_one_violated"
   ],
   "note": "Proved: number of widths, which image is contoured and what width an elliptical contour gives with and without beam correction, exact recovery by 'fit' for Gaussians of any orientation and any least-squares fitter, which components are noise, beam and header, refusals. C92_brightness_partial needs the same eigenvalues above the rounding unit. C92_stretch_partial: 'xinterpolate' radii for round Gaussians only. Violations: noise is added instead of subtracted; noise components overlap measured ones; faint units make the call fail; pedestals are not matched by 'fit'; images under 100 pixels fail when interpolating; 'xinterpolate' multiplies by the aspect ratio; distance is ignored; one component raises. What skimage, scipy and astropy do is a contract or a parameter."
  },
  {
   "property": "C93",
   "status": "partial",
   "theorems": [
    "TS.C93_prior",
    "TS.C93_likelihood",
    "TS.C93_exchange",
    "TS.C93_shift",
    "TS.C93_equal_errors",
    "TS.C93_exact_partial",
    "TS.C93_precise",
    "TS.C93_exact_violated",
    "TS.C93_ranges",
    "TS.C93_rising",
    "TS.C93_falling_violated",
    "TS.C93_missing_error",
    "TS.C93_missing_x_violated",
    "TS.C93_missing_y",
    "TS.C93_zero_errors_violated",
    "TS.C93_start",
    "TS.C93_fit",
    "TS.C93_method"
   ],
   "note": "Proved: the density is the product of line integrals of the error ellipses (C93_likelihood), exchange, shift, ranges, start, stored values, and that the odds of an exact line grow without bound as the errors shrink (C93_precise). C93_exact_partial: the exact line is the most probable one when the two errors of each point are equal; false otherwise (C93_exact_violated). Violations: falling lines are never found (C93_falling_violated); a point without x still changes the odds; a point without errors makes the probability NaN. The sampler is external (contract: no positions of probability 0); convergence of the chain is not modelled."
  },
  {
   "property": "C94",
   "status": "partial",
   "theorems": [
    "TS.C94_residual_bound",
    "TS.C94_shortest_partial",
    "TS.C94_circle",
    "TS.C94_shortest_violated",
    "TS.C94_distance_violated",
    "TS.C94_base_violated",
    "TS.C94_errors",
    "TS.C94_alpha",
    "TS.C94_exact_partial",
    "TS.C94_failed_violated",
    "TS.C94_refused",
    "TS.C94_no_iterations",
    "TS.C94_widths",
    "TS.C94_bad_alpha_violated",
    "TS.C94_sign_violated"
   ],
   "note": "Proved: residuals are distances to points of the ellipse, exact for circles with any descending minimiser; errors are half-ranges of percentiles, not negative, monotone in alpha; refusals; widths. C94_shortest_partial needs a minimiser that finds the global minimum; C94_shortest_violated shows points on the long axis where a stationary start gives a longer distance. C94_exact_partial excludes ellipses tilted by exactly 45 degrees. Violations: moved distances are shorter than the residual; residuals are added to the data instead of the fitted curve; one failed refit makes all errors NaN; an invalid alpha makes the widths NaN silently; the sign of the eigenvectors decides which axis is called x. leastsq and eig are external parameters; rounding is not modelled."
  },
  {
   "property": "C95",
   "status": "partial",
   "theorems": [
    "TS.C95_quiet",
    "TS.C95_shown",
    "TS.C95_handed_on",
    "TS.C95_refused",
    "TS.C95_ignored_violated",
    "TS.C95_pca_symbol_violated",
    "TS.C95_same_dict_violated",
    "TS.C95_repeat",
    "TS.C95_contents",
    "TS.C95_defaults",
    "TS.C95_caller_partial",
    "TS.C95_caller_violated",
    "TS.C95_other_keys",
    "TS.C95_order_violated",
    "TS.C95_dendro"
   ],
   "note": "Proved for every history: defaults last, repetition, contents only, which options are shown, handed on and refused, other dictionaries untouched. C95_caller_partial: the caller's two dictionaries are unchanged only if they have all default keys and no xunit. Violations: the caller's dictionaries are filled and lose xunit; options used with SCF or PDF are refused by the others afterwards; one dictionary for both datasets labels both 1; SCF and PDF ignore all but three options; PCA ignores the symbol. Option values are strings and the drawing is not modelled."
  },
  {
   "property": "C96",
   "status": "partial",
   "theorems": [
    "TS.C96_unit",
    "TS.C96_delta",
    "TS.C96_delta_resid_partial",
    "TS.C96_delta_resid_violated",
    "TS.C96_wavelet",
    "TS.C96_wavelet_resid_violated",
    "TS.C96_scf",
    "TS.C96_pspec_partial",
    "TS.C96_pspec_curve_partial",
    "TS.C96_pspec_curve_violated",
    "TS.C96_pspec_break_violated",
    "TS.C96_vcs_partial",
    "TS.C96_vcs_resid_violated"
   ],
   "note": "Proved in full for SCF and for the wavelet transform when every scale has a value or an error; points, limits and curve for delta-variance; points, limits and residuals for power spectra; points, limits and curve for VCS fits without a break. Partial: delta-variance residuals and the power-spectrum line only on an axis in pixels. Violations: on any other axis both are off (by a factor and by a shift that are given); a power spectrum fitted with a break cannot be plotted (ValueError); the wavelet residual panel raises when a scale has neither value nor error; VCS residuals beyond the fitted range are wrong for fits without a good break. The numbers handed to matplotlib are modelled, not the drawing."
  },
  {
   "property": "C97",
   "status": "partial",
   "theorems": [
    "TS.C97_first",
    "TS.C97_overlay_resid_partial",
    "TS.C97_overlay_partial",
    "TS.C97_mixed",
    "TS.C97_one_axis_violated",
    "TS.C97_scf_again_violated",
    "TS.C97_fewer_violated",
    "TS.C97_image_violated",
    "TS.C97_image_third_violated",
    "TS.C97_bar_violated",
    "TS.C97_distance_partial",
    "TS.C97_distance_gone_violated",
    "TS.C97_distance_first_violated",
    "TS.C97_scf_image_violated",
    "TS.C97_distance_legend_violated"
   ],
   "note": "Proved for every method: the first call; any number of calls with residuals and without the image (and, except SCF, without residuals); for delta-variance, wavelets and VCS any mixture after a call with residuals; the distance metrics under the same conditions. Violations: calls with residuals on a figure with one axis raise UnboundLocalError; SCF cannot draw twice into its single axis; power spectra without residuals raise on two axes; with the image, calls stop sharing axes (at the second or third) and residuals can land in the colour bar; saving one dataset's plot, or a backend that closes the figure, makes the distance metric raise IndexError or lose a dataset; with the image the legend is in the wrong axis. Matplotlib is modelled as a list of axes."
  },
  {
   "property": "C98",
   "status": "partial",
   "theorems": [
    "TS.C98_curve_partial",
    "TS.C98_scales",
    "TS.C98_repeat",
    "TS.C98_images",
    "TS.C98_convolve_violated",
    "TS.C98_points_partial",
    "TS.C98_lengths",
    "TS.C98_stale_violated",
    "TS.C98_lost_violated",
    "TS.C98_tsallis_partial",
    "TS.C98_tsallis_stale_violated",
    "TS.C98_tsallis_longer_violated",
    "TS.C98_tsallis_shorter",
    "TS.C98_moments_partial",
    "TS.C98_moments_frac",
    "TS.C98_moments_lost_violated",
    "TS.C98_genus_partial",
    "TS.C98_genus_stale_violated",
    "TS.C98_pca_violated"
   ],
   "note": "Proved for every history: after a computation that does not raise, values, images of the wavelet transform, Tsallis tables, moment maps and genus curves are those of the current settings, and fits pair each lag within the limits with its own value; lags and values of different number are refused. Violations: assigning as many other lags and fitting (or reading the Tsallis table) pairs new lags with old values; more lags leave rows of the Tsallis table unset; a computation that raises replaces earlier results by uninitialised values (also for a rejected radius of the moment maps); convolve_arrays always raises AttributeError; smoothed_images can be those of other radii; var_proportion ignores a new n_eigs. The computation at one lag or radius is a parameter."
  },
  {
   "property": "C99",
   "status": "partial",
   "theorems": [
    "TS.C99_rate",
    "TS.C99_slopes_partial",
    "TS.C99_break_partial",
    "TS.C99_break_violated",
    "TS.C99_weightless_violated",
    "TS.C99_units_partial",
    "TS.C99_nested",
    "TS.C99_brightness_pspec_partial",
    "TS.C99_brightness_lags_partial",
    "TS.C99_zero_error_violated",
    "TS.C99_dropped_violated",
    "TS.C99_recover_partial"
   ],
   "note": "Proved for every least-squares solver: exact data give both exponents when guess and mirror image lie in the gap that holds the break (for the complete loop, model comparison and final fit, and for fit_pspec from the bins on); the error of the break after n passes is (1 - h_step)^n times that of the guess, so h_step = 1 finds it exactly; without weights the broken model never fits worse than the line; break, slopes, choice of model, number of passes and exceptions do not depend on the units of scale, intensity and weight whenever the regressions run have a unique solution, also through fit_pspec, fit_plaw and fit_transform. Violations: with the default h_step = 2 the break is never refined; a point of weight 0 decides whether a break is reported; a bin without an error makes the weighted fit raise. Missing: guesses farther away and data with noise."
  },
  {
   "property": "C100",
   "status": "partial",
   "theorems": [
    "TS.C100_kernel_partial",
    "TS.C100_default",
    "TS.C100_shape",
    "TS.C100_kernel_violated",
    "TS.C100_smooth",
    "TS.C100_mask_violated",
    "TS.C100_mask_partial",
    "TS.C100_mask_empty_violated",
    "TS.C100_version_partial",
    "TS.C100_wrapper",
    "TS.C100_version_violated",
    "TS.C100_annulus_partial",
    "TS.C100_annulus_violated",
    "TS.C100_annulus_kernel"
   ],
   "note": "Proved: weights, profile, symmetry and fall-off of the kernel for sizes of at least one pixel; bounds and NaNs of the smoothed cube; the exact mask for every number of dilations, were the two missing names defined; what the wrapper does for every version; the ring about the origin. Violations: a size below 1 gives a kernel of NaNs (and an empty mask); moment_masking raises NameError for every input, because the import that defines its names is commented out; versions 10 to 19 of astropy are refused as older than 2; x_mean and y_mean of the annulus have no effect."
  },
  {
   "property": "C101",
   "status": "partial",
   "theorems": [
    "TS.C101_pdf_partial",
    "TS.C101_pdf_likelihood",
    "TS.C101_pdf_cdf_violated",
    "TS.C101_refit_violated",
    "TS.C101_failed_violated",
    "TS.C101_fit_type",
    "TS.C101_trace_violated",
    "TS.C101_tsallis_partial",
    "TS.C101_tsallis_single_violated",
    "TS.C101_tsallis_lines_violated",
    "TS.C101_tsallis_params",
    "TS.C101_genus",
    "TS.C101_hist_partial",
    "TS.C101_dendro",
    "TS.C101_hist_single_violated",
    "TS.C101_bars_partial",
    "TS.C101_bars_violated",
    "TS.C101_model_violated",
    "TS.C101_pca_partial"
   ],
   "note": "Proved: the density drawn after a successful fit is the fitted one (and the one of largest likelihood, given an optimiser that finds it); panels and curves of Tsallis for two or more lags; genus panels, all; bars cover their bins for two or more bins; the size-linewidth panel in all units. Violations: the cumulative distribution of data that are not normalised is drawn with loc 0; a failed second fit makes the plot mix old parameters with new options, a failed first one makes it raise; one parameter makes trace_plot raise AttributeError and one lag makes Tsallis.plot_fit raise TypeError; the lines that mark the fitted data do not; a histogram with one bin raises IndexError; n_eigs other than the number of components raises ValueError or draws wrong bars; PCA.model always raises TypeError."
  },
  {
   "property": "C102",
   "status": "partial",
   "theorems": [
    "TS.C102_square",
    "TS.C102_accepts",
    "TS.C102_refuses",
    "TS.C102_size_partial",
    "TS.C102_rotation",
    "TS.C102_conversions_partial",
    "TS.C102_refused_conversions",
    "TS.C102_no_distance",
    "TS.C102_channel",
    "TS.C102_no_channel",
    "TS.C102_spectral_first_violated",
    "TS.C102_spectral_second_violated",
    "TS.C102_pixels_unchecked_violated"
   ],
   "note": "Proved: every accepted header has sides equal to 3e-5 (in the square, relative to the area), every square grid is accepted in any orientation, every rectangle with sides that differ by 2e-5 is refused; with the sky on the first two axes the size is the length of a one-pixel step and angles and lengths convert by it; the channel width is found on any axis. Violations: with the spectral axis first, the channel width is taken as the pixel size in degrees, without an error; with the spectral axis second, physical lengths raise UnitConversionError; scales given in pixels never check the grid."
  },
  {
   "property": "C103",
   "status": "partial",
   "theorems": [
    "TS.C103_dendrogram",
    "TS.C103_dendrogram_auto",
    "TS.C103_load_violated",
    "TS.C103_load_content",
    "TS.C103_pca_partial",
    "TS.C103_pca_distance",
    "TS.C103_pca_refused",
    "TS.C103_pca_single_channel_violated",
    "TS.C103_moments",
    "TS.C103_moments_default",
    "TS.C103_nbins_violated",
    "TS.C103_weights_violated",
    "TS.C103_nbins",
    "TS.C103_mvc",
    "TS.C103_no_header"
   ],
   "note": "Proved: what Dendrogram_Stats, StatMoments and MVC hold and refuse; PCA for cubes without axes of length one. Violations: load_dendrogram always raises ValueError (the data reach the constructor as a bare array without header); a single-channel cube is taken for one with as many channels as rows; bins given as an array, which the documentation allows, raise TypeError; weights of any shape are accepted."
  },
  {
   "property": "C104",
   "status": "partial",
   "theorems": [
    "TS.C104_units",
    "TS.C104_intensity_unit",
    "TS.C104_velocity_unit_partial",
    "TS.C104_unit_violated",
    "TS.C104_displaced",
    "TS.C104_weights_partial",
    "TS.C104_unit_errors",
    "TS.C104_separate",
    "TS.C104_keys",
    "TS.C104_missing_error",
    "TS.C104_equal_errors",
    "TS.C104_equal_errors_violated"
   ],
   "note": "Proved: the intensity unit, displacements, the maps the weights give, unit errors, separate datasets and missing keys; the exact spectrum in any pair of units. Violations: the modified centroid subtracts a velocity squared times an intensity from a velocity times an intensity, so km/s and m/s give spectra of different shape; for the same reason equal errors change the shape."
  },
  {
   "property": "C105",
   "status": "partial",
   "theorems": [
    "TS.C105_no_width",
    "TS.C105_width_partial",
    "TS.C105_quantity",
    "TS.C105_one",
    "TS.C105_thicker_less_power",
    "TS.C105_thicker_any",
    "TS.C105_missing_more_power_violated",
    "TS.C105_thickest_violated",
    "TS.C105_single_channel_violated",
    "TS.C105_proper",
    "TS.C105_image",
    "TS.C105_single_row_violated"
   ],
   "note": "Proved for method='downsample' and widths below the number of channels: the averaged cube, rounding, width one, and, for complete cubes and every width, that no frequency gains power. Violations: with missing values wider channels can have more power; at the width of the whole cube, or for a cube with one channel or row, the data setter drops the axis and VCA's spectrum has one axis (the radial profile then raises IndexError); VCS and SCF raise IndexError for one channel. The smoothing of method='regrid' is spectral-cube's and not modelled."
  },
  {
   "property": "C106",
   "status": "partial",
   "theorems": [
    "TS.C106_power_spectrum",
    "TS.C106_vca",
    "TS.C106_mvc_partial",
    "TS.C106_no_beam",
    "TS.C106_no_beam_others",
    "TS.C106_mvc_violated",
    "TS.C106_window_violated",
    "TS.C106_point_beam"
   ],
   "note": "Proved for PowerSpectrum and VCA without apodizing window, and the error and no-effect cases for all three. For MVC only the two amplitudes are restored (C106_mvc_partial); the mean square velocity is that of the observed maps, so the corrected spectrum differs from that of the unconvolved maps (C106_mvc_violated). With an apodizing window the restoration fails: for every window that is not constant and every beam that is positive everywhere, a point source where the window is largest comes out with less power at frequency zero than it has without the beam (C106_window_violated). The image of the beam made by radio_beam is a parameter; convolution that is not periodic is not covered."
  },
  {
   "property": "C107",
   "status": "partial",
   "theorems": [
    "TS.C107_pixels",
    "TS.C107_channel_order_partial",
    "TS.C107_brightness",
    "TS.C107_normalize_violated",
    "TS.C107_faint",
    "TS.C107_pictures",
    "TS.C107_channel_order_violated"
   ],
   "note": "Pixels, units, faint pixels and pictures are proved for all cubes and all draws. The order of the channels has no effect when both cubes use the same number of values per channel (C107_channel_order_partial); otherwise the columns drawn depend on the place of the channel and the distance can change (C107_channel_order_violated). normalize=False still divides each cube by its maximum, so that a cube is at distance zero from any multiple of itself (C107_normalize_violated)."
  },
  {
   "property": "C108",
   "status": "partial",
   "theorems": [
    "TS.C108_spectrum",
    "TS.C108_image",
    "TS.C108_limits",
    "TS.C108_cube",
    "TS.C108_isotropic_fixed",
    "TS.C108_unbinned_partial",
    "TS.C108_returns",
    "TS.C108_profile_partial",
    "TS.C108_unbinned_violated"
   ],
   "note": "The 2D fits are exact for every draw, for images, cubes and the isotropic case, under the hypothesis that the fitter reproduces data that its model can reproduce exactly (Converges; numerical convergence is not modelled). The unbinned 1D fit is exact when the upper limit is below the Nyquist frequency (C108_unbinned_partial); with the default limits it is not (C108_unbinned_violated). The binned 1D profile is bounded by the law at its bin edges (C108_profile_partial); the slope fitted to it is not exact. Odd sizes are not covered (the generator returns a non-square image, C53)."
  },
  {
   "property": "C109",
   "status": "partial",
   "theorems": [
    "TS.C109_PowerSpectrum",
    "TS.C109_VCA",
    "TS.C109_MVC",
    "TS.C109_VCS",
    "TS.C109_Wavelet",
    "TS.C109_DeltaVariance",
    "TS.C109_SCF",
    "TS.C109_PCA",
    "TS.C109_PDF",
    "TS.C109_Tsallis",
    "TS.C109_StatMoments",
    "TS.C109_Genus",
    "TS.C109_Dendrogram_Stats",
    "TS.C109_Bispectrum",
    "TS.C109_PowerSpectrum_flags",
    "TS.C109_VCA_flags",
    "TS.C109_MVC_flags",
    "TS.C109_SCF_flags",
    "TS.C109_PCA_flags",
    "TS.C109_PDF_flags",
    "TS.C109_convolved_arrays_violated",
    "TS.C109_wavelet_brk_err_violated",
    "TS.C109_deltavar_brk_err_violated",
    "TS.C109_pspec_brk_err_violated",
    "TS.C109_stale_brk_err_violated",
    "TS.C109_pspec_stddev_placeholder_violated",
    "TS.C109_vca_stddev_placeholder_violated",
    "TS.C109_scf_surface_placeholder_violated",
    "TS.C109_pdf_placeholder_violated",
    "TS.C109_ecdf_placeholder_violated",
    "TS.C109_wavelet_half_made_violated",
    "TS.C109_deltavar_half_made_violated",
    "TS.C109_unfinished_surface_violated",
    "TS.C109_pspec_failed_break_violated",
    "TS.C109_scf_no_mask_violated",
    "TS.C109_pca_early_fit_violated",
    "TS.C109_pca_failed_bayes_violated"
   ],
   "note": "Proved for every history of the 14 classes, with tables of results in Spec/LifecycleTables.lean; steps that read an attribute only when a flag says so, for objects on which no call failed (_flags), and false after some failed calls. Not every result has the property: see the violations. Values are opaque: that a stored value is the right one is the subject of other properties."
  },
  {
   "property": "C110",
   "status": "partial",
   "theorems": [
    "TS.C110_unweighted_partial",
    "TS.C110_exact_data",
    "TS.C110_equivariant",
    "TS.C110_weighted",
    "TS.C110_samples_off_violated",
    "TS.C110_three_points",
    "TS.C110_weight_factor_violated",
    "TS.C110_deltavar_unit",
    "TS.C110_deltavar_unit_violated",
    "TS.C110_break_errors",
    "TS.C110_second_slope_violated",
    "TS.C110_few_draws_violated",
    "TS.C110_single_point"
   ],
   "note": "Proved for equal weights, up to the residual that is never drawn (C10), together with exact data and equivariance for all weights. False for weighted fits, for the second slope of a fit with a break, and for fewer than two resamplings. statsmodels is a parameter with the contract that it returns a least-squares solution; return_samps is modelled as bootSamples, debug and fit_kwargs are not."
  },
  {
   "property": "C111",
   "status": "partial",
   "theorems": [
    "TS.C111_PowerSpectrum_partial",
    "TS.C111_VCA_partial",
    "TS.C111_MVC_partial",
    "TS.C111_VCS",
    "TS.C111_Wavelet_partial",
    "TS.C111_DeltaVariance_partial",
    "TS.C111_SCF",
    "TS.C111_PCA",
    "TS.C111_StatMoments",
    "TS.C111_Dendrogram_Stats_partial",
    "TS.C111_Bispectrum",
    "TS.C111_VCS_all",
    "TS.C111_SCF_all",
    "TS.C111_PCA_all",
    "TS.C111_StatMoments_all",
    "TS.C111_Bispectrum_all",
    "TS.C111_bispectrum_unfinished_violated",
    "TS.C111_moments_unfinished_violated",
    "TS.C111_pspec_interrupted_violated",
    "TS.C111_vca_interrupted_violated",
    "TS.C111_mvc_interrupted_violated",
    "TS.C111_wavelet_interrupted_violated",
    "TS.C111_deltavar_interrupted_violated",
    "TS.C111_pspec_unbinned_violated",
    "TS.C111_vca_unbinned_violated",
    "TS.C111_mvc_unbinned_violated"
   ],
   "note": "Proved for every class when all calls completed; when calls may have failed, for five classes (that what is read is there). False when a fit was interrupted between the slope and its error, when a map or the bicoherence was interrupted while being filled, and for the plot of an unbinned fit. Whether the kept results belong to the options given to the distance class is C28. Left open: a failure between the tail slope and its error."
  },
  {
   "property": "C112",
   "status": "partial",
   "theorems": [
    "TS.C112_symmetry",
    "TS.C112_roll_partial",
    "TS.C112_complete",
    "TS.C112_scale",
    "TS.C112_offset_partial",
    "TS.C112_value",
    "TS.C112_even_weights_partial",
    "TS.C112_offset_violated"
   ],
   "note": "Proved for all maps and missing pixels: the value, mirror images, turns, scaling; cyclic shifts while the kernels fit into the map. Adding a constant: proved without missing pixels, and with them for boundary='wrap' and the same weight everywhere (also at missing pixels). Violation: with the default weights a constant map with a missing pixel has a positive delta-variance. Same value with both choices of nan_treatment for complete maps: proved."
  },
  {
   "property": "C113",
   "status": "partial",
   "theorems": [
    "TS.C113_repeatable",
    "TS.C113_transparent",
    "TS.C113_user_seed",
    "TS.C113_cramer_same_size",
    "TS.C113_cramer_forgets",
    "TS.C113_cramer_violated",
    "TS.C113_boot_draws",
    "TS.C113_boot_prefix",
    "TS.C113_bispec_sampling",
    "TS.C113_parameters",
    "TS.C113_errors_violated"
   ],
   "note": "Proved: the calls with a seed argument and the Cramer distance are repeatable; the calls with a seed argument, also when they raise, can be left out of any program without changing the rest; the Cramer distance leaves the generator alone for cubes of the same size; the draws of the bootstrap depend on the number of points, resamplings and the seed only, and more resamplings keep the first ones; two images of the same shape are sampled at the same triangles; fitted parameters of elliptical fits are repeatable; after the user seeds, everything is determined. Violations: for cubes of different sizes the Cramer distance seeds the global generator and leaves it seeded; bootstrapped errors of elliptical power-law fits take their draws from the global generator without a seed and change from call to call. The MCMC fits (emcee) are not modelled."
  },
  {
   "property": "C114",
   "status": "partial",
   "theorems": [
    "TS.C114_values",
    "TS.C114_zero_iff",
    "TS.C114_units",
    "TS.C114_bootstrap",
    "TS.C114_bootstrap_violated",
    "TS.C114_fit_units",
    "TS.C114_zero_left_out",
    "TS.C114_pair_violated",
    "TS.C114_returns",
    "TS.C114_brightness"
   ],
   "note": "Proved: the values without bootstrapping, when they are zero, when they are missing, and that the profile is otherwise the one returned without them; how they follow the spectrum times a factor plus an offset, also bootstrapped; slope and intercept of the weighted and unweighted fit when spectrum or image is multiplied by a constant (given two usable bins); boot_iter = 0 is refused, everything else that has a profile returns. Violations: bootstrapped values are at most half the range of the bin, and in a bin of two different powers smaller than the sample deviation by at least the square root of two whatever is drawn; a bin holding one pair of opposite modes always has standard deviation zero, and bins with zero are left out of the weighted fit instead of weighing most. Quantiles of Student's t and the draws are parameters; the fit with a break is C99."
  },
  {
   "property": "C115",
   "status": "partial",
   "theorems": [
    "TS.C115_profile",
    "TS.C115_slope",
    "TS.C115_unbinned",
    "TS.C115_vca",
    "TS.C115_mvc",
    "TS.C115_pixels_violated",
    "TS.C115_wedge_partial",
    "TS.C115_even_violated",
    "TS.C115_major_axis"
   ],
   "note": "Proved for all sizes without azimuthal limits, for any sequence of turns and mirrorings and every window: profile, counts, standard deviations, binned fit (weighted or not), unbinned fit (given two usable modes of different radius) VCA and MVC (each single move, no window, no missing pixels). With azimuthal limits: proved for odd sizes in every bin above the radius of mode (1, 1) (the middle block is always used and is not symmetric, C06) when no lower limit points exactly along the negative x axis (C06_edge_on_cut); in square images of odd size limits about theta2D use the modes with the highest fitted power. Violation: for every even size directions are measured from half a pixel beside the zero frequency, so narrow limits about theta_0 = 0 leave out the modes on the x axis and use the row next to it. With bins in pixels (return_freqs=False) the orientation matters (violation)."
  },
  {
   "property": "C116",
   "status": "partial",
   "theorems": [
    "TS.C116_bispec",
    "TS.C116_bispec_range",
    "TS.C116_bispec_axes_violated",
    "TS.C116_genus",
    "TS.C116_genus_through",
    "TS.C116_genus_legend_violated",
    "TS.C116_genus_legend",
    "TS.C116_num",
    "TS.C116_hist",
    "TS.C116_hist_area_violated",
    "TS.C116_hist_ecdf_violated",
    "TS.C116_save_names",
    "TS.C116_save_bare_violated",
    "TS.C116_pca",
    "TS.C116_pca_proportion_violated",
    "TS.C116_pca_number_violated",
    "TS.C116_pca_cmap_violated",
    "TS.C116_mom",
    "TS.C116_scf",
    "TS.C116_scf_scale",
    "TS.C116_pdf"
   ],
   "note": "Proved: for each of the seven distances the figure exists whenever the distance does (dendrogram histograms under the conditions of C88, PCA for a positive sum of the compared eigenvalues, SCF and bispectrum for complete surfaces, PDF with at least one bin), each dataset has its panel or colour, and the distance is computed from the points, bars or pixels drawn; the vertical gap of the drawn ECDFs bounds the KS distance from below only, since the figure samples them at the bins. Violations proved: the bispectrum is drawn with its axes exchanged against the labels; without labels the genus figure has no legend; dendrogram bars labelled PDF are shares, whose area is the range over the number of bins; thresholds with fewer bins than the widest vanish from the ECDF panels (rows padded with NaN); save_name without an extension raises ValueError after the first dendrogram distance, the second is never set; PCA bars labelled proportion of variance are shares of the compared eigenvalues, bar 1 is the second eigenvalue without mean subtraction, and cmap is ignored for the second matrix. Left out: tick marks, grids, marker shapes, legend places, limits of the SCF spectra, and the figures of the power-law distances (C97)."
  },
  {
   "property": "C117",
   "status": "partial",
   "theorems": [
    "TS.C117_pspec",
    "TS.C117_vca",
    "TS.C117_vcs",
    "TS.C117_mvc",
    "TS.C117_bispec",
    "TS.C117_threads_violated",
    "TS.C117_convolutions",
    "TS.C117_keep_rfft_violated",
    "TS.C117_old_names",
    "TS.C117_new_name_warns_violated"
   ],
   "note": "Proved for the five statistics with their own transforms, for every setting and any pyfftw that computes the transform under the options given, with the exact calls and the number of warnings; for the wavelet transform and the delta-variance the library and the number of warnings (their results: C100). Violations: only the bispectrum hands the number of threads to pyfftw, elsewhere no number of threads reaches a transform; the wavelet transform and delta-variance use neither threads nor pyfftw_kwargs; keep_rfft among the options is taken by rfft_to_fft itself and halves the power spectrum; Bispectrum_Distance warns about the old name BiSpectrum for every image it is given."
  },
  {
   "property": "C118",
   "status": "partial",
   "theorems": [
    "TS.C118_orientations",
    "TS.C118_tsallis",
    "TS.C118_moment_maps",
    "TS.C118_genus_value",
    "TS.C118_genus_init",
    "TS.C118_genus_curves",
    "TS.C118_smoothing",
    "TS.C118_pca_covariance",
    "TS.C118_pca_eigenvalues",
    "TS.C118_moment_values",
    "TS.C118_moment_distance",
    "TS.C118_genus_distance",
    "TS.C118_scf_surface_fractional",
    "TS.C118_scf_spectrum_fractional_partial",
    "TS.C118_scf_distance_fractional",
    "TS.C118_pca_autocorrelation_partial",
    "TS.C118_pca_autocorrelation_violated",
    "TS.C118_scf_surface",
    "TS.C118_scf_spectrum_partial",
    "TS.C118_scf_spectrum_default_partial",
    "TS.C118_scf_distance",
    "TS.C118_default_lags"
   ],
   "note": "Proved for all sequences of moves, in exact arithmetic: the values and the distribution of the Tsallis statistic, moment maps and both moment distances, genus values, curves and distance, PCA covariance and eigenvalues, SCF surface with both boundaries, SCF distance and the SCF spectrum without azimuthal limits, for whole-pixel lags that are the same in both directions (the default lags are); with continuous boundaries also for lags of a fraction of a pixel that are the same in both directions (for exchanges of the axes: cubes without missing voxels). Refuted: the PCA autocorrelation images, from which the widths are fitted, drop the first pixel and so depend on position and orientation; they do not when that pixel is 0 (shifts). Not covered: asymmetric SCF lags, fractional lags with cut boundaries (refuted for the surface in C120), azimuthal limits of the SCF spectrum, the Tsallis fit (a function of the distribution proved equal)."
  },
  {
   "property": "C119",
   "status": "partial",
   "theorems": [
    "TS.C119_reversal",
    "TS.C119_scf_surface",
    "TS.C119_scf",
    "TS.C119_vca",
    "TS.C119_vcs",
    "TS.C119_pca",
    "TS.C119_pca_missing_violated",
    "TS.C119_widths_partial",
    "TS.C119_widths_violated",
    "TS.C119_units",
    "TS.C119_regrid",
    "TS.C119_downsample_partial",
    "TS.C119_downsample_violated"
   ],
   "note": "Proved in exact arithmetic: SCF surface and spectrum for every order of the channels, all lags (fractions of a pixel included) and missing values; VCA for every order, with or without a window; VCS reversed, with missing voxels; PCA eigenvalues, number kept, total and fraction of variance for every order when no voxel is missing; spectral widths by every method for eigenvectors that vanish in the first and last channel; unit conversions; the factor or new axis of spectral_regrid_cube; averaging when the factor divides the number of channels. Refuted: PCA eigenvalues with missing voxels, spectral widths in general, VCA with a channel width that does not divide the number of channels. Not covered: the values spectral_cube interpolates on the new axis, the WCS library."
  },
  {
   "property": "C120",
   "status": "partial",
   "theorems": [
    "TS.C120_mirror",
    "TS.C120_half_turn",
    "TS.C120_roll",
    "TS.C120_exchange_partial",
    "TS.C120_exchange_whole",
    "TS.C120_symmetric_violated",
    "TS.C120_exchange_violated",
    "TS.C120_cut_violated"
   ],
   "note": "Proved for continuous boundaries, in exact arithmetic, for all real lags (symmetric or not): mirroring along either sky axis and half turns, missing voxels included; periodic shifts, missing voxels included; exchange of the axes for cubes without missing voxels, and with them at lags that are whole along one axis. Refuted: equality at opposite lags, mirroring with cut boundaries, and exchange of the axes with missing voxels at lags that are fractions along both. C25 and C118 have whole-pixel lags."
  },
  {
   "property": "C121",
   "status": "partial",
   "theorems": [
    "TS.C121_image",
    "TS.C121_profile",
    "TS.C121_slope",
    "TS.C121_unbinned",
    "TS.C121_vca",
    "TS.C121_vcs",
    "TS.C121_vcs_points",
    "TS.C121_bispectrum",
    "TS.C121_frame_partial",
    "TS.C121_frame_violated",
    "TS.C121_missing_violated",
    "TS.C121_apodized_violated",
    "TS.C121_pixel_bins_violated",
    "TS.C121_vcs_missing_partial",
    "TS.C121_counted_violated",
    "TS.C121_part_missing_violated"
   ],
   "note": "Proved in exact arithmetic, without windows and missing data: power spectrum (image, profile, binned and unbinned fit), VCA (image and profile), VCS (spectrum and fitted points; also with whole spectra missing when all values are positive), bispectrum. MVC only where the intensity has no power. Refuted: maps with missing pixels, apodizing windows, bins in pixels, VCS with spectra of which a part is missing, VCS with missing spectra and values that are not positive, MVC in another frame. PCA is in C32, delta-variance in C38, Tsallis in C41, moments in C89, PDF in C79."
  },
  {
   "property": "C122",
   "status": "partial",
   "theorems": [
    "TS.C122_values",
    "TS.C122_pdf",
    "TS.C122_pdf_distance",
    "TS.C122_genus_value",
    "TS.C122_genus_partial",
    "TS.C122_genus_area_violated",
    "TS.C122_moments",
    "TS.C122_moments_periodic",
    "TS.C122_tsallis_partial",
    "TS.C122_tsallis_violated",
    "TS.C122_vcs",
    "TS.C122_pca_partial",
    "TS.C122_pca_violated",
    "TS.C122_pca_mean_violated",
    "TS.C122_scf_violated",
    "TS.C122_cramer_violated",
    "TS.C122_pspec_partial",
    "TS.C122_vca_partial",
    "TS.C122_wavelet",
    "TS.C122_wavelet_map",
    "TS.C122_wavelet_violated",
    "TS.C122_delta_variance",
    "TS.C122_delta_variance_interpolate"
   ],
   "note": "Proved: PDF and PDF distance, genus values and genus curves without smoothing, moment maps without periodic boundaries (the values of the maps for a least fraction of at least 1/2; the default is 0.8), and with periodic boundaries, the default, once the frame is at least as wide as the radius, covariances of different channels with and without mean subtraction, VCS of positive cubes up to a common factor. Power spectra and VCA keep the power at all frequencies that both grids have. Tsallis distributions are the same for all frames at least as wide as the lag, delta-variance values and errors (missing pixels without weight; with interpolation over missing pixels only for boundary 'wrap') and wavelet values for all frames at least as wide as half the kernel; with the default boundary the wavelet coefficients at the pixels of the map are kept by any frame. Refuted: genus per area in the distance, Tsallis and wavelet values without a frame, PCA variances, SCF with continuous boundaries, Cramer; the level of the VCS spectrum changes with the number of pixels. Missing: smoothed genus curves, radial profiles and slopes of power spectra, delta-variance in narrower frames and with interpolation and boundary 'fill'."
  },
  {
   "property": "C123",
   "status": "partial",
   "theorems": [
    "TS.C123_scf_surface",
    "TS.C123_scf",
    "TS.C123_vca",
    "TS.C123_vcs_partial",
    "TS.C123_vcs_violated",
    "TS.C123_pca_partial",
    "TS.C123_pca_violated",
    "TS.C123_pca_mean_sub",
    "TS.C123_cramer_partial",
    "TS.C123_cramer_violated"
   ],
   "note": "Proved: SCF surface and spectrum, all lags and both boundaries; VCA without apodizing, up to the ratio of the numbers of channels; VCS of positive cubes at common frequencies; covariances of the channels of the cube; with mean subtraction all covariances with blank channels are zero, the eigenvalues are those of the cube and zeros, and the total variance is the same. The Cramer data keep the rows of the cube and get rows of zeros. Refuted: VCS of other cubes, PCA covariances without mean subtraction, the Cramer distance. Missing: VCS frequencies that the cube does not have, and the slopes fitted to the spectra."
  },
  {
   "property": "C124",
   "status": "partial",
   "theorems": [
    "TS.C124_pca",
    "TS.C124_pca_mean_violated",
    "TS.C124_wavelet",
    "TS.C124_delta_variance",
    "TS.C124_vcs",
    "TS.C124_pca_mean",
    "TS.C124_delta_variance_nan",
    "TS.C124_mvc",
    "TS.C124_pdf",
    "TS.C124_moment_histograms",
    "TS.C124_percentile_violated",
    "TS.C124_pspec",
    "TS.C124_vca",
    "TS.C124_scf",
    "TS.C124_moments",
    "TS.C124_tsallis",
    "TS.C124_tsallis_violated"
   ],
   "note": "Proved: SCF surface with the continuous boundary, at all lags; PCA covariances without mean subtraction; PDF, cumulative distribution and percentiles of values with given bins; moment maps with periodic boundaries, and their histograms with given bins; Tsallis distributions with periodic boundaries and a given number of bins; wavelet values with the boundary 'wrap' passed to the convolution; delta-variance values with the default boundary 'wrap', for missing pixels filled with zero or interpolated; the two-dimensional power spectra of maps and cubes without apodizing, at all frequencies; the MVC spectrum without apodizing, for maps whose missing pixels are the same in all three; the VCS spectrum of all cubes. Refuted: PCA covariances with mean subtraction; for cubes without missing voxels they are all changed by one factor, which is proved; Tsallis distributions with the default number of bins, which grows with the number of pixels; values at given percentiles, which are interpolated. Missing: radial profiles and slopes of the spectra. The errors of the delta-variance are not claimed: they shrink with the number of pixels."
  }
 ]
}