{
 "claims": [
  {
   "property": "C01",
   "status": "partial",
   "theorems": [
    "Verif.Resample.resampleMean_correct_partial",
    "Verif.Resample.resampleMean_unsorted_targets_wrong",
    "Verif.Resample.resampleMean_shape",
    "Verif.Collocation.mean_collocation"
   ],
   "note": "Proved for sorted times and sorted targets; the code violates the claim for unsorted targets (negation proved)."
  },
  {
   "property": "C02",
   "status": "proved",
   "theorems": [
    "Verif.Collocation.nearest_collocation",
    "Verif.Collocation.nearest_total",
    "Verif.Collocation.nearest_unsorted_rejected",
    "Verif.Collocation.collocation_dropna"
   ],
   "note": "For every call that returns; indices sorted in neither direction are rejected."
  },
  {
   "property": "C03",
   "status": "partial",
   "theorems": [
    "Verif.Collocation.flagged_collocation_partial",
    "Verif.Collocation.flag_column_of_other_rejected",
    "Verif.Collocation.mean_flagged_fails"
   ],
   "note": "Proved for every nearest-method call that returns on a frame with unique time stamps. A flag of the length of other is rejected unless the reference has the same length; mean with flags always fails."
  },
  {
   "property": "C04",
   "status": "proved",
   "theorems": [
    "Verif.Collocation.nearest_collocation"
   ],
   "note": "index_other and distance_other clauses."
  },
  {
   "property": "C05",
   "status": "proved",
   "theorems": [
    "Verif.Collocation.combined_collocation"
   ],
   "note": "Nearest method without flags; all dropna modes."
  },
  {
   "property": "C06",
   "status": "proved",
   "theorems": [
    "Verif.Filters.boxcar_filter_correct",
    "Verif.Filters.boxcar_filter_unsorted_wrong"
   ],
   "note": "For ascending times; the negation shows that the order is needed."
  },
  {
   "property": "C07",
   "status": "proved",
   "theorems": [
    "Verif.Filters.exp_filter_correct",
    "Verif.Filters.exp_filter_bounded"
   ],
   "note": "Exact reals; ctime nonzero."
  },
  {
   "property": "C08",
   "status": "partial",
   "theorems": [
    "Verif.Rolling.rolling_center_correct",
    "Verif.Rolling.rolling_trailing_correct",
    "Verif.Rolling.rolling_trailing_positions_partial",
    "Verif.Rolling.rolling_trailing_ties_wrong"
   ],
   "note": "Centred windows: all sorted series. Trailing windows: strictly increasing time stamps; with repeated time stamps the claim is false (counterexample proved)."
  },
  {
   "property": "C09",
   "status": "partial",
   "theorems": [
    "Verif.Moments.moments_welford_correct",
    "Verif.Moments.moments_nd_offdiagonal_partial",
    "Verif.Moments.moments_nd_diagonal_wrong"
   ],
   "note": "Proved for the two-array routine used by the metrics. The n-dimensional routine is right off the diagonal; its variances are wrong (counterexample proved)."
  },
  {
   "property": "C10",
   "status": "proved",
   "theorems": [
    "Verif.Pairwise.mse_decomposition_exact"
   ],
   "note": "Exact real arithmetic, non-empty NaN-free inputs."
  },
  {
   "property": "C100",
   "status": "partial",
   "theorems": [
    "Verif.Upscaling.upscaled_other",
    "Verif.Upscaling.upscaled_units",
    "Verif.Upscaling.linregress_unitFree",
    "Verif.Upscaling.upscaled_order_partial",
    "Verif.Upscaling.order_matters",
    "Verif.Upscaling.linregress_error",
    "Verif.Upscaling.stderr_is_error_of_slope",
    "Verif.Upscaling.see_max_not_respected"
   ],
   "note": "Units and clock proved outright for the whole of get_upscaled_ts with the regression of SciPy written out over the reals. The order of the points is irrelevant if the points with the most values agree on the times; order_matters is the counterexample without. see_max is compared with the standard error of the slope, not the documented standard error of estimate (see_max_not_respected)."
  },
  {
   "property": "C101",
   "status": "partial",
   "theorems": [
    "Verif.Smoothn.smoothn_gain",
    "Verif.Smoothn.smoothn_weights",
    "Verif.Smoothn.smoothn_offset_complete",
    "Verif.Smoothn.smoothn_offset_partial",
    "Verif.Smoothn.smoothn_offset_rounds",
    "Verif.Smoothn.code_meets_assumptions"
   ],
   "note": "Gain and weights are proved for all arguments. The offset is proved for data without gaps and, without robust weights, for calls that take the same number of rounds; in general it is false, because the rounds end when the change is small relative to the values themselves (smoothn_offset_rounds). Scale-freeness of the search for the smoothing parameter is an assumption about scipy."
  },
  {
   "property": "C102",
   "status": "proved",
   "theorems": [
    "Verif.Rolling.rolling_clock",
    "Verif.Rolling.rolling_min_periods",
    "Verif.Rolling.rolling_units",
    "Verif.Rolling.rolling_units_separate",
    "Verif.Rolling.rolling_exchange",
    "Verif.Rolling.rolling_local",
    "Verif.Rolling.rolling_causal",
    "Verif.Rolling.rolling_reverse"
   ],
   "note": "Over the reals, so rounding errors that the incremental moments collect are not covered; the regularised incomplete beta function is a parameter."
  },
  {
   "property": "C103",
   "status": "partial",
   "theorems": [
    "Verif.Colormaps.load_partial",
    "Verif.Colormaps.load_own",
    "Verif.Colormaps.load_relative",
    "Verif.Colormaps.listed_not_loaded",
    "Verif.Colormaps.other_map_loaded"
   ],
   "note": "Partial because the code does not do it: negations for maps in the list that cannot be loaded under their names, for a name that gives another map, and for relative folders. What load does in an absolute folder is characterised completely (load_partial); a file whose content repeats its name is loaded (load_own)."
  },
  {
   "property": "C104",
   "status": "partial",
   "theorems": [
    "Verif.Rolling.Fl.rolling_float_center_partial",
    "Verif.Rolling.Fl.rolling_float_trailing_partial",
    "Verif.Rolling.Fl.nan_forever",
    "Verif.Rolling.Fl.grow_nonneg",
    "Verif.Rolling.Fl.welford_constant",
    "Verif.Rolling.Fl.rnd64_rounding",
    "Verif.Rolling.Fl.rnd64_err",
    "Verif.Rolling.Fl.constant_window_wrong",
    "Verif.Rolling.Fl.equal_window_wrong",
    "Verif.Rolling.Fl.outlier_window_wrong"
   ],
   "note": "Partial because the code violates it. Proved: the metrics of the window in exact arithmetic without missing values; with any monotone rounding the sums keep their sign and constant columns have variance 0 as long as observations are only added (so _moments_welford is right). Negations: after a missing value every later window has RMSD NaN and correlation -1 with p-value 0 (nan_forever, for all data); with the rounding of double a window with a constant column gets correlation -1 with p-value 0, a window with equal columns RMSD NaN, and an outlier that has left the window changes the RMSD. Infinite values, overflow and float32 are not modelled."
  },
  {
   "property": "C105",
   "status": "partial",
   "theorems": [
    "Verif.Rounding.bias_err",
    "Verif.Rounding.RSS_err",
    "Verif.Rounding.msd_err",
    "Verif.Rounding.rmsd_err",
    "Verif.Rounding.aad_err",
    "Verif.Rounding.RSS_zero_iff",
    "Verif.Rounding.swap_exact",
    "Verif.Rounding.bias_self",
    "Verif.Rounding.double_err",
    "Verif.Rounding.rnd64_relErr",
    "Verif.Rounding.rnd64_neg",
    "Verif.Rounding.rnd64_exactly",
    "Verif.Rounding.boxcar_err_partial",
    "Verif.Rounding.boxcar_local",
    "Verif.Rounding.boxcar_window",
    "Verif.Rounding.exp_step",
    "Verif.Rounding.exp_constant",
    "Verif.Rounding.boxcar_constant_wrong",
    "Verif.Rounding.metrics_exact",
    "Verif.Rounding.boxcar_exact",
    "Verif.Rounding.exp_exact"
   ],
   "note": "Violated in one point: the boxcar filter of a constant series is not that constant (boxcar_constant_wrong: three times 0.1). Everything else is proved for all roundings with a relative error bound; overflow and underflow are not modelled, and the total error of exp_filter is bounded in C119."
  },
  {
   "property": "C106",
   "status": "partial",
   "theorems": [
    "Verif.Results.Times.times_round_trip_partial",
    "Verif.Results.Times.times_sorted",
    "Verif.Results.Times.times_late_wrong",
    "Verif.Results.Times.times_nanoseconds_wrong"
   ],
   "note": "Order kept for all time stamps. Exact to the microsecond within 2^16 days of 1900 (to 2079-06-05); nanoseconds are dropped and later dates can be off by a microsecond (negations). The arithmetic of cftime is taken from its source and part of the trusted base."
  },
  {
   "property": "C107",
   "status": "partial",
   "theorems": [
    "Verif.Rounding.perfect",
    "Verif.Rounding.mse_corr_perfect_partial",
    "Verif.Rounding.mse_corr_perfect_wrong",
    "Verif.Rounding.mse_corr_exchange_wrong",
    "Verif.Rounding.swap_exact",
    "Verif.Rounding.metrics_exact",
    "Verif.Rounding.exchange_exact",
    "Verif.Rounding.never_negative",
    "Verif.Rounding.mse_corr_self_partial"
   ],
   "note": "Violated for mse_corr and mse: 2^-50 instead of 0 for 2, 0, -2, 0 (a bound of a few units of rounding is proved), and mse_corr changes in the last digits when the series are exchanged. Everything else is exact."
  },
  {
   "property": "C108",
   "status": "partial",
   "theorems": [
    "Verif.Rounding.min_max_rounded",
    "Verif.Rounding.min_max_maximum_partial",
    "Verif.Rounding.linear_scaling_order",
    "Verif.Rounding.min_max_maximum_wrong",
    "Verif.Rounding.min_max_self_wrong",
    "Verif.Rounding.min_max_ties_wrong",
    "Verif.Rounding.scaling_exact"
   ],
   "note": "Order and exact minimum proved; maximum only up to rounding, ties and changes of a series scaled to itself are possible (negations)."
  },
  {
   "property": "C109",
   "status": "partial",
   "theorems": [
    "Verif.Collocation.Julian.mean_window_partial",
    "Verif.Collocation.Julian.nanmean_err",
    "Verif.Collocation.Julian.mean_window_exact",
    "Verif.Collocation.Julian.mean_window_wrong",
    "Verif.Collocation.Julian.day_distance_exact",
    "Verif.Collocation.Julian.mean_window_days"
   ],
   "note": "Violated at the edges: with hourly data and a window of one hour every third previous and every third next value is missing in the mean (mean_window_wrong). Proved for all time stamps: all rows more than 0.2 ms inside are used and no row more than 0.2 ms outside, the mean of these rows up to the rounding of the sum; exact for exact arithmetic; for a window of a whole number of days (up to 100000) no row is lost, the edges included (mean_window_days). to_julian_date of pandas is written out from its source, its number of days is taken to be right. One float64 column without flags."
  },
  {
   "property": "C11",
   "status": "proved",
   "theorems": [
    "Verif.Pairwise.difference_metrics_consistent",
    "Verif.Pairwise.difference_metrics_symmetric",
    "Verif.Pairwise.difference_metrics_zero",
    "Verif.Pairwise.nrmsd_range",
    "Verif.Pairwise.ddof_metrics",
    "Verif.Pairwise.nrmsd_exact"
   ],
   "note": "Exact real arithmetic, non-empty NaN-free inputs; ddof_metrics covers every ddof < n."
  },
  {
   "property": "C110",
   "status": "partial",
   "theorems": [
    "Verif.Rolling.Fl.Jd.rolling_center_partial",
    "Verif.Rolling.Fl.Jd.rolling_trailing_partial",
    "Verif.Rolling.Fl.Jd.rolling_machine",
    "Verif.Rolling.Fl.Jd.rolling_window_wrong"
   ],
   "note": "Proved for all sorted time stamps up to 0.2 ms at the edges, and for windows of whole days centred windows contain both edges and trailing windows never the open start; the code loses or adds rows at the edges for other windows (rolling_window_wrong). The sums are exact in these theorems; their rounding is C104, and rolling_machine shows the model with one rounding is the one of C104."
  },
  {
   "property": "C111",
   "status": "partial",
   "theorems": [
    "Verif.Rounding.variance_nonneg",
    "Verif.Rounding.stored_consistent",
    "Verif.Rounding.stored_sums",
    "Verif.Rounding.constant_series",
    "Verif.Rounding.bias_ci_partial",
    "Verif.Rounding.bias_ci_self",
    "Verif.Rounding.bias_ci_wrong",
    "Verif.Rounding.urmsd_wrong",
    "Verif.Rounding.parts_wrong",
    "Verif.Rounding.correlation_nan_wrong",
    "Verif.Rounding.double_arithmetic",
    "Verif.Rounding.single_arithmetic"
   ],
   "note": "Signs, order, absence of NaN, sums up to single precision and NaN for constant series proved for all series. The confidence interval of BIAS is NaN for many series that differ by a constant (bias_ci_wrong), urmsd is exact only relative to mse (urmsd_wrong), and R is NaN also for some series that are not constant (correlation_nan_wrong). Hypotheses shown for double and single precision with a concrete square root (double_arithmetic, single_arithmetic)."
  },
  {
   "property": "C112",
   "status": "partial",
   "theorems": [
    "Verif.Rounding.Moving.moving_average_partial",
    "Verif.Rounding.Moving.moving_average_daily",
    "Verif.Rounding.Moving.window_wrong",
    "Verif.Rounding.Moving.julday64_err",
    "Verif.Rounding.Moving.julday64_midnight"
   ],
   "note": "Exact for daily data and windows of whole days (moving_average_daily). In general up to a second, the error of the Julian dates and the rounding of the window to single precision; without this tolerance it is false (window_wrong)."
  },
  {
   "property": "C113",
   "status": "partial",
   "theorems": [
    "Verif.Scaling.in_steps_partial",
    "Verif.Scaling.prescaled_partial",
    "Verif.Scaling.prescaled_linreg_partial",
    "Verif.Scaling.linreg_twice_partial",
    "Verif.Scaling.scale_twice",
    "Verif.Scaling.constant_reference_wrong",
    "Verif.Scaling.linreg_twice_wrong",
    "Verif.Scaling.linreg_twice_flat",
    "Verif.Scaling.cdf_match_twice_wrong"
   ],
   "note": "Holds for mean_std and min_max with a reference that varies and for a rising linreg; also for CDF matching after any of these. Violated for a constant reference (NaN the second time), a falling linreg (moved by twice the intercept), a flat linreg (ValueError) and for matching CDFs twice."
  },
  {
   "property": "C114",
   "status": "partial",
   "theorems": [
    "Verif.Validation.other_data_sets_partial",
    "Verif.Validation.matched_same",
    "Verif.Validation.compared_same",
    "Verif.Validation.expected_perm",
    "Verif.Validation.combined_depends_on_others"
   ],
   "note": "Holds for the default matcher without bootstrapping (the random resamples depend on the order of the data), provided that all data sets can be read at the location (a further data set that cannot be read removes the result, C75), the rank correlations of scipy are order free, and at least two observations are required. False for the combined matcher: a third data set takes away common times of a pair (proved)."
  },
  {
   "property": "C115",
   "status": "partial",
   "theorems": [
    "Verif.DfMetrics.tcol_error_df_partial",
    "Verif.DfMetrics.tcol_metrics_df_partial",
    "Verif.DfMetrics.other_columns_ignored",
    "Verif.DfMetrics.tcol_error_illegal_name",
    "Verif.DfMetrics.tcol_metrics_illegal_name",
    "Verif.DfMetrics.reference_beyond_numeric",
    "Verif.DfMetrics.text_column_shifts_reference"
   ],
   "note": "Proved for frames whose rows are missing in all numeric columns or in none (individually missing values: false, C15), with column names that are legal names of fields. False otherwise (proved): any other name of a numeric column raises ValueError; ref_ind counts the numeric columns only, so a text column before the reference shifts it, and a ref_ind beyond the numeric columns gives no results and no exception. The reference of a triple is the place ref_ind of the triple (C17)."
  },
  {
   "property": "C116",
   "status": "partial",
   "theorems": [
    "Verif.Tcol.snr_and_error_agree_partial",
    "Verif.Tcol.exact_model",
    "Verif.Tcol.no_error",
    "Verif.Tcol.too_few_observations",
    "Verif.Tcol.npCov_constant",
    "Verif.Tcol.snr_without_error",
    "Verif.Tcol.snr_of_negative_signal",
    "Verif.Tcol.snr_of_uncorrelated_others",
    "Verif.Tcol.constant_reference_without_error"
   ],
   "note": "Proved for positive implied variances, for data sets without error and for fewer than two observations; exact_model shows that the model of C13 is exact there. False otherwise (proved, for all such data): a number as SNR beside a NaN error for negative error variances, a number or infinity as SNR beside an error larger than the variance of the data for negative signal variances, always 0 dB if the two other data sets are uncorrelated, and error 0 for a constant reference. Arithmetic with infinities and NaN, without rounding."
  },
  {
   "property": "C117",
   "status": "partial",
   "theorems": [
    "Verif.Grouping.yearless_compare",
    "Verif.Grouping.yearless_trichotomy",
    "Verif.Grouping.yearless_trans",
    "Verif.Grouping.yearless_invalid",
    "Verif.Grouping.yearless_to_datetime_partial",
    "Verif.Grouping.yearless_one_year",
    "Verif.Grouping.from_to_datetime",
    "Verif.Grouping.fraction_lost",
    "Verif.Grouping.not_always_list",
    "Verif.Grouping.to_datetime_refused",
    "Verif.Grouping.yearless_key",
    "Verif.Grouping.yearless_repr"
   ],
   "note": "Order, equality, text and conversion proved for all dates; cadati's doy is a parameter that counts the days of a leap year. Negations: the kind of the result of to_datetime depends on how many of the years have the date; fractions of a second are lost."
  },
  {
   "property": "C118",
   "status": "proved",
   "theorems": [
    "Verif.Rounding.moments_err",
    "Verif.Rounding.moments_double",
    "Verif.Rounding.ubrmsd_err",
    "Verif.Rounding.pearson_err",
    "Verif.Rounding.variance_wrong",
    "Verif.Rounding.covariance_wrong"
   ],
   "note": "Error bounds for every rounding with a relative error of at most u per operation (double: 2^-53, no overflow or underflow): means 5 (n+1) u B, variances and covariance 55 (n+2) u B^2, the square of ubRMSD 210 (n+3) u B^2 with B the largest absolute value, R three times 55 (n+2) u (B/sigma)^2. No bound relative to the variance is possible: variance_wrong and covariance_wrong (factor 2 for 2^53 and 2^53 + 2)."
  },
  {
   "property": "C119",
   "status": "proved",
   "theorems": [
    "Verif.Rounding.exp_filter_err",
    "Verif.Rounding.exp_filter_accuracy",
    "Verif.Rounding.exp_filter_double"
   ],
   "note": "Bound (25u + 72uM + 24ue + 78v)/(1 - exp(-d/ctime)) times the largest usable value: d and M ctime are the smallest and largest distance of successive usable observations, u, v, ue the relative errors of double, single precision and of the exponential. Overflow and underflow are not modelled. For d = 0 (equal times) nothing is claimed."
  },
  {
   "property": "C12",
   "status": "proved",
   "theorems": [
    "Verif.Pairwise.nash_sutcliffe_range",
    "Verif.Pairwise.index_of_agreement_range"
   ],
   "note": "For a reference series that is not constant (otherwise the code divides by zero)."
  },
  {
   "property": "C120",
   "status": "partial",
   "theorems": [
    "Verif.Rounding.percentiles_sorted_partial",
    "Verif.Rounding.percentiles_double",
    "Verif.Rounding.percentiles_default",
    "Verif.Rounding.percentiles_binned",
    "Verif.Rounding.percentile_values_binned",
    "Verif.Rounding.calcPercentiles_bins",
    "Verif.Rounding.percentile_values_minobs",
    "Verif.Rounding.percentiles_unsorted"
   ],
   "note": "Proved for percentiles given as whole numbers (any rounding with a relative error bound; double: up to 2^44 values), for the default of 100 bins (double, up to 2^40 values), and for every number of bins when minobs is at least 10 (scaling.cdf_match uses 20; double, up to 2^25 values): percentile_values_minobs, which includes the choice of the number of bins and the separation of ties. False for other numbers of bins without minobs: percentiles_unsorted (22 bins, 11 values, two of them equal: ValueError). The arithmetic of np.interp is taken from its C source; the spline that separates ties is evaluated exactly."
  },
  {
   "property": "C121",
   "status": "partial",
   "theorems": [
    "Verif.Validation.start_success_partial",
    "Verif.Validation.start_job_fails",
    "Verif.Validation.start_write_fails",
    "Verif.Validation.start_waits",
    "Verif.Validation.start_no_path",
    "Verif.Validation.start_no_jobs"
   ],
   "note": "Proved for all schedules and failures. Violated for a missing variable jobs: len(None) raises TypeError right after the message, before the check for None (start_no_jobs); the engines are not cleared after any exception. IPython's map is modelled as in C40 (results in the order of the jobs, two retries)."
  },
  {
   "property": "C122",
   "status": "partial",
   "theorems": [
    "Verif.Cdf.stored_monotone",
    "Verif.Cdf.stored_match_partial",
    "Verif.Cdf.stored_self_partial",
    "Verif.Cdf.stored_defined",
    "Verif.Cdf.stored_collapse",
    "Verif.Cdf.stored_self_nan"
   ],
   "note": "The code violates the statement: whenever two percentiles of the source become equal in single precision every prediction is NaN (stored_collapse, for all such fits; stored_self_nan: a data set matched against itself is unchanged in double and NaN in single precision). Proved: the result is NaN everywhere or the claimed function; it is the function when the percentiles differ by more than their rounding errors (stored_defined). The computation before storing is exact here; integer sources are not modelled."
  },
  {
   "property": "C123",
   "status": "partial",
   "theorems": [
    "Verif.Cdf.levels_used",
    "Verif.Cdf.bins_used",
    "Verif.Cdf.binsFor_most",
    "Verif.Cdf.fitted_bins",
    "Verif.Cdf.bins_hold_minobs_partial",
    "Verif.Cdf.given_bins_hold_minobs_partial",
    "Verif.Cdf.bins_hold_minobs_wrong",
    "Verif.Cdf.fit_outcome",
    "Verif.Cdf.spline_raises"
   ],
   "note": "The number of bins and the padding are proved for all data; that every bin holds minobs observations is proved for data without repeated values and refuted with repeated values (nine zeros and a one, minobs=5: the second bin holds one observation), because tied percentiles are interpolated."
  },
  {
   "property": "C124",
   "status": "partial",
   "theorems": [
    "Verif.Validation.run_stores_partial",
    "Verif.Validation.split_irrelevant_partial",
    "Verif.Validation.files_distinct_partial",
    "Verif.Results.results_of_jobs_on_partial"
   ],
   "note": "Proved for the composition of calc, start_validation and netcdf_results_manager. Partial: calculators that behave as in C29, no location masked completely (such a location has no row, calc_masked_location_missing), fields that can be stored, distinct file names for the expected keys (proved for clean names whose path fits, files_distinct_partial; otherwise build_filename collides, C34)."
  },
  {
   "property": "C125",
   "status": "partial",
   "theorems": [
    "Verif.Rounding.cov_err",
    "Verif.Rounding.beta_err",
    "Verif.Rounding.errVar_err",
    "Verif.Rounding.tcol_accuracy_partial",
    "Verif.Rounding.errVar_pos",
    "Verif.Rounding.errStd_err",
    "Verif.Rounding.tcol_double",
    "Verif.Rounding.identical_nan"
   ],
   "note": "Error bounds proved in full. Data without errors do not give 0: negation identical_nan (error variance -2^-50, err_std NaN in double precision for the three identical series 0, 0, 1, 5). Overflow and underflow are not modelled; the SNR is C128."
  },
  {
   "property": "C126",
   "status": "partial",
   "theorems": [
    "Verif.Rounding.min_max_accuracy",
    "Verif.Rounding.min_max_double",
    "Verif.Rounding.linreg_stored_accuracy",
    "Verif.Rounding.npStdF_err",
    "Verif.Rounding.mean_std_accuracy_partial",
    "Verif.Rounding.mean_std_constant_wrong"
   ],
   "note": "All bounds are proved for all data and orders of summation. The last sentence is false of the code: six times 0.1 in double precision has a computed standard deviation of 2^-56 and is scaled to one standard deviation above the mean of the reference (mean_std_constant_wrong). The parameters that scipy's linregress computes are given numbers. Overflow and underflow are not modelled."
  },
  {
   "property": "C127",
   "status": "proved",
   "theorems": [
    "Verif.Rounding.linreg_accuracy",
    "Verif.Rounding.linreg_slope_sign",
    "Verif.Rounding.linreg_double",
    "Verif.Rounding.covF_err",
    "Verif.Rounding.linreg_slope_wrong"
   ],
   "note": "scipy's linregress is written out (means, np.cov with bias=1, quotient, intercept) and is part of the trusted base; overflow and underflow are not modelled."
  },
  {
   "property": "C128",
   "status": "partial",
   "theorems": [
    "Verif.Rounding.snrDist_err",
    "Verif.Rounding.snr_err",
    "Verif.Rounding.snr_accuracy_partial",
    "Verif.Rounding.errorfree_snr"
   ],
   "note": "The error bound is proved in full. Data without errors do not always give infinity: negation errorfree_snr (the second of three multiples of one series gets 10 log10(2^53) dB in double precision). Overflow and underflow are not modelled; x ** (-1) is a rounded reciprocal."
  },
  {
   "property": "C129",
   "status": "proved",
   "theorems": [
    "Verif.Rounding.mse_total_accuracy",
    "Verif.Rounding.mse_total_two_sided",
    "Verif.Rounding.mse_parts_accuracy",
    "Verif.Rounding.mse_total_machine"
   ],
   "note": "No overflow or underflow. Roots and rounding are parameters with relative error u."
  },
  {
   "property": "C13",
   "status": "proved",
   "theorems": [
    "Verif.Tcol.tcol_metrics_recovers",
    "Verif.Tcol.tcol_from_cov_recovers",
    "Verif.Tcol.tcol_snr_eq",
    "Verif.Tcol.tcol_beta_scales",
    "Verif.Tcol.tcol_negative_std",
    "Verif.Tcol.tcol_error_recovers"
   ],
   "note": "Over the reals; every sample whose errors are empirically uncorrelated with the signal and with each other. tcol_negative_std records that the returned error standard deviation is negative when the gains of data set and reference have opposite signs."
  },
  {
   "property": "C130",
   "status": "partial",
   "theorems": [
    "Verif.Rounding.nash_accuracy",
    "Verif.Rounding.agreement_accuracy",
    "Verif.Rounding.agreement_lower_partial",
    "Verif.Rounding.potentialRatio_le_one",
    "Verif.Rounding.agreement_below_zero",
    "Verif.Rounding.nash_constant_observations"
   ],
   "note": "The range and the undefined value are false in double precision (agreement_below_zero, nash_constant_observations); proved instead: the index is never below -6 (n + 5) u (never above 1: C107 never_negative). No overflow or underflow."
  },
  {
   "property": "C131",
   "status": "partial",
   "theorems": [
    "Verif.Cdf.int_resized",
    "Verif.Cdf.int_default_lost",
    "Verif.Cdf.int_default_example",
    "Verif.Cdf.int_monotone_partial",
    "Verif.Cdf.int_whole_partial",
    "Verif.Cdf.trunc_close",
    "Verif.Cdf.int_limits",
    "Verif.Cdf.int_limit_fraction"
   ],
   "note": "The code violates the statement: as soon as minobs leaves two or more bins unused every result is the number that stands for NaN (int_resized, for all data; with the default arguments for all sources of less than 1980 values, int_default_lost). Proved: with all bins in use the result is nondecreasing or lost altogether, and it is the result in floating point without fractions if the percentiles are whole numbers. numpy's conversion (cut towards zero, a platform dependent number for NaN) is part of the trusted base."
  },
  {
   "property": "C132",
   "status": "partial",
   "theorems": [
    "Verif.Memory.metrics_safe",
    "Verif.Memory.metrics_unsafe",
    "Verif.Memory.boxcar_safe",
    "Verif.Memory.boxcar_unsafe",
    "Verif.Memory.exp_safe",
    "Verif.Memory.exp_unsafe",
    "Verif.Memory.rolling_safe",
    "Verif.Memory.rolling_unsafe"
   ],
   "note": "Arrays of equal length: proved in full, for rolling metrics with all time stamps (sorted or not) and windows that are not negative. The last part is violated: lengths are not compared, so a shorter second series, more dates than values, and a centred window of negative size read memory outside of the arrays."
  },
  {
   "property": "C133",
   "status": "partial",
   "theorems": [
    "Verif.Rounding.Moving.anomaly_accuracy",
    "Verif.Rounding.Moving.anomaly_daily",
    "Verif.Rounding.Moving.anomaly_constant_wrong"
   ],
   "note": "Error bounds proved for all series. False: the anomalies of a constant series are not zero (three days of 0.1 have -2^-56). For time stamps that are not daily the rows of the window are known up to a second, as in C112."
  },
  {
   "property": "C134",
   "status": "partial",
   "theorems": [
    "Verif.Memory.equal_lengths",
    "Verif.Memory.deviation_paired",
    "Verif.Memory.nash_paired",
    "Verif.Memory.biasCi_right",
    "Verif.Memory.different_lengths_refused_partial",
    "Verif.Memory.msd_lengths",
    "Verif.Memory.agreement_single_prediction",
    "Verif.Memory.agreement_single_observation",
    "Verif.Memory.ubrmsd_ddof_wrong"
   ],
   "note": "aad, mad, nash_sutcliffe, bias_ci, nrmsd refuse different lengths (a single value stands for a constant series). Violated by msd, rmsd, ubrmsd and the compiled metrics (C132), and by index_of_agreement with a single observation or prediction: it returns a wrong number or reads outside of the array (proved for all such data)."
  },
  {
   "property": "C135",
   "status": "partial",
   "theorems": [
    "Verif.Ecol.ecol_estimates",
    "Verif.Ecol.three_is_triple_partial",
    "Verif.Ecol.three_differ",
    "Verif.Ecol.err_corr_undefined"
   ],
   "note": "The estimates are proved in full. Equivalence with tcol_metrics holds for positive signal and error variances; for a negative signal variance the SNR differs for all data (three_differ). The error correlation is calculated before abs_est, so it is NaN beside two positive error variances if the estimates have opposite signs (err_corr_undefined). Covariances that are exactly 0 (NaN in all results) are excluded."
  },
  {
   "property": "C136",
   "status": "partial",
   "theorems": [
    "Verif.Ecol.Finite.finite_results",
    "Verif.Ecol.Finite.nothing_finite",
    "Verif.Ecol.Finite.all_or_nothing",
    "Verif.Ecol.Finite.constant_data_set",
    "Verif.Ecol.Finite.fourth_takes_all"
   ],
   "note": "Proved: exactly when the results are finite, and their values. False of the code as stated: one zero covariance in a denominator (or fewer than two complete rows) makes all results of all data sets NaN or infinite (nothing_finite); a constant data set takes the results of all others with it (constant_data_set, fourth_takes_all). Covariances are exact here: with rounding, a constant whose mean is not exact may have a tiny covariance instead of zero."
  },
  {
   "property": "C137",
   "status": "partial",
   "theorems": [
    "Verif.Adapters.chain_is_advanced_partial",
    "Verif.Adapters.chain_is_advanced",
    "Verif.Adapters.chain_order",
    "Verif.Adapters.chain_raises",
    "Verif.Adapters.advanced_split",
    "Verif.Adapters.combine_masking",
    "Verif.Adapters.chain_keeps_empty_rows",
    "Verif.Adapters.anomaly_masking_order"
   ],
   "note": "Proved in full if one of the filters is a comparison other than '!='. With only '!=' or callables the two differ in rows without any value, which only AdvancedMaskingAdapter drops (chain_keeps_empty_rows). Anomalies and masks cannot be exchanged (anomaly_masking_order)."
  },
  {
   "property": "C138",
   "status": "partial",
   "theorems": [
    "Verif.Rounding.upscaled_accuracy",
    "Verif.Rounding.upscaled_series_accuracy",
    "Verif.Rounding.upscaled_missing",
    "Verif.Rounding.upscaled_order",
    "Verif.Rounding.upscaled_range",
    "Verif.Rounding.upscaled_two",
    "Verif.Rounding.upscaled_exact",
    "Verif.Rounding.upscaled_outside",
    "Verif.Rounding.upscaled_order_matters"
   ],
   "note": "Accuracy proved in full. Range and independence of the order hold up to 2 n u and 4 n u (range exactly for two points); exactly they are false: upscaled_outside, upscaled_order_matters. Overflow and underflow are left out."
  },
  {
   "property": "C139",
   "status": "partial",
   "theorems": [
    "Verif.Pairwise.Infinite.differences_spoilt",
    "Verif.Pairwise.Infinite.decomposition_spoilt",
    "Verif.Pairwise.Infinite.arithmetic",
    "Verif.Pairwise.Infinite.numbers",
    "Verif.Pairwise.Infinite.numbers_rest",
    "Verif.Pairwise.Infinite.numbers_correlation",
    "Verif.Pairwise.Infinite.numbers_mad",
    "Verif.Pairwise.Infinite.mad_nan",
    "Verif.Pairwise.Infinite.correlation_spoilt",
    "Verif.Pairwise.Infinite.correlation_spoilt_constant",
    "Verif.Pairwise.Infinite.calculator_spoilt",
    "Verif.Pairwise.Infinite.infinite_correlation",
    "Verif.Pairwise.Infinite.overflow_correlation",
    "Verif.Pairwise.Infinite.mad_infinite"
   ],
   "note": "Proved for all metrics except the correlation. The code violates it for Pearson's R from moments: a NaN or infinite value (or overflow) gives R = -1 with p = 0, for all such data unless the other series has variance 0 (correlation_spoilt, calculator_spoilt). The median (mad) may rightly stay finite beside an infinite value. Signs of zeros are not modelled; scipy's functions are outside."
  },
  {
   "property": "C14",
   "status": "proved",
   "theorems": [
    "Verif.Ecol.ecol_recovers",
    "Verif.Ecol.ecol_from_cov_recovers",
    "Verif.Ecol.ecol_error_iff",
    "Verif.Ecol.ecol_mutates_input"
   ],
   "note": "Any number of data sets and declared pairs, data level (sample covariances); full rank is characterised by the declared pairs alone (ecol_error_iff). ecol_mutates_input records that the input frame is changed in place."
  },
  {
   "property": "C140",
   "status": "partial",
   "theorems": [
    "Verif.Filters.Infinite.boxcar_spoilt",
    "Verif.Filters.Infinite.boxcar_clear",
    "Verif.Filters.Infinite.exp_before",
    "Verif.Filters.Infinite.exp_spoilt",
    "Verif.Filters.Infinite.exp_forever"
   ],
   "note": "Proved for boxcar_filter and for exp_filter before the infinite observation. The code violates the rest: after an infinite observation no later result of exp_filter is a number, for all data and however small the weight has become (exp_spoilt, exp_forever). The comparison with the series without infinite observations assumes no overflow."
  },
  {
   "property": "C141",
   "status": "partial",
   "theorems": [
    "Verif.Calculators.Heap.history",
    "Verif.Calculators.Heap.call_private",
    "Verif.Calculators.Heap.field_value",
    "Verif.Calculators.Heap.construct_ready",
    "Verif.Calculators.Heap.shared_fields",
    "Verif.Calculators.Heap.shared_wrong",
    "Verif.Calculators.Heap.template_kept"
   ],
   "note": "Proved for metadata templates in which every field has an array of its own. The code violates it for templates with one array for several fields (deepcopy keeps them shared: every result has the same value in all of them, shared_fields), and the arrays of the user are kept instead of copied (template_kept). Arrays have one element; everything a calculator stores is an arbitrary list of operations."
  },
  {
   "property": "C142",
   "status": "partial",
   "theorems": [
    "Verif.Scaling.Infinite.mean_std_spoilt",
    "Verif.Scaling.Infinite.linreg_spoilt",
    "Verif.Scaling.Infinite.frame_columns",
    "Verif.Scaling.Infinite.frame_spoilt",
    "Verif.Scaling.Infinite.min_max_spoilt",
    "Verif.Scaling.Infinite.min_max_infinite",
    "Verif.Scaling.Infinite.linreg_stored",
    "Verif.Scaling.Infinite.numbers_scaled",
    "Verif.Scaling.Infinite.numbers_linreg",
    "Verif.Scaling.Infinite.min_max_sample",
    "Verif.Scaling.Infinite.mean_std_sample",
    "Verif.Scaling.Infinite.linreg_sample",
    "Verif.Scaling.Infinite.regression_sample",
    "Verif.Scaling.Infinite.frame_sample"
   ],
   "note": "mean_std and linreg: all NaN; in frames only the columns with such values (all, if it is the reference). Violated by min_max: a positive infinite value in the source turns every number of the source into the smallest value of the reference (min_max_infinite, for all such data); all other cases hold."
  },
  {
   "property": "C143",
   "status": "proved",
   "theorems": [
    "Verif.Tcol.Infinite.cov_nan",
    "Verif.Tcol.Infinite.tcol_nan",
    "Verif.Tcol.Infinite.numbers_tcol",
    "Verif.Tcol.Infinite.snr_limits",
    "Verif.Tcol.Infinite.tcol_sample"
   ],
   "note": "Data of at least one row; the sums of np.cov in any order of additions."
  },
  {
   "property": "C144",
   "status": "partial",
   "theorems": [
    "Verif.Adapters.Options.options_axis",
    "Verif.Adapters.Options.own_options",
    "Verif.Adapters.Options.argument_changed",
    "Verif.Adapters.Options.adapter_follows",
    "Verif.Adapters.Options.options_sample"
   ],
   "note": "Axis 1 (for programs that do not assign to axis themselves) and independence of adapters without options proved for all programs. The last two parts are violated: the dictionary of the caller gets axis = 1 (argument_changed, for all programs) and later assignments to it change the adapter (adapter_follows)."
  },
  {
   "property": "C145",
   "status": "partial",
   "theorems": [
    "Verif.Rolling.Infinite.numbers_rolling",
    "Verif.Rolling.Infinite.rmsd_forever",
    "Verif.Rolling.Infinite.correlation_forever",
    "Verif.Rolling.Infinite.infinite_before"
   ],
   "note": "Finite numbers without overflow: results of the model of C104 (numbers_rolling). The code violates the rest: after an infinite value or an overflow of a squared difference every later RMSD is NaN (rmsd_forever), after an infinite value every later correlation is -1 with p-value 0, or NaN (correlation_forever). Only the version for double; signs of zeros are not modelled."
  },
  {
   "property": "C15",
   "status": "partial",
   "theorems": [
    "Verif.DfMetrics.nwise_pairs",
    "Verif.DfMetrics.evaluateAll_entries",
    "Verif.DfMetrics.nwise_triples_partial",
    "Verif.DfMetrics.nwise_triples_third_mask_ignored",
    "Verif.DfMetrics.nwise_triples_other_column",
    "Verif.DfMetrics.nwise_other_sizes_raise",
    "Verif.DfMetrics.pairwise_apply_correct",
    "Verif.DfMetrics.nwise_too_few_columns"
   ],
   "note": "Proved in full for pairs. For triples the code is wrong (counterexamples proved); proved there for frames whose rows are missing in all columns or in none."
  },
  {
   "property": "C16",
   "status": "partial",
   "theorems": [
    "Verif.DfMetrics.to_df_full",
    "Verif.DfMetrics.to_df_symmetric_partial",
    "Verif.DfMetrics.to_df_lower_triangle_wrong",
    "Verif.DfMetrics.pairwise_apply_correct"
   ],
   "note": "Order-dependent metrics: full. Symmetric metrics: upper triangle for any size, both triangles up to three columns; for every K >= 4 the lower triangle is proved wrong."
  },
  {
   "property": "C17",
   "status": "partial",
   "theorems": [
    "Verif.DfMetrics.tcol_df_partial",
    "Verif.DfMetrics.tcol_df_wrong_reference",
    "Verif.DfMetrics.tcol_df_wrong_reference_beta",
    "Verif.DfMetrics.tcol_df_large_reference",
    "Verif.DfMetrics.tcol_snr_ignores_reference",
    "Verif.DfMetrics.tcol_df_no_rows"
   ],
   "note": "Holds for ref_ind None and 0 on frames without individually missing values; for other reference columns the code uses a wrong column or raises (proved)."
  },
  {
   "property": "C18",
   "status": "partial",
   "theorems": [
    "Verif.Bootstrap.nanquantile_spec",
    "Verif.Bootstrap.nanquantile_mono",
    "Verif.Bootstrap.percentile_ci_ordered",
    "Verif.Bootstrap.basic_ci_reflects",
    "Verif.Bootstrap.percentile_ci_range",
    "Verif.Bootstrap.bca_is_percentile_of_twice_alpha",
    "Verif.Bootstrap.bca_not_percentile",
    "Verif.Bootstrap.bca_ci_ordered_partial",
    "Verif.Bootstrap.bca_raises",
    "Verif.Bootstrap.with_bootstrapped_ci_correct",
    "Verif.Bootstrap.with_bootstrapped_ci_errors",
    "Verif.Bootstrap.with_bootstrapped_bca",
    "Verif.Bootstrap.jackknife_float",
    "Verif.Bootstrap.jackknife_int_truncates",
    "Verif.Bootstrap.tcol_ci_reference",
    "Verif.Bootstrap.tcol_ci_ordered",
    "Verif.Bootstrap.tcol_bca_ordered_partial",
    "Verif.Bootstrap.tcol_with_bootstrapped_ci_entries",
    "Verif.Bootstrap.tcol_bca_mixes_data_sets"
   ],
   "note": "Percentile and basic intervals proved in full. The BCa part of the claim is false: it is proved that BCa with zero corrections is the percentile interval of twice alpha."
  },
  {
   "property": "C19",
   "status": "partial",
   "theorems": [
    "Verif.Scaling.mean_std_spec",
    "Verif.Scaling.mean_std_constant",
    "Verif.Scaling.mean_std_nan",
    "Verif.Scaling.min_max_spec",
    "Verif.Scaling.min_max_constant",
    "Verif.Scaling.linregress_minimal",
    "Verif.Scaling.linreg_spec_partial",
    "Verif.Scaling.linreg_negative_slope_wrong",
    "Verif.Scaling.linreg_raises"
   ],
   "note": "mean_std and min_max proved. linreg only for a source that is not negatively related: np.abs(slope) gives another line otherwise (proved)."
  },
  {
   "property": "C20",
   "status": "proved",
   "theorems": [
    "Verif.Scaling.scale_spec",
    "Verif.Scaling.scale_errors",
    "Verif.Scaling.scale_fails",
    "Verif.Scaling.scalingFunction_known",
    "Verif.Scaling.add_scaled_default",
    "Verif.Scaling.add_scaled_labels",
    "Verif.Scaling.add_scaled_one_column",
    "Verif.Scaling.scalingFunction_unknown"
   ],
   "note": "distinct column names, non-negative reference index"
  },
  {
   "property": "C21",
   "status": "proved",
   "theorems": [
    "Verif.Cdf.unique_percentiles_strict",
    "Verif.Cdf.unique_percentiles_sorted",
    "Verif.Cdf.unique_percentiles_constant",
    "Verif.Cdf.unique_percentiles_list_raises"
   ],
   "note": "levels given as a Python list raise TypeError if there are ties (proved)"
  },
  {
   "property": "C22",
   "status": "partial",
   "theorems": [
    "Verif.Cdf.cdf_predict_monotone_partial",
    "Verif.Cdf.cdf_match_reverses_order",
    "Verif.Cdf.cdf_predict_percentiles",
    "Verif.Cdf.predict_tied",
    "Verif.Cdf.clip_bounds",
    "Verif.Cdf.cdf_match_spec",
    "Verif.Cdf.cdf_match_self",
    "Verif.Cdf.matlab_percentile_at_rank",
    "Verif.Cdf.lstsq_minimal",
    "Verif.Cdf.edge_values"
   ],
   "note": "monotone unless a single bin is used together with linear edge scaling, where a regression line with negative slope may result (proved)."
  },
  {
   "property": "C23",
   "status": "partial",
   "theorems": [
    "Verif.Climatology.climatology_length_partial",
    "Verif.Climatology.climatology_circular",
    "Verif.Climatology.climatology_flat",
    "Verif.Climatology.climatology_default_window",
    "Verif.Climatology.circular_positions",
    "Verif.Climatology.doy_correct",
    "Verif.Climatology.climatology_window_raises",
    "Verif.Climatology.leapday_std_mixed"
   ],
   "note": "complete without the standard deviation column; windows of 0 or more than n units raise, and with std=True the interpolated leap day mixes the columns (both proved)"
  },
  {
   "property": "C24",
   "status": "partial",
   "theorems": [
    "Verif.Climatology.anomaly_climatology_partial",
    "Verif.Climatology.anomaly_average",
    "Verif.Climatology.anomaly_defaults_shifted"
   ],
   "note": "holds if the climatology counts days the same way; the default arguments disagree (proved)"
  },
  {
   "property": "C25",
   "status": "partial",
   "theorems": [
    "Verif.Grouping.yearless_ranges_partial",
    "Verif.Grouping.yearless_ranges_within_year",
    "Verif.Grouping.yearless_ranges_with_previous_year",
    "Verif.Grouping.yearless_dates",
    "Verif.Grouping.dates_and_ranges",
    "Verif.Grouping.selected_or",
    "Verif.Grouping.select_rows",
    "Verif.Grouping.yearless_first_year_missed",
    "Verif.Grouping.leap_day_range_wrong",
    "Verif.Grouping.columns_last",
    "Verif.Grouping.leap_day_range_exact",
    "Verif.Grouping.leap_day_range_depends_on_years"
   ],
   "note": "exact characterisation; the code misses the part after New Year in years without a previous year, and mishandles ranges inside 29 February: leap_day_range_exact says exactly what such a range selects"
  },
  {
   "property": "C26",
   "status": "proved",
   "theorems": [
    "Verif.Grouping.label_end",
    "Verif.Grouping.label_start",
    "Verif.Grouping.label_eq_iff",
    "Verif.Grouping.label_order",
    "Verif.Grouping.group_by_day_bin_partition",
    "Verif.Grouping.grouped_dates_between_correct",
    "Verif.Grouping.label_end_raises",
    "Verif.Grouping.documented_bins_raise",
    "Verif.Grouping.label_before_first_bin_wraps"
   ],
   "note": "for increasing bins from 1 to beyond 31; other bins raise or wrap (proved)"
  },
  {
   "property": "C27",
   "status": "proved",
   "theorems": [
    "Verif.DataManager.result_names_correct",
    "Verif.DataManager.result_names_unknown",
    "Verif.DataManager.result_combinations_correct",
    "Verif.DataManager.result_names_repeated_column"
   ],
   "note": "Names are elements of a linear order, as strings are. Columns of a data set are assumed distinct: a repeated column repeats the key (result_names_repeated_column)."
  },
  {
   "property": "C28",
   "status": "proved",
   "theorems": [
    "Verif.DataManager.read_ds_some_iff",
    "Verif.DataManager.read_ds_none_iff",
    "Verif.DataManager.read_ds_raises",
    "Verif.DataManager.get_data_correct",
    "Verif.DataManager.get_data_ok_iff",
    "Verif.DataManager.get_data_lut_too_short",
    "Verif.DataManager.fetch_upscaled"
   ],
   "note": "Readers, grids and look-up tables are parameters. Period slicing assumes a sorted index."
  },
  {
   "property": "C29",
   "status": "partial",
   "theorems": [
    "Verif.Validation.calc_one_entry_per_location_partial",
    "Verif.Validation.calc_masked_location_missing",
    "Verif.Validation.calc_same_k_repeats",
    "Verif.Validation.calc_bare_status_raises"
   ],
   "note": "Proved for every validation whose calculators return dictionaries of length-one arrays with fixed fields, have distinct k and whose masking never removes all reference data. Three negations show what happens otherwise."
  },
  {
   "property": "C30",
   "status": "partial",
   "theorems": [
    "Verif.Validation.calc_status_partial",
    "Verif.Validation.calc_status_ok_partial",
    "Verif.Validation.codes_distinct",
    "Verif.Validation.scaling_failure_code",
    "Verif.Validation.scaling_failure_spreads",
    "Verif.Validation.status_with_subsets",
    "Verif.Validation.status_joined_subsets"
   ],
   "note": "The status is the code of the first failing stage for calculators with a plain status field. Negations for calculators behind subset adapters."
  },
  {
   "property": "C31",
   "status": "proved",
   "theorems": [
    "Verif.Validation.calc_independent"
   ],
   "note": "For every list of locations and both error modes."
  },
  {
   "property": "C32",
   "status": "partial",
   "theorems": [
    "Verif.Validation.mask_dataset_partial",
    "Verif.Validation.mask_dataset_one_column_partial",
    "Verif.Validation.mask_false_removed",
    "Verif.Validation.mask_true_kept",
    "Verif.Validation.mask_no_match_raises"
   ],
   "note": "Exact description of what masking does for any number of columns, and in plain words for a reference with one column: masked observations are removed and unmatched ones kept, but matched observations with mask value False are removed as well (negation). If the reference has several columns, the last one decides alone, so a masked observation is kept where that column is missing (negation)."
  },
  {
   "property": "C33",
   "status": "partial",
   "theorems": [
    "Verif.Results.results_read_loc_partial",
    "Verif.Results.results_read_ts_partial",
    "Verif.Results.addResult_rejects",
    "Verif.Results.late_metric_misaligned",
    "Verif.Results.late_series_misaligned",
    "Verif.Results.joined_names_collide"
   ],
   "note": "Invariant over every history of add_result calls in which metrics appear in the first call or never (series: before any time step is stored). Otherwise values are misaligned (negations). netCDF storage is modelled as growing columns; pynetcf.write_var is assumed to write from position 0."
  },
  {
   "property": "C34",
   "status": "partial",
   "theorems": [
    "Verif.Results.build_filename_length_partial",
    "Verif.Results.build_filename_injective_partial",
    "Verif.Results.path_too_long",
    "Verif.Results.short_names_collide",
    "Verif.Results.fallback_collides",
    "Verif.Results.separator_collides",
    "Verif.Results.dot_collides",
    "Verif.Results.initials_collide"
   ],
   "note": "Length bound for directories of at most 241 characters; injective for clean names whose full path fits; collisions otherwise (negations)."
  },
  {
   "property": "C35",
   "status": "partial",
   "theorems": [
    "Verif.Adapters.self_masking",
    "Verif.Adapters.advanced_masking_partial",
    "Verif.Adapters.advanced_masking_comparisons",
    "Verif.Adapters.masking_adapter",
    "Verif.Adapters.unknown_operator",
    "Verif.Adapters.not_equal_keeps_missing",
    "Verif.Adapters.no_filters_raises",
    "Verif.Adapters.missing_data_raises"
   ],
   "note": "Exact for SelfMaskingAdapter, and for AdvancedMaskingAdapter with at least one filter up to the removal of rows without any value. Negations: '!=' keeps missing values; no filters and readers returning None raise KeyError."
  },
  {
   "property": "C36",
   "status": "partial",
   "theorems": [
    "Verif.Adapters.timestamp_partial",
    "Verif.Adapters.timestamp_column_partial",
    "Verif.Adapters.subsecond_lost",
    "Verif.Adapters.units_truncated",
    "Verif.Adapters.fraction_lost",
    "Verif.Adapters.equal_times_multiplied",
    "Verif.Adapters.no_base_time_unchanged",
    "Verif.Adapters.offset_of_times_fails"
   ],
   "note": "Proved for units of whole seconds, as many units as fields, integral numbers, different exact times (or index labels) and at least one base time; each restriction has a negation."
  },
  {
   "property": "C37",
   "status": "proved",
   "theorems": [
    "Verif.Upscaling.upscaled_series",
    "Verif.Upscaling.average_between",
    "Verif.Upscaling.stability_filter",
    "Verif.Upscaling.upscaled_special",
    "Verif.Upscaling.gap_never_filtered",
    "Verif.Upscaling.all_series_filtered",
    "Verif.Upscaling.far_series_removes_all"
   ],
   "note": "get_upscaled_ts from the look-up table to the averaged series, composed with the collocation model; scipy.stats.linregress is a parameter."
  },
  {
   "property": "C38",
   "status": "partial",
   "theorems": [
    "Verif.Validation.locations_sequences_partial",
    "Verif.Validation.locations_scalars",
    "Verif.Validation.args_to_iterable_count",
    "Verif.Validation.locations_truncated",
    "Verif.Validation.locations_empty"
   ],
   "note": "Equal lengths give all locations. Lengths are not checked: mixed lengths lose locations, empty sequences give a bogus one (negations)."
  },
  {
   "property": "C39",
   "status": "partial",
   "theorems": [
    "Verif.Scalers.stored_for_ever",
    "Verif.Scalers.other_points",
    "Verif.Scalers.stored_parameters_used_partial",
    "Verif.Scalers.first_call",
    "Verif.Scalers.failed_fit_not_stored",
    "Verif.Scalers.scale_ok",
    "Verif.Scalers.same_mapping",
    "Verif.Scalers.new_column_fails",
    "Verif.Scalers.second_pair_fails",
    "Verif.Scalers.names_collide",
    "Verif.Scalers.missing_reference"
   ],
   "note": "Proved for every history of calls: parameters once stored for a grid point are used for ever and other points are untouched. Not true of the code and proved as negations: a later call with a column that was not present at the first one fails (KeyError), and variable names containing underscores collide in the stored file."
  },
  {
   "property": "C40",
   "status": "proved",
   "theorems": [
    "Verif.Validation.parallel_eq_sequential",
    "Verif.Validation.retried_success"
   ],
   "note": "For every order of completion of the jobs; the asynchronous map of IPython is modelled as slots in job order."
  },
  {
   "property": "C41",
   "status": "partial",
   "theorems": [
    "Verif.Calculators.ft_result",
    "Verif.Calculators.ft_counts_sum_partial",
    "Verif.Calculators.ft_insufficient",
    "Verif.Calculators.ft_missing_state_unfrozen"
   ],
   "note": "The four counts are proved to add up to the rows with a temperature; the last sentence of the property is false of the code: an observation without surface state counts as unfrozen (ft_missing_state_unfrozen)."
  },
  {
   "property": "C42",
   "status": "proved",
   "theorems": [
    "Verif.Grouping.subset_metrics_correct",
    "Verif.Grouping.subset_metrics_join_correct",
    "Verif.Grouping.subset_metrics_plain",
    "Verif.Grouping.subset_metrics_template",
    "Verif.Grouping.months_rows",
    "Verif.Grouping.months_last_second_missed"
   ],
   "note": "month subsets: time stamps to the second; a fraction in the last second of a month is in no subset (proved)"
  },
  {
   "property": "C43",
   "status": "proved",
   "theorems": [
    "Verif.Pairwise.pearsonr_recursive_chunks"
   ],
   "note": "Non-empty chunks."
  },
  {
   "property": "C44",
   "status": "not_applicable",
   "theorems": [],
   "note": "timedate/julian.py only re-exports the conversion functions of the package cadati, which is not part of the repository; nothing of the calendar arithmetic is in /repo."
  },
  {
   "property": "C45",
   "status": "partial",
   "theorems": [
    "Verif.Utils.interp_uniq_ascending_partial",
    "Verif.Utils.interp_uniq_never_ends",
    "Verif.Utils.interp_uniq_constant",
    "Verif.Utils.interp_uniq_integer",
    "Verif.Utils.interp_uniq_index_error"
   ],
   "note": "Proved for non-constant ascending arrays; negations for constant arrays, arrays with equal ends, integer arrays and other orders."
  },
  {
   "property": "C46",
   "status": "partial",
   "theorems": [
    "Verif.Utils.array_dropna_two_partial",
    "Verif.Utils.array_dropna_three_iff",
    "Verif.Utils.array_dropna_keeps_nan",
    "Verif.Utils.array_dropna_number"
   ],
   "note": "Proved for two arrays; false for one, three and more arrays."
  },
  {
   "property": "C47",
   "status": "partial",
   "theorems": [
    "Verif.Smoothn.smoothn_rounds_partial",
    "Verif.Smoothn.smoothn_never_reports",
    "Verif.Smoothn.smoothn_hidden_failure",
    "Verif.Smoothn.smoothn_too_short",
    "Verif.Smoothn.smoothn_flag_two",
    "Verif.Smoothn.exceeds_iff",
    "Verif.Smoothn.inner_ends_at_tolerance"
   ],
   "note": "The iteration bound holds; the exit flag 3 is never returned for the default and larger MaxIter."
  },
  {
   "property": "C48",
   "status": "proved",
   "theorems": [
    "Verif.Matchers.combinatory_matcher",
    "Verif.Matchers.combinatory_matcher_total",
    "Verif.Matchers.combinatory_matcher_missing"
   ],
   "note": "Reference rows without a match stay in the frame with NaN."
  },
  {
   "property": "C49",
   "status": "partial",
   "theorems": [
    "Verif.DfMatch.df_match_nearest",
    "Verif.DfMatch.isMatch_symmetric",
    "Verif.DfMatch.df_match_dropduplicates_partial",
    "Verif.DfMatch.df_match_empty",
    "Verif.DfMatch.df_match_unknown_window",
    "Verif.DfMatch.df_match_duplicates_stay",
    "Verif.DfMatch.df_match_asymmetric_misses"
   ],
   "note": "dropduplicates for references without repeated times; negations for repeated times and for asymmetric windows."
  },
  {
   "property": "C50",
   "status": "partial",
   "theorems": [
    "Verif.Pairwise.bias_ci_correct",
    "Verif.Pairwise.bias_ci_from_moments_eq",
    "Verif.Pairwise.correlation_ci_correct",
    "Verif.Pairwise.ubrmsd_ci_partial",
    "Verif.Pairwise.ubrmsd_ci_misses_estimate",
    "Verif.Pairwise.bias_ci_exact",
    "Verif.Pairwise.correlation_ci_exact",
    "Verif.Pairwise.ubrmsd_ci_exact"
   ],
   "note": "Quantile functions are parameters with explicit monotonicity/median hypotheses. Enclosure fails for ubRMSD at large alpha (proved counterexample)."
  },
  {
   "property": "C51",
   "status": "proved",
   "theorems": [
    "Verif.DfMetrics.n_combinations_spec",
    "Verif.DfMetrics.n_permutations_spec",
    "Verif.DfMetrics.n_combinations_zero_ignored"
   ],
   "note": "A single required element 0 (not in a list) is ignored by the code; proved separately."
  },
  {
   "property": "C52",
   "status": "partial",
   "theorems": [
    "Verif.Validation.selected_data",
    "Verif.Validation.calculator_columns_partial",
    "Verif.Validation.calculator_extra_column",
    "Verif.Validation.wrong_frame_selected"
   ],
   "note": "Complete rows and exactly the columns of the key, unless the scaling reference is part of the key with another column (negation)."
  },
  {
   "property": "C53",
   "status": "partial",
   "theorems": [
    "Verif.Adapters.combine_adapter",
    "Verif.Adapters.anomaly_adapter",
    "Verif.Adapters.combine_repeatable_partial",
    "Verif.Adapters.second_read_differs",
    "Verif.Adapters.second_anomaly_differs"
   ],
   "note": "A single read changes the requested columns only; a second read of a cached frame through AnomalyAdapter, or ColumnCombineAdapter with all columns, differs (negations). Repeatable when named columns without the new one are combined."
  },
  {
   "property": "C54",
   "status": "partial",
   "theorems": [
    "Verif.Calculators.basic_insufficient",
    "Verif.Calculators.basic_result",
    "Verif.Calculators.basic_missing_column",
    "Verif.Calculators.mse_insufficient",
    "Verif.Calculators.mse_result",
    "Verif.Calculators.ft_insufficient",
    "Verif.Calculators.pairwise_insufficient",
    "Verif.Calculators.pairwise_bootstrap_error",
    "Verif.Calculators.rss_never_written",
    "Verif.Calculators.rss_listed",
    "Verif.Calculators.tc_insufficient",
    "Verif.Calculators.tc_failed_partial",
    "Verif.Calculators.inter_insufficient",
    "Verif.Calculators.rolling_ignores_name",
    "Verif.Calculators.rolling_columns_partial",
    "Verif.Calculators.metadataCalc_missing",
    "Verif.Calculators.metadataCalc_incomplete"
   ],
   "note": "Proved per calculator. Negations: an exception of the bootstrap is not reported as status, RollingMetrics ignores the name of the other column, the failure status of TripleCollocationMetrics is a bare number."
  },
  {
   "property": "C55",
   "status": "proved",
   "theorems": [
    "Verif.Calculators.pairwise_result"
   ],
   "note": "Real arithmetic; correlation tests, Kendall's tau, and the bootstrap are parameters."
  },
  {
   "property": "C56",
   "status": "proved",
   "theorems": [
    "Verif.Calculators.tc_result",
    "Verif.Calculators.tc_column_order",
    "Verif.Calculators.tc_no_reference",
    "Verif.Calculators.tcol_exchange"
   ],
   "note": "tcol_metrics is a parameter in tc_result; its symmetry under exchange of the two other columns is proved for the model of C13."
  },
  {
   "property": "C57",
   "status": "partial",
   "theorems": [
    "Verif.Calculators.inter_result_partial",
    "Verif.Calculators.inter_missing_column",
    "Verif.Calculators.inter_and_in_name",
    "Verif.Calculators.inter_tau_stays",
    "Verif.Calculators.tcm_result_partial",
    "Verif.Calculators.tcm_column_order",
    "Verif.Calculators.and_same_key",
    "Verif.Calculators.and_key_error",
    "Verif.Calculators.inter_and_overwrites",
    "Verif.Calculators.no_metadata"
   ],
   "note": "For names that do not contain the separators. Negations: names with _and_ break the calculator; TCMetrics fails for data with the columns in another order; entries of tau stay although tau is not calculated. A column x_and_y next to a column x silently replaces the results of x (inter_and_overwrites, and_same_key for all names); TCMetrics turns missing metadata into an IndexError (no_metadata)."
  },
  {
   "property": "C58",
   "status": "partial",
   "theorems": [
    "Verif.Calculators.hsaf_result_partial",
    "Verif.Calculators.seasons_partition",
    "Verif.Calculators.hsaf_names_distinct",
    "Verif.Calculators.hsaf_pairs_use_all_data",
    "Verif.Calculators.hsaf_ok_without_data",
    "Verif.Calculators.hsaf_names_collide"
   ],
   "note": "Proved for the triple collocation metrics; false for the pair metrics, which the code calculates from all data for every season."
  },
  {
   "property": "C59",
   "status": "partial",
   "theorems": [
    "Verif.DataManager.dataset_names_sorted_partial",
    "Verif.DataManager.dataset_names_all",
    "Verif.DataManager.dataset_names_none_iff",
    "Verif.DataManager.dataset_names_reference_not_first"
   ],
   "note": "The order is that of all results (alphabetical); the reference is not the first name in general."
  },
  {
   "property": "C60",
   "status": "partial",
   "theorems": [
    "Verif.Utils.ensure_iterable_partial",
    "Verif.Utils.ensure_iterable_empty",
    "Verif.Utils.ensure_iterable_dict"
   ],
   "note": "False for empty sequences and dictionaries."
  },
  {
   "property": "C61",
   "status": "proved",
   "theorems": [
    "Verif.Matchers.combined_matcher",
    "Verif.Matchers.combined_matcher_total",
    "Verif.Matchers.combined_matcher_other_number"
   ],
   "note": "If n is given it must be the number of all data sets, otherwise the result is empty."
  },
  {
   "property": "C62",
   "status": "proved",
   "theorems": [
    "Verif.DfMatch.matching_rows"
   ],
   "note": "For references without repeated times and frames with at least one column; the search tree is assumed to return a nearest point."
  },
  {
   "property": "C63",
   "status": "proved",
   "theorems": [
    "Verif.Smoothn.smoothn_ignores_unused",
    "Verif.Smoothn.smoothn_ignores_excluded",
    "Verif.Smoothn.smoothn_fills"
   ],
   "note": "For arrays with at least two elements."
  },
  {
   "property": "C64",
   "status": "proved",
   "theorems": [
    "Verif.Smoothn.inner_fixed_point",
    "Verif.Smoothn.smoothn_complete",
    "Verif.Smoothn.onlyBest_sum",
    "Verif.Smoothn.onlyBest_const",
    "Verif.Smoothn.smoothn_mean"
   ],
   "note": "Assumes that the cosine transform is orthonormal and its eigenvalues are zero exactly for constants (IsDct)."
  },
  {
   "property": "C65",
   "status": "partial",
   "theorems": [
    "Verif.Smoothn.smoothn_overwrites",
    "Verif.Smoothn.smoothn_keeps_data_partial"
   ],
   "note": "False: gaps and excluded elements of the caller's array become 0."
  },
  {
   "property": "C66",
   "status": "partial",
   "theorems": [
    "Verif.Smoothn.Axis.axis_trailing_partial",
    "Verif.Smoothn.Axis.axis_all",
    "Verif.Smoothn.Axis.axis_number",
    "Verif.Smoothn.Axis.axis_first_fails",
    "Verif.Smoothn.Axis.axis_first_swapped"
   ],
   "note": "Holds for all axes and for the last axes in order; false otherwise."
  },
  {
   "property": "C67",
   "status": "partial",
   "theorems": [
    "Verif.Smoothn.smoothn_final_weights_partial",
    "Verif.Smoothn.smoothn_negative_weight_partial",
    "Verif.Smoothn.robustWeights_range",
    "Verif.Smoothn.robustWeights_antitone",
    "Verif.Smoothn.smoothn_all_negative",
    "Verif.Smoothn.smoothn_gap_weight",
    "Verif.Smoothn.robustWeights_no_mask",
    "Verif.Smoothn.robustWeights_exact_fit",
    "Verif.Smoothn.leverage_eq",
    "Verif.Smoothn.leverage_range",
    "Verif.Smoothn.leverage_antitone"
   ],
   "note": "Holds if the largest weight is positive; negations for negative weights only, weights at gaps and RobustWeights without mask."
  },
  {
   "property": "C68",
   "status": "partial",
   "theorems": [
    "Verif.Smoothn.smoothn_stats_partial",
    "Verif.Smoothn.smoothn_no_distance"
   ],
   "note": "The Euclidean distance is never returned."
  },
  {
   "property": "C69",
   "status": "partial",
   "theorems": [
    "Verif.DataManager.data_manager_correct_partial",
    "Verif.DataManager.other_data_correct",
    "Verif.DataManager.data_manager_init_cases",
    "Verif.DataManager.data_manager_reader_without_grid"
   ],
   "note": "Proved for readers with a grid; a reader without grid raises although the documentation only asks for a read method."
  },
  {
   "property": "C70",
   "status": "proved",
   "theorems": [
    "Verif.DataManager.data_manager_rebuild",
    "Verif.DataManager.data_manager_keeps_options",
    "Verif.DataManager.data_manager_changes_argument"
   ],
   "note": "The argument is changed (defaults are filled in) without effect on later use."
  },
  {
   "property": "C71",
   "status": "partial",
   "theorems": [
    "Verif.DataManager.read_period_partial",
    "Verif.DataManager.read_period_bounds",
    "Verif.DataManager.period_end_too_late"
   ],
   "note": "False at sub-second resolution: an end without fraction includes its whole last second."
  },
  {
   "property": "C72",
   "status": "partial",
   "theorems": [
    "Verif.Validation.jobs_cell_grid_partial",
    "Verif.Validation.jobs_other_grid",
    "Verif.Validation.jobs_small_grid",
    "Verif.Validation.jobs_other_grid_wrong",
    "Verif.Validation.jobs_without_grid"
   ],
   "note": "Holds for CellGrid only; other grids give jobs that mix indices and coordinates."
  },
  {
   "property": "C73",
   "status": "partial",
   "theorems": [
    "Verif.Validation.init_references_partial",
    "Verif.Validation.init_masking_manager_raises",
    "Verif.Validation.init_manager_ignores",
    "Verif.Validation.init_accepts_large_n",
    "Verif.Validation.init_manager_iff"
   ],
   "note": "Larger n accepted; spatial_ref and period ignored for a DataManager."
  },
  {
   "property": "C74",
   "status": "partial",
   "theorems": [
    "Verif.Validation.masking_data_partial",
    "Verif.Validation.masking_data",
    "Verif.Validation.masking_reuse",
    "Verif.Validation.masking_lut_wrong_point"
   ],
   "note": "A look-up table for masking data is calculated from the temporal reference but used with points of the spatial reference."
  },
  {
   "property": "C75",
   "status": "partial",
   "theorems": [
    "Verif.Validation.basic_matched_data_partial",
    "Verif.Validation.basic_missing_data",
    "Verif.Validation.missing_data_no_result"
   ],
   "note": "For n equal to the number of data sets that were read. If fewer were read no result is calculated, also for the pairs that have data."
  },
  {
   "property": "C76",
   "status": "partial",
   "theorems": [
    "Verif.Validation.combined_matched_data_partial",
    "Verif.Validation.combined_missing_data",
    "Verif.Validation.mask_combined_raises"
   ],
   "note": "Masking with this matcher raises unless exactly one masking data set has data."
  },
  {
   "property": "C77",
   "status": "partial",
   "theorems": [
    "Verif.Results.results_of_jobs_partial",
    "Verif.Results.ts_results_of_jobs_partial",
    "Verif.Results.later_job_misaligned"
   ],
   "note": "Proved for all sequences of jobs, keys and locations in an empty directory, without and with time series, provided no variable appears for the first time in a later job of a key (first call for metrics; before the first time step for series). Fails otherwise: later_job_misaligned. File names of different keys are assumed different (C34)."
  },
  {
   "property": "C78",
   "status": "partial",
   "theorems": [
    "Verif.Results.results_used_up",
    "Verif.Results.stored_before_failure",
    "Verif.Results.repeated_call_duplicates",
    "Verif.Results.no_time_unbound",
    "Verif.Results.time_of_other_key",
    "Verif.Results.tuple_name_raises",
    "Verif.Results.spelled_time_raises",
    "Verif.Results.ts_results_of_jobs_partial"
   ],
   "note": "False as stated. Proved for every input: lon and lat are removed from every processed dictionary so the same dictionaries raise KeyError the second time (no file changes); what was stored before a failure stays, so a repeated call with new dictionaries duplicates locations; with ts_vars, results without 'time' raise UnboundLocalError or take the time stamps of the key before, and tuple names raise AttributeError."
  },
  {
   "property": "C79",
   "status": "partial",
   "theorems": [
    "Verif.DfMetrics.wrapped_metric_partial",
    "Verif.DfMetrics.order_free_value",
    "Verif.DfMetrics.symmetric_metrics",
    "Verif.DfMetrics.bias_both_orders",
    "Verif.DfMetrics.nash_sutcliffe_depends_on_order",
    "Verif.DfMetrics.mse_decomposition_df",
    "Verif.DfMetrics.first_columns_disjoint_raises",
    "Verif.DfMetrics.integer_columns_raise",
    "Verif.DfMetrics.dotted_columns_raise",
    "Verif.DfMetrics.joined_columns_clash",
    "Verif.DfMetrics.metrics_df_values"
   ],
   "note": "Proved for metrics that do not raise for the first two columns and names that give distinct fields. False otherwise: nash_sutcliffe depends on the order, disjoint first columns raise, integer, dotted and clashing column names raise."
  },
  {
   "property": "C80",
   "status": "partial",
   "theorems": [
    "Verif.Pairwise.has_ci_iff",
    "Verif.Pairwise.with_ci_partial",
    "Verif.Pairwise.ubrmsd_with_ci_partial",
    "Verif.Pairwise.ubrmsd_with_ci_misses",
    "Verif.Pairwise.correlation_few_observations",
    "Verif.Pairwise.no_interval_raises",
    "Verif.Pairwise.documented_metrics_raise",
    "Verif.Pairwise.interval_by_name",
    "Verif.Pairwise.has_ci_total"
   ],
   "note": "Proved for bias and the three correlations (more than three observations). False for the ubRMSD interval, for rmsd, nrmsd, mse (documented, but no interval exists), NaN bounds for two observations."
  },
  {
   "property": "C81",
   "status": "partial",
   "theorems": [
    "Verif.Pairwise.old_mse_partial",
    "Verif.Pairwise.old_mse_total",
    "Verif.Pairwise.old_mse_constant",
    "Verif.Pairwise.old_mse_ddof_not_error",
    "Verif.Pairwise.mad_median"
   ],
   "note": "Proved for series that vary with ddof 0; mad outright. Constant series give NaN, with another ddof the total is not the sum of squares over n - ddof."
  },
  {
   "property": "C82",
   "status": "partial",
   "theorems": [
    "Verif.Rolling.old_rolling_partial",
    "Verif.Rolling.old_rolling_agrees",
    "Verif.Rolling.old_rolling_rmsd_garbage",
    "Verif.Rolling.old_rolling_unsorted"
   ],
   "note": "Proved for sorted time stamps (agreement with the fast version for strictly increasing ones, whose failure for ties is C08). The RMSD of windows with too few observations is uninitialised memory; unsorted time stamps use observations outside the window."
  },
  {
   "property": "C83",
   "status": "partial",
   "theorems": [
    "Verif.Adapters.clim_adapter_columns",
    "Verif.Adapters.clim_adapter_same_day_partial",
    "Verif.Adapters.clim_adapter_day_before",
    "Verif.Adapters.clim_adapter_monthly",
    "Verif.Adapters.clim_adapter_missing_column",
    "Verif.Adapters.clim_adapter_no_data",
    "Verif.Adapters.clim_adapter_second_read",
    "Verif.Adapters.clim_adapter_error"
   ],
   "note": "Holds with respect_leap_years=True (or for leap years and before March). By default an observation of an ordinary year is compared with the day before from March on; a monthly climatology is looked up by day of the year; with return_clim=True a second read of a cached frame treats the climatology as data. All proved."
  },
  {
   "property": "C84",
   "status": "partial",
   "theorems": [
    "Verif.Adapters.Basic.adapted_frame_partial",
    "Verif.Adapters.Basic.adapted_nothing",
    "Verif.Adapters.Basic.stack_call",
    "Verif.Adapters.Basic.stack_call_unknown",
    "Verif.Adapters.Basic.stack_grid",
    "Verif.Adapters.Basic.adapt_twice",
    "Verif.Adapters.Basic.cached_read_repeatable",
    "Verif.Adapters.Basic.cached_read_naive",
    "Verif.Adapters.Basic.cached_read_changes_reader"
   ],
   "note": "All parts hold except the last: a frame with a time zone that the reader keeps loses its time zone (proved). read_name equal to another attribute of the adapter is not modelled."
  },
  {
   "property": "C85",
   "status": "partial",
   "theorems": [
    "Verif.Grouping.months_adapter_rows_partial",
    "Verif.Grouping.default_seasons_partition",
    "Verif.Grouping.months_adapter_second_use",
    "Verif.Grouping.months_adapter_bad_month",
    "Verif.Grouping.yearless_dates_objects",
    "Verif.Grouping.yearless_dates_datetime",
    "Verif.Grouping.from_datetime_selects"
   ],
   "note": "Proved: rows, partition into seasons, months after December refused, YearlessDatetime objects. Negations: the dictionary of the user is overwritten and cannot be used a second time; datetime objects raise although documented."
  },
  {
   "property": "C86",
   "status": "partial",
   "theorems": [
    "Verif.Results.attributes_written_partial",
    "Verif.Results.attributes_of_user",
    "Verif.Results.attributes_of_user_changed",
    "Verif.Results.attributes_reused",
    "Verif.Results.series_without_time_coordinate",
    "Verif.Results.lonlat_search",
    "Verif.Results.lonlat_search_history"
   ],
   "note": "Proved: attributes after all sequences of calls, search by coordinates. Negations: time series do not name the time as coordinate; the user's dictionary gets an entry. One inner dictionary used for several names is not modelled."
  },
  {
   "property": "C87",
   "status": "proved",
   "theorems": [
    "Verif.Validation.pair_tables",
    "Verif.Validation.pair_validation",
    "Verif.Validation.unscaled_validation",
    "Verif.Validation.scaled_validation"
   ],
   "note": "Composition of the models of the default matcher (C75), DefaultScaler with mean_std (C19, C20), PairwiseIntercomparisonMetrics (C54, C55) and Validation.calc (C29, C30). The scaling reference has one column (with several columns see C52); all data sets were read at the location (else see C75); 1 <= min_obs; at least two pairs for metrics."
  },
  {
   "property": "C88",
   "status": "proved",
   "theorems": [
    "Verif.Smoothn.dctNd_inverse",
    "Verif.Smoothn.dctNd_energy",
    "Verif.Smoothn.dctNd1_const",
    "Verif.Smoothn.isDct_env1",
    "Verif.Smoothn.isDct_env2",
    "Verif.Smoothn.isDct_env3",
    "Verif.Smoothn.lam_env",
    "Verif.Smoothn.objective_series",
    "Verif.Smoothn.objective_image",
    "Verif.Smoothn.objective_cube",
    "Verif.Smoothn.smoothn_series",
    "Verif.Smoothn.smoothn_image",
    "Verif.Smoothn.smoothn_cube",
    "Verif.Smoothn.low_env"
   ],
   "note": "scipy's dct and idct are modelled by the formulas of their documentation over the reals; orthonormality is proved, not assumed. isDct_env1/2/3 discharge the assumption of the theorems of C63, C64 and C67 for arrays of one to three dimensions."
  },
  {
   "property": "C89",
   "status": "partial",
   "theorems": [
    "Verif.Collocation.Tz.tz_naive",
    "Verif.Collocation.Tz.tz_nearest",
    "Verif.Collocation.Tz.tz_convert",
    "Verif.Collocation.Tz.tz_localize_raises",
    "Verif.Collocation.Tz.tz_combined_aware",
    "Verif.Collocation.Tz.tz_combined_naive_partial",
    "Verif.Collocation.Tz.reference_unchanged_partial",
    "Verif.Collocation.Tz.reference_changed",
    "Verif.Collocation.Tz.reference_changed_example",
    "Verif.Collocation.Tz.tz_mean_fixed_partial",
    "Verif.Collocation.Tz.naive_reference_split",
    "Verif.Collocation.Tz.naive_reference_not_utc",
    "Verif.Collocation.Tz.mean_across_clock_change",
    "Verif.Collocation.Tz.mixed_zones_utc"
   ],
   "note": "Proved for nearest collocation whenever the reference has a time zone, and for a reference without zone when all frames are in one zone. The code violates the rest: a reference without zone is read in the zone of each other frame (not UTC; several rows per reference time if the zones differ), method=mean compares local times, and the caller's reference frame gets a time zone when add_ref_data=True and duplicates are kept."
  },
  {
   "property": "C90",
   "status": "partial",
   "theorems": [
    "Verif.Collocation.typed_mean_exact",
    "Verif.Collocation.float_mean_partial",
    "Verif.Collocation.int_mean_never_missing",
    "Verif.Collocation.int_mean_truncated",
    "Verif.Collocation.int_store",
    "Verif.Collocation.bool_store"
   ],
   "note": "The exact result for each type of the first column. It is the mean for floating point; with an integer first column all means are truncated and missing values become numbers, so the property is violated (int_mean_truncated, int_mean_never_missing)."
  },
  {
   "property": "C91",
   "status": "partial",
   "theorems": [
    "Verif.Collocation.checkna_warns_partial",
    "Verif.Collocation.checkna_off",
    "Verif.Collocation.checkna_column_partial",
    "Verif.Collocation.checkna_warns_with_matches",
    "Verif.Collocation.checkna_series_warns_with_matches"
   ],
   "note": "No match implies a warning (frames, nearest). The converse is violated: a column that is empty anyway, or for a series a single time without match, gives the warning too."
  },
  {
   "property": "C92",
   "status": "partial",
   "theorems": [
    "Verif.Results.interrupted_keeps_stored",
    "Verif.Results.interrupted_batch_keeps_stored",
    "Verif.Results.Ready.interrupted",
    "Verif.Results.storing_goes_on_partial",
    "Verif.Results.interrupted_first_record",
    "Verif.Results.interrupted_record_stays",
    "Verif.Results.addMetrics_run",
    "Verif.Results.addResult_run"
   ],
   "note": "Interruption after any number of writes: everything stored before reads back unchanged, storing can go on, and every complete record before and after reads back. Partial: later records use no new variables; interrupted in the first record of a new file, the next record's metrics end up at the wrong location (interrupted_first_record), and an interrupted record stays in the file as an incomplete location (interrupted_record_stays). Interruption means an exception between writes with the file closed properly; a killed process or a full disk is not modelled."
  },
  {
   "property": "C93",
   "status": "proved",
   "theorems": [
    "Verif.Pairwise.metrics_order_irrelevant",
    "Verif.Pairwise.moments_units",
    "Verif.Pairwise.metrics_units",
    "Verif.Pairwise.metrics_offsets",
    "Verif.Pairwise.pearson_units",
    "Verif.Tcol.tcol_order_irrelevant",
    "Verif.Tcol.tcol_units",
    "Verif.Tcol.tcol_err_std_reference_unit",
    "Verif.Calculators.pairwise_rows_irrelevant"
   ],
   "note": "Over the reals (exact arithmetic). Spearman and Kendall are scipy functions and not part of this claim."
  },
  {
   "property": "C94",
   "status": "proved",
   "theorems": [
    "Verif.Filters.exp_causal",
    "Verif.Filters.exp_missing",
    "Verif.Filters.exp_later",
    "Verif.Filters.exp_units",
    "Verif.Filters.boxcar_local",
    "Verif.Filters.boxcar_later",
    "Verif.Filters.boxcar_units",
    "Verif.Climatology.climatology_units",
    "Verif.Climatology.anomaly_climatology_units",
    "Verif.Climatology.anomaly_average_units"
   ],
   "note": "boxcar_local for sorted time stamps (C06 shows what happens otherwise); the others for every series. Exact arithmetic. Climatology without the standard deviation column (C23: with it the interpolated leap day mixes the columns)."
  },
  {
   "property": "C95",
   "status": "partial",
   "theorems": [
    "Verif.Scaling.mean_std_units",
    "Verif.Scaling.min_max_units",
    "Verif.Cdf.cdf_match_units",
    "Verif.Scaling.cdf_match_follows_units",
    "Verif.Scaling.linreg_units_partial",
    "Verif.Scaling.linreg_units_wrong",
    "Verif.Scaling.scale_units",
    "Verif.Scaling.scale_by_name_units",
    "Verif.Scaling.scale_limits_units",
    "Verif.Scaling.cdf_match_limits_units"
   ],
   "note": "False for linreg (linreg_units_wrong: the absolute value of the slope is stored, so a negatively related source gives different results in K and in degrees C); linreg_units_partial covers non-negative slopes and conversions without offset. The other methods and scale in full. Exact arithmetic."
  },
  {
   "property": "C96",
   "status": "proved",
   "theorems": [
    "Verif.Collocation.collocation_clock",
    "Verif.Collocation.combined_clock",
    "Verif.Collocation.nearest_local",
    "Verif.Collocation.collocation_twice",
    "Verif.Collocation.collocation_twice_dropna"
   ],
   "note": "collocation_clock and combined_clock for every input and option, without hypotheses on sorting. nearest_local for sorted frames and method nearest. collocation_twice for the default options; collocation_twice_dropna shows why dropna is excluded. All indices in one time zone (C89 for zones)."
  },
  {
   "property": "C97",
   "status": "proved",
   "theorems": [
    "Verif.Validation.triple_validation",
    "Verif.Validation.triple_recovers",
    "Verif.Validation.triple_tables",
    "Verif.Validation.triple_without_reference"
   ],
   "note": "tcol_metrics enters as a parameter of which IsTcol says that it is the modelled function on data without division by zero. Bootstrapped intervals are not used (C56). The last sentence is a finding: the default only_with_reference=False cannot be used with more than three data sets."
  },
  {
   "property": "C98",
   "status": "partial",
   "theorems": [
    "Verif.Dtypes.metrics_one_type_partial",
    "Verif.Dtypes.metrics_mixed_types",
    "Verif.Dtypes.metrics_integers",
    "Verif.Dtypes.metrics_as_double",
    "Verif.Dtypes.frame_metrics",
    "Verif.Dtypes.basic_one_type_partial",
    "Verif.Dtypes.basic_mixed_types",
    "Verif.Dtypes.plus_one_type_partial",
    "Verif.Dtypes.plus_mixed_types",
    "Verif.Dtypes.filter_types",
    "Verif.Dtypes.rolling_types"
   ],
   "note": "The code violates the full statement: mixed or integer types raise (metrics_mixed_types, metrics_integers, basic_mixed_types), float32 data make boxcar_filter and exp_filter raise (filter_types). Proved for equal floating point types, frames via df.values, and moving_average. Rounding of float32 is not modelled."
  },
  {
   "property": "C99",
   "status": "partial",
   "theorems": [
    "Verif.Validation.validation_units_partial",
    "Verif.Validation.validation_clock",
    "Verif.Validation.pair_validation_units_partial",
    "Verif.Validation.triple_validation_clock",
    "Verif.Validation.results_other",
    "Verif.Validation.mask_other",
    "Verif.Validation.mask_units",
    "Verif.Validation.default_scalesTo",
    "Verif.Validation.basicMatcher_other",
    "Verif.Validation.oneMatcher_other",
    "Verif.Matchers.combinatoryMatcher_units",
    "Verif.Matchers.combinedMatcher_units",
    "Verif.Collocation.combined_units"
   ],
   "note": "Two runs of the whole pipeline compared. Partial: linreg is excluded (for linreg the property is false, Scaling.linreg_units_wrong); calculators that look at the times (seasons, months) are excluded by hypothesis."
  }
 ]
}