{"id": "C01", "title": "Window-mean resampling averages exactly the observations in the window", "statement": "resample_mean(times, values, target_times, window) returns, for every target time, the mean of all non-NaN values whose timestamp lies within window/2 of that target (both ends included), and NaN when there is none.", "quantifier": "every non-empty series, every list of target times, every window", "why_tests_cant": "The function walks two cursors that are carried from one target to the next; whether a cursor is ever left in a wrong place depends on the whole history of targets, gaps and duplicates.", "anchors": ["src/pytesmo/temporal_matching.py:resample_mean"]}
{"id": "C02", "title": "Nearest collocation returns a nearest observation in the window", "statement": "temporal_collocation(reference, other, window, method='nearest') returns one row per distinct reference time; the row carries the values of an observation of `other` whose distance to the reference time is minimal and not larger than window, and is all-NaN exactly when no observation lies in the window.", "quantifier": "all reference indices, all strictly sorted or unsorted, duplicated or not, other frames, all windows", "why_tests_cant": "Minimality is a statement about all other observations; ties, duplicates and exact-boundary distances form an unbounded input space.", "anchors": ["src/pytesmo/temporal_matching.py:temporal_collocation"]}
{"id": "C03", "title": "Flagged observations never replace valid ones", "statement": "With a validity flag, temporal_collocation never returns a value of a flagged observation when use_invalid is False; with use_invalid=True a flagged value is returned only in cells for which the nearest valid observation in the window offers no value.", "quantifier": "all frames, flag arrays, reference times and windows", "why_tests_cant": "The claim is about absence of leakage for every placement of flagged observations around every reference time.", "anchors": ["src/pytesmo/temporal_matching.py:temporal_collocation"]}
{"id": "C04", "title": "Reported collocation distance is the real time offset", "statement": "With return_distance=True every matched row reports index_other as the timestamp of the matched observation and distance_other = index_other - reference time, and |distance_other| <= window.", "quantifier": "all frames, reference times and windows", "why_tests_cant": "Must hold for every row of every result.", "anchors": ["src/pytesmo/temporal_matching.py:temporal_collocation"]}
{"id": "C05", "title": "Combined collocation never misaligns data sets", "statement": "combined_temporal_collocation returns rows at reference times only; in each row the columns of data set k are exactly what collocating data set k alone returns for that reference time; combined_dropna='any' keeps exactly the rows without NaN and 'all' drops exactly the all-NaN rows.", "quantifier": "all references, any number of other frames, all windows and dropna modes", "why_tests_cant": "Alignment has to hold for every number of frames and every pattern of missing matches.", "anchors": ["src/pytesmo/temporal_matching.py:combined_temporal_collocation"]}
{"id": "C06", "title": "Boxcar filter is the windowed mean of valid observations", "statement": "boxcar_filter returns for each time stamp the mean of all observations that are neither NaN nor the no-data value and lie within window/2 of that stamp, if at least min_obs of them exist, otherwise NaN; missing observations stay NaN unless fillna is set.", "quantifier": "all sorted time stamps, all values including missing ones, all windows and min_obs", "why_tests_cant": "Early-exit loops and counters over arbitrary gap patterns.", "anchors": ["src/pytesmo/time_series/filters.pyx:boxcar_filter"]}
{"id": "C07", "title": "Exponential filter equals the normalised exponentially weighted mean", "statement": "exp_filter returns at each valid observation t_n the weighted mean of all valid observations up to t_n with weights exp(-(t_n-t_k)/ctime); missing observations give NaN and do not influence any other output.", "quantifier": "all series, all patterns of missing values, all ctime > 0", "why_tests_cant": "The code uses a recursive gain; equality with the closed form is an induction over the whole history.", "anchors": ["src/pytesmo/time_series/filters.pyx:exp_filter"]}
{"id": "C08", "title": "Rolling metrics equal metrics computed from scratch on each window", "statement": "rolling_pr_rmsd returns at every time stamp the Pearson correlation and RMSD of exactly the observations in its window (|dt|<=w when centred, t_i-w < t <= t_i otherwise), or NaN when there are fewer than min_periods.", "quantifier": "all sorted time stamps, all data, all window sizes, both modes", "why_tests_cant": "Moments are updated incrementally when observations enter and leave the window, so an error made in one window would persist in all later ones.", "anchors": ["src/pytesmo/metrics/_fast_pairwise.pyx:rolling_pr_rmsd"]}
{"id": "C09", "title": "One-pass moments are the textbook mean, variance and covariance", "statement": "The one-pass routine behind the fast pairwise metrics returns the arithmetic means, population variances and the population covariance of its two inputs.", "quantifier": "all pairs of arrays of equal, non-zero length", "why_tests_cant": "Recurrence correctness for every length.", "anchors": ["src/pytesmo/metrics/_fast_pairwise.pyx:_moments_welford", "src/pytesmo/metrics/_fast.pyx:_moments_welford_nd"]}
{"id": "C10", "title": "MSE decomposition is exact", "statement": "mse_decomposition returns (mse, corr, bias, var) with mse = corr + bias + var, every component non-negative, mse equal to the mean of the squared differences, and each component equal to mse_corr, mse_bias, mse_var.", "quantifier": "all pairs of arrays of equal, non-zero length", "why_tests_cant": "An algebraic identity over all data.", "anchors": ["src/pytesmo/metrics/_fast_pairwise.pyx:mse_decomposition", "src/pytesmo/metrics/_fast_pairwise.pyx:mse_corr", "src/pytesmo/metrics/_fast_pairwise.pyx:mse_bias", "src/pytesmo/metrics/_fast_pairwise.pyx:mse_var"]}
{"id": "C11", "title": "Difference metrics are mutually consistent", "statement": "msd = rmsd^2 = RSS/n, rmsd^2 = bias^2 + ubrmsd^2, bias is anti-symmetric, and msd, rmsd, ubrmsd, aad are symmetric in their arguments, zero for identical inputs and aad <= rmsd.", "quantifier": "all pairs of arrays of equal non-zero length", "why_tests_cant": "Identities and inequalities over all data.", "anchors": ["src/pytesmo/metrics/pairwise.py", "src/pytesmo/metrics/_fast_pairwise.pyx"]}
{"id": "C12", "title": "Efficiency scores stay in their documented range", "statement": "nash_sutcliffe is at most 1 and equals 1 exactly for identical series; index_of_agreement lies in [0, 1].", "quantifier": "all pairs of equal-length arrays with a non-constant reference", "why_tests_cant": "Inequalities over all data.", "anchors": ["src/pytesmo/metrics/pairwise.py:nash_sutcliffe", "src/pytesmo/metrics/pairwise.py:index_of_agreement"]}
{"id": "C13", "title": "Triple collocation recovers the error model", "statement": "If the three data sets follow the affine signal-plus-independent-error model (off-diagonal covariances b_i b_j s, diagonal b_i^2 s + e_i), tcol_metrics returns beta_i = b_ref/b_i, scaled error std |..| sqrt(e_i)*beta_i and SNR_i = 10 log10(b_i^2 s/e_i) for every reference index.", "quantifier": "all gains, signal variances, error variances and reference indices", "why_tests_cant": "Exact recovery for a continuum of models.", "anchors": ["src/pytesmo/metrics/tcol.py:_tcol_metrics_from_cov", "src/pytesmo/metrics/tcol.py:tcol_metrics"]}
{"id": "C14", "title": "Extended collocation recovers the error model", "statement": "If the covariance matrix follows the signal-plus-error model with error cross-covariance only between the pairs listed as correlated, and the design matrix has full column rank, ecol returns exactly the signal variances, error variances and error cross-covariances of the model.", "quantifier": "any number of data sets, any set of correlated pairs, all model parameters", "why_tests_cant": "A linear-algebra identity for every number of data sets.", "anchors": ["src/pytesmo/metrics/tcol.py:ecol", "src/pytesmo/metrics/tcol.py:check_if_biased"]}
{"id": "C15", "title": "n-wise application uses exactly the complete rows of the columns concerned", "statement": "nwise_apply evaluates the metric for each column combination on exactly those rows in which all columns of the combination are finite, independently of every other column and combination.", "quantifier": "all frames, all n", "why_tests_cant": "The validity masks are shared between combinations; the property quantifies over all missing-data patterns.", "anchors": ["src/pytesmo/df_metrics.py:nwise_apply", "src/pytesmo/utils.py:array_dropna"]}
{"id": "C16", "title": "Symmetric result matrices are symmetric", "statement": "nwise_apply(..., n=2, as_df=True, comm=True) returns a matrix whose entry (i,j) is the metric of columns i and j, for both triangles.", "quantifier": "any number of columns", "why_tests_cant": "Index arithmetic that must hold for every matrix size.", "anchors": ["src/pytesmo/df_metrics.py:_to_df"]}
{"id": "C17", "title": "Data-frame triple collocation uses the requested reference column", "statement": "df_metrics.tcol_metrics(df, ref_ind) evaluates every triple that contains column ref_ind, and in each uses column ref_ind as the scaling reference (beta of that column is 1).", "quantifier": "any number of columns, any reference column", "why_tests_cant": "Ranges over all column counts and reference positions.", "anchors": ["src/pytesmo/df_metrics.py:tcol_metrics", "src/pytesmo/df_metrics.py:n_combinations"]}
{"id": "C18", "title": "Bootstrapped confidence intervals are ordered and consistent between methods", "statement": "Percentile and basic bootstrap intervals satisfy lower <= upper for every 0<alpha<=1; the basic interval is the percentile interval reflected at the estimate; for a zero bias correction and acceleration the BCa interval equals the percentile interval of the same alpha.", "quantifier": "all bootstrap samples, all metrics, all alpha", "why_tests_cant": "Holds for every random resampling outcome.", "anchors": ["src/pytesmo/metrics/confidence_intervals.py:_percentile_bs_ci", "src/pytesmo/metrics/confidence_intervals.py:_basic_bs_ci", "src/pytesmo/metrics/confidence_intervals.py:_BCa_bs_ci"]}
{"id": "C19", "title": "Linear scaling methods reach their target statistics", "statement": "mean_std gives the scaled source the mean and standard deviation of the reference, min_max maps the source range exactly onto the reference range, linreg gives the least-squares line.", "quantifier": "all pairs of arrays (non-constant source)", "why_tests_cant": "Continuum of inputs.", "anchors": ["src/pytesmo/scaling.py:mean_std", "src/pytesmo/scaling.py:min_max", "src/pytesmo/scaling.py:linreg", "src/pytesmo/scaling.py:linreg_stored_params"]}
{"id": "C20", "title": "Scaling a frame leaves the reference and the shape alone", "statement": "scale() keeps column order, index and the reference column bit-identical and replaces every other column by the scaled one; add_scaled() only appends columns.", "quantifier": "all frames, all reference positions, any scaling method", "why_tests_cant": "Any number of columns and any reference index, including out-of-range.", "anchors": ["src/pytesmo/scaling.py:scale", "src/pytesmo/scaling.py:add_scaled"]}
{"id": "C21", "title": "Percentiles used for CDF matching become strictly increasing", "statement": "The percentiles passed to the piecewise linear matching are strictly increasing after deduplication, keep the first and last value, and leave already unique percentiles unchanged.", "quantifier": "all monotone percentile lists with distinct ends", "why_tests_cant": "Runs of ties of any length and position.", "anchors": ["src/pytesmo/cdf_matching.py:_unique_percentile_interpolation", "src/pytesmo/utils.py:interp_uniq"]}
{"id": "C22", "title": "CDF matching is monotone and maps source percentiles to reference percentiles", "statement": "CDFMatching.predict maps each fitted source percentile to the corresponding reference percentile, preserves order between the fitted percentiles, and is the identity inside the fitted range if source and reference have the same percentiles.", "quantifier": "all fitted percentile tables and all values", "why_tests_cant": "Piecewise function over all table sizes.", "anchors": ["src/pytesmo/cdf_matching.py:CDFMatching"]}
{"id": "C23", "title": "A climatology always has one value per day or month and treats the year as circular", "statement": "calc_climatology returns exactly 366 (or 12) entries; with wraparound smoothing the entry for a day is the mean of the available long-term means of the days within half a window in circular distance.", "quantifier": "all time series, all windows up to the number of entries", "why_tests_cant": "Missing days and the year boundary combine in unboundedly many ways.", "anchors": ["src/pytesmo/time_series/anomaly.py:calc_climatology"]}
{"id": "C24", "title": "Anomalies are the observation minus the reference of the same day", "statement": "calc_anomaly keeps the index and returns at each time stamp the observation minus the climatology value of that calendar day (or minus its moving average).", "quantifier": "all series and climatologies", "why_tests_cant": "Quantifies over all calendars, leap years and gaps.", "anchors": ["src/pytesmo/time_series/anomaly.py:calc_anomaly"]}
{"id": "C25", "title": "Yearless period selection is year-independent", "statement": "TsDistributor with yearless dates / ranges selects exactly the time stamps whose calendar position lies in the range, in every year, including ranges that cross New Year and leap days.", "quantifier": "all time stamps, all yearless dates and ranges", "why_tests_cant": "Leap years and wrap-around ranges.", "anchors": ["src/pytesmo/time_series/grouping.py:TsDistributor", "src/pytesmo/time_series/grouping.py:YearlessDatetime"]}
{"id": "C26", "title": "Day bins partition the month", "statement": "group_by_day_bin puts every observation in exactly one (year, month, bin) group, and grp_to_datetimeindex labels groups with distinct, ordered dates inside their month.", "quantifier": "all dates and all bin definitions", "why_tests_cant": "All calendars and bin lists.", "anchors": ["src/pytesmo/time_series/grouping.py:group_by_day_bin", "src/pytesmo/time_series/grouping.py:grp_to_datetimeindex", "src/pytesmo/time_series/grouping.py:grouped_dates_between"]}
{"id": "C27", "title": "Result names enumerate each admissible combination once", "statement": "get_result_names(ds_dict, refkey, n) returns, without repetition, exactly the sorted n-tuples made of one column of the reference and columns of n-1 other, pairwise distinct data sets.", "quantifier": "all data set dictionaries, all n", "why_tests_cant": "Product/combination/chunking code for arbitrary numbers of data sets and columns.", "anchors": ["src/pytesmo/validation_framework/data_manager.py:get_result_names"]}
{"id": "C28", "title": "Reading data for a location never mixes locations", "statement": "DataManager.get_data reads every data set at the location that belongs to it: the same gpi for compatible grids, the look-up-table entry if there is one, else the nearest grid point; a missing entry omits the data set; no reference means no data.", "quantifier": "all look-up tables, grids and gpis", "why_tests_cant": "All lookup-table contents including missing markers.", "anchors": ["src/pytesmo/validation_framework/data_manager.py:DataManager"]}
{"id": "C29", "title": "Each requested location produces exactly one result row, whatever fails", "statement": "With handle_errors='ignore' Validation.calc returns for every result key as many entries as locations were passed, in the same order, even if reading, matching, scaling or metric calculation fails for any of them.", "quantifier": "all sequences of locations and all failure patterns", "why_tests_cant": "Quantifies over all interleavings of failing and succeeding locations.", "anchors": ["src/pytesmo/validation_framework/validation.py:Validation.calc"]}
{"id": "C30", "title": "The status of a location states what failed", "statement": "The status written for a location is the code of the first stage that failed for it and OK only if nothing failed; the codes of different failure classes differ.", "quantifier": "all failure patterns", "why_tests_cant": "All combinations of stages, exception classes and result keys.", "anchors": ["src/pytesmo/validation_framework/error_handling.py", "src/pytesmo/validation_framework/validation.py:Validation.calc", "src/pytesmo/validation_framework/validation.py:Validation.perform_validation"]}
{"id": "C31", "title": "One location's failure does not influence another's result", "statement": "The results of a location are the same whether it is processed alone or together with any other locations.", "quantifier": "all lists of locations and all failure patterns", "why_tests_cant": "Independence for all histories.", "anchors": ["src/pytesmo/validation_framework/validation.py:Validation.calc"]}
{"id": "C32", "title": "Masking removes exactly the masked observations", "statement": "With masking datasets, Validation removes the reference observations whose collocated mask value is True and keeps the others.", "quantifier": "all masks and reference series", "why_tests_cant": "All combinations of mask values and match patterns.", "anchors": ["src/pytesmo/validation_framework/validation.py:Validation.mask_dataset", "src/pytesmo/validation_framework/validation.py:Validation.temporal_match_masking_data"]}
{"id": "C33", "title": "Stored results can be read back", "statement": "After any sequence of PointDataResults.add_result calls, read_loc/read_ts of a location returns the values that were added for it.", "quantifier": "all histories of additions, with any variables and lengths", "why_tests_cant": "A statement about every history of writes.", "anchors": ["src/pytesmo/validation_framework/results_manager.py:PointDataResults"]}
{"id": "C34", "title": "Different result keys are stored in different files of legal name", "statement": "build_filename yields names no longer than 255 characters and different names for different result keys.", "quantifier": "all keys", "why_tests_cant": "All key lengths and name collisions.", "anchors": ["src/pytesmo/validation_framework/results_manager.py:build_filename"]}
{"id": "C35", "title": "Masking adapters keep exactly the rows fulfilling every condition", "statement": "AdvancedMaskingAdapter keeps exactly the rows that satisfy all filters; SelfMaskingAdapter the rows satisfying its condition; both return rows unchanged and in order.", "quantifier": "all frames, filter lists and operators", "why_tests_cant": "All filter lists and rows.", "anchors": ["src/pytesmo/validation_framework/adapters.py:AdvancedMaskingAdapter", "src/pytesmo/validation_framework/adapters.py:SelfMaskingAdapter", "src/pytesmo/validation_framework/adapters.py:MaskingAdapter"]}
{"id": "C36", "title": "TimestampAdapter shifts every observation by its own offsets", "statement": "TimestampAdapter gives each row the exact time base + sum of its offset fields in their units, removes rows without a time and keeps every other row once.", "quantifier": "all frames, field and unit lists", "why_tests_cant": "All offset patterns, missing values and duplicates.", "anchors": ["src/pytesmo/validation_framework/adapters.py:TimestampAdapter"]}
{"id": "C37", "title": "Upscaling only uses the series that were matched", "statement": "Upscaling.upscale with a list of series returns, at each common time, the average of the values of the series (after the optional temporal-stability selection), between their minimum and maximum.", "quantifier": "all numbers of series and all values", "why_tests_cant": "Any number of points.", "anchors": ["src/pytesmo/validation_framework/upscaling.py:MixinReadTs"]}
{"id": "C38", "title": "Argument normalisation gives one value per call", "statement": "args_to_iterable turns scalars and lists into equally long lists so that zip loses no argument.", "quantifier": "all argument mixes", "why_tests_cant": "All length combinations.", "anchors": ["src/pytesmo/validation_framework/validation.py:args_to_iterable"]}
{"id": "C39", "title": "Stored scaling parameters are used consistently", "statement": "CDFStoreParamsScaler returns for a location the same parameters on every call: those found in storage or, if there are none, the ones computed on the first call.", "quantifier": "all histories of calls", "why_tests_cant": "History property.", "anchors": ["src/pytesmo/validation_framework/data_scalers.py:CDFStoreParamsScaler"]}
{"id": "C40", "title": "Parallel processing does not change the results", "statement": "The collection of (job, result) pairs obtained from parallel execution equals the sequential one for every completion order.", "quantifier": "all schedules and failure patterns", "why_tests_cant": "Quantifies over schedules.", "anchors": ["src/pytesmo/validation_framework/start_validation.py:func", "src/pytesmo/validation_framework/start_validation.py:start_validation"]}
{"id": "C41", "title": "Contingency counts partition the observations", "statement": "FTMetrics' four counts are the numbers of observations with frozen / not frozen surface state and temperature below / at or above 0 degrees; they add up to the number of observations with a temperature. An observation without surface state is in none of the four.", "quantifier": "all frames, flags and thresholds of observations, NaN anywhere", "why_tests_cant": "The counts must partition the rows for every pattern of missing values and every temperature including exactly 0; tests use a few rows without NaN.", "anchors": ["src/pytesmo/validation_framework/metric_calculators.py:FTMetrics"]}
{"id": "C42", "title": "Temporal sub-metrics only see their subset", "statement": "SubsetsMetricsAdapter evaluates the wrapped calculator for each named subset on exactly the rows of that subset, and returns the dummy result if fewer than the minimum are there.", "quantifier": "all frames, all subset definitions", "why_tests_cant": "All subset definitions and frames.", "anchors": ["src/pytesmo/validation_framework/metric_calculators_adapters.py:SubsetsMetricsAdapter"]}
{"id": "C43", "title": "Chunked Pearson correlation equals the correlation of the concatenation", "statement": "Calling pearsonr_recursive chunk by chunk, passing the returned parameters on, ends with the Pearson correlation of the concatenated data.", "quantifier": "any number of chunks of any size", "why_tests_cant": "Induction over chunks.", "anchors": ["src/pytesmo/metrics/deprecated.py:pearsonr_recursive"]}
{"id": "C44", "title": "Julian day conversions agree and invert each other", "statement": "julian2date(julday(d)) returns the date d, and consecutive days have consecutive Julian day numbers.", "quantifier": "all dates of the (proleptic) Gregorian calendar in the supported range", "why_tests_cant": "Unbounded calendar arithmetic.", "anchors": ["src/pytesmo/timedate/julian.py"]}
{"id": "C45", "title": "interp_uniq makes arrays strictly monotone and terminates", "statement": "interp_uniq terminates for every input and returns an array without repeated neighbours.", "quantifier": "all arrays", "why_tests_cant": "Termination and ties of any length.", "anchors": ["src/pytesmo/utils.py:interp_uniq"]}
{"id": "C46", "title": "array_dropna keeps exactly the rows that are complete in all arrays", "statement": "array_dropna(*arrs) returns each array restricted to the positions where none of the arrays is NaN.", "quantifier": "any number of arrays", "why_tests_cant": "Any number of arrays.", "anchors": ["src/pytesmo/utils.py:array_dropna"]}
{"id": "C47", "title": "Gap-filling iteration always stops and reports non-convergence", "statement": "smoothn performs at most 3*MaxIter inner iterations and returns exit flag 3 whenever the iteration stopped without reaching the tolerance.", "quantifier": "all data and parameters", "why_tests_cant": "Depends on the whole iteration history.", "anchors": ["src/pytesmo/interpolate/dctpls.py:smoothn"]}
{"id": "C48", "title": "Combinatory matching joins on reference times and names frames by their data sets", "statement": "BasicTemporalMatching.combinatory_matcher returns, for each n-combination containing the reference with a non-empty match, a frame keyed by (reference, *sorted others) whose rows are reference rows joined with matches inside the window.", "quantifier": "all frames, all n", "why_tests_cant": "Any number of data sets.", "anchors": ["src/pytesmo/validation_framework/temporal_matchers.py:BasicTemporalMatching"]}
{"id": "C49", "title": "df_match pairs every reference row with the closest row in the window", "statement": "The deprecated df_match returns for every reference row the index and distance of a nearest row within the (a)symmetric window, and with dropduplicates uses each matched row at most once.", "quantifier": "all frames and windows", "why_tests_cant": "All positions and ties.", "anchors": ["src/pytesmo/temporal_matching.py:df_match"]}
{"id": "C50", "title": "Analytical confidence intervals contain the estimate", "statement": "The analytical confidence intervals of bias, ubrmsd, Pearson, Spearman and Kendall enclose the estimate for every alpha in (0,1), and are nested in alpha; the bias interval computed from moments is the same interval.", "quantifier": "all data and alpha", "why_tests_cant": "Inequalities over a continuum.", "anchors": ["src/pytesmo/metrics/pairwise.py:bias_ci", "src/pytesmo/metrics/pairwise.py:pearson_r_ci", "src/pytesmo/metrics/pairwise.py:msd_ci"]}
{"id": "C51", "title": "Column selections are complete and contain what was required", "statement": "n_combinations(range(K), n, must_include, permutations) returns, without repetition, exactly the (ordered, if permutations is set) selections of n distinct elements that contain every element of must_include.", "quantifier": "every K and n, every list of required elements, with and without permutations", "why_tests_cant": "tests try a handful of small K and n; completeness and absence of repetition are claims about all sizes", "anchors": ["src/pytesmo/df_metrics.py:n_combinations"]}
{"id": "C52", "title": "A metrics calculator sees exactly the data of its result", "statement": "In Validation.calc every metrics calculator call gets a data frame with one column per (dataset, column) of the result key, in key order and named ref, k1, ..., whose rows are exactly the matched time steps at which all of these columns have a value.", "quantifier": "every set of matched data, every result key, every scaler that keeps the columns", "why_tests_cant": "tests use a few fixed dataset configurations; the claim ranges over all column combinations, matched dictionaries and scaling references", "anchors": ["src/pytesmo/validation_framework/validation.py:Validation.get_data_for_result_tuple", "src/pytesmo/validation_framework/validation.py:Validation.k_datasets_from", "src/pytesmo/validation_framework/validation.py:Validation.perform_validation"]}
{"id": "C53", "title": "Reading through an adapter leaves the reader's data as they are", "statement": "Wrapping a reader in an adapter does not change what the next read returns: reading the same location twice through AnomalyAdapter, AnomalyClimAdapter or ColumnCombineAdapter gives the same data both times, and only the requested columns differ from the reader's data.", "quantifier": "all frames, all numbers of reads, all choices of columns and functions, readers that hand out a cached frame included", "why_tests_cant": "Whether the second read is equal depends on the reader handing out the same object and on which columns take part; tests read once with fresh frames.", "anchors": ["src/pytesmo/validation_framework/adapters.py: AnomalyAdapter._adapt", "src/pytesmo/validation_framework/adapters.py: ColumnCombineAdapter._adapt"]}
{"id": "C54", "title": "Every calculator returns a complete result that says whether the metrics are valid", "statement": "For every location calc_metrics returns the location, the metadata of the job, a status and all entries of the template, and nothing else. With fewer observations than min_obs the status is INSUFFICIENT_DATA and all metrics are NaN; with enough observations the status is OK and every entry holds the metric of the named columns; if triple collocation fails the status is METRICS_CALCULATION_FAILED.", "quantifier": "all data frames, column names, metadata templates, min_obs, and all values of the metric functions", "why_tests_cant": "The two sides of the threshold, every combination of options and every metadata template must be covered; tests use fixed frames with plenty of rows.", "anchors": ["src/pytesmo/validation_framework/metric_calculators.py: MetadataMetrics, BasicMetrics, BasicMetricsPlusMSE, FTMetrics, RollingMetrics, TripleCollocationMetrics, IntercomparisonMetrics, PairwiseIntercomparisonMetrics"]}
{"id": "C55", "title": "PairwiseIntercomparisonMetrics stores the metrics of the complete rows", "statement": "Every entry of the result equals the metric function of pytesmo.metrics (and its confidence interval) applied to the rows in which both columns are present, although the calculator derives them from running moments; exactly the entries for the options chosen are there.", "quantifier": "all data frames with two columns, NaN anywhere, all combinations of the four options, all behaviours of the scipy functions and the bootstrap", "why_tests_cant": "Equality of two ways of calculating has to hold for all data; tests compare on random samples with tolerances.", "anchors": ["src/pytesmo/validation_framework/metric_calculators.py: PairwiseMetricsMixin, PairwiseIntercomparisonMetrics"]}
{"id": "C56", "title": "Triple collocation results belong to the data set they are stored under", "statement": "TripleCollocationMetrics stores under (metric, name) the value tcol_metrics gives for the column of this name with the reference column as reference, whatever the order of the columns; the lower and upper bounds of the bootstrap likewise. A frame without the reference column is refused.", "quantifier": "all frames with three columns in any order, all names, with and without bootstrap", "why_tests_cant": "A mix-up of columns shows only for particular column orders, and the result must be independent of the order for all data.", "anchors": ["src/pytesmo/validation_framework/metric_calculators.py: TripleCollocationMetrics.calc_metrics", "src/pytesmo/metrics/tcol.py: tcol_metrics"]}
{"id": "C57", "title": "Result names of IntercomparisonMetrics and TCMetrics identify data sets", "statement": "An entry metric_between_x_and_y holds the metric of the two columns that belong to the data sets x and y (metric_x_between_x_and_y_and_z for triples); different combinations never share an entry; the pairs are those with the reference, or all if asked for.", "quantifier": "all numbers of data sets, all column and data set names, all column orders of the data", "why_tests_cant": "The names are joined to one string and split again; whether this is unambiguous depends on all names, tests use k1, k2, k3.", "anchors": ["src/pytesmo/validation_framework/metric_calculators.py: IntercomparisonMetrics", "src/pytesmo/validation_framework/metric_calculators.py: TCMetrics"]}
{"id": "C58", "title": "Seasonal metrics use the data of the season only", "statement": "HSAF_Metrics stores under a season only metrics calculated from the observations of this season's months; the seasons partition the observations; a season with fewer observations than min_obs has no metrics.", "quantifier": "all frames, months, names of data sets", "why_tests_cant": "The test compares one data set; for data that are equal in all seasons, metrics of all data pass as well.", "anchors": ["src/pytesmo/validation_framework/metric_calculators.py: HSAF_Metrics.calc_metrics"]}
{"id": "C59", "title": "get_dataset_names gives the names in the order of the columns of the results", "statement": "get_dataset_names returns the data set names in the order in which the columns ref, k1, k2 of the data frames given to the metrics calculator belong to them, the reference first.", "quantifier": "all data set dictionaries, reference names and n", "why_tests_cant": "The order depends on the alphabetical order of all names; the tests use names for which it happens to be right.", "anchors": ["src/pytesmo/validation_framework/metric_calculators.py: get_dataset_names", "src/pytesmo/validation_framework/data_manager.py: get_result_names"]}
{"id": "C60", "title": "ensure_iterable gives something to loop over", "statement": "ensure_iterable(el) returns something that yields the elements of el if el is a list, tuple or array, and el itself once if it is a string or a single object; it never raises.", "quantifier": "all objects", "why_tests_cant": "All kinds and sizes of objects.", "anchors": ["src/pytesmo/utils.py:ensure_iterable", "src/pytesmo/validation_framework/validation.py:args_to_iterable"]}
{"id": "C61", "title": "The combined matcher keeps the times that all data sets share", "statement": "The matcher of make_combined_temporal_matcher(window) returns one frame keyed by the reference and all other names, with exactly the reference times at which the reference and the nearest row of each other data set in the window have values in all columns.", "quantifier": "all dictionaries of frames, all windows", "why_tests_cant": "Any number of data sets and all positions.", "anchors": ["src/pytesmo/validation_framework/temporal_matchers.py:dfdict_combined_temporal_collocation", "src/pytesmo/validation_framework/temporal_matchers.py:make_combined_temporal_matcher"]}
{"id": "C62", "title": "matching joins every reference row with its own matches", "statement": "The deprecated matching(reference, *args) returns rows of the reference, in order and without NaN, each with the data of one nearest row in the window of every other series, and uses no row twice.", "quantifier": "all series and windows", "why_tests_cant": "All positions and any number of series.", "anchors": ["src/pytesmo/temporal_matching.py:matching"]}
{"id": "C63", "title": "smoothn does not use gaps and excluded elements", "statement": "The result of smoothn does not depend on the values at gaps and at elements of exclusion_mask; in the result excluded elements have the gap value and all other elements a number.", "quantifier": "all arrays, masks, gap values and parameters", "why_tests_cant": "An independence statement over pairs of arbitrary arrays.", "anchors": ["src/pytesmo/interpolate/dctpls.py:smoothn"]}
{"id": "C64", "title": "smoothn solves penalised least squares", "statement": "For complete data without weights the result of smoothn is the only array with the smallest value of the squared deviations plus the smoothing parameter times the roughness; it has the mean of the data and leaves constants unchanged. With weights and gaps, an array that the iteration does not change is such a solution for the weights.", "quantifier": "all arrays and smoothing parameters", "why_tests_cant": "Optimality against all other arrays.", "anchors": ["src/pytesmo/interpolate/dctpls.py:smoothn", "src/pytesmo/interpolate/dctpls.py:gcv"]}
{"id": "C65", "title": "smoothn leaves the data alone", "statement": "smoothn does not change the array that it gets.", "quantifier": "all arrays and parameters", "why_tests_cant": "All arrays.", "anchors": ["src/pytesmo/interpolate/dctpls.py:smoothn"]}
{"id": "C66", "title": "axis selects the axes along which smoothn smooths", "statement": "With axis=None an array is smoothed along all axes, with a number or a tuple along the given axes, for arrays of any shape.", "quantifier": "all shapes and axes", "why_tests_cant": "All shapes and selections of axes.", "anchors": ["src/pytesmo/interpolate/dctpls.py:smoothn"]}
{"id": "C67", "title": "Weights of smoothn", "statement": "Negative weights are refused; the final weights are between 0 and 1 and 0 at gaps; weights at gaps have no effect; larger residuals never get larger robust weights, and RobustWeights uses all residuals if there is no mask.", "quantifier": "all weights, arrays and masks", "why_tests_cant": "All weights and the whole iteration.", "anchors": ["src/pytesmo/interpolate/dctpls.py:smoothn", "src/pytesmo/interpolate/dctpls.py:RobustWeights"]}
{"id": "C68", "title": "return_stats returns what it selects", "statement": "The side products named in return_stats, and no others, are in the dictionary that smoothn returns.", "quantifier": "all arrays and selections", "why_tests_cant": "All combinations of parameters.", "anchors": ["src/pytesmo/interpolate/dctpls.py:smoothn"]}
{"id": "C69", "title": "A data manager reads every data set where and how its options say", "statement": "For a grid point of the reference, DataManager.get_data returns for every data set exactly the rows its reader returns for that data set's own method, args and kwargs (or the documented defaults) at the grid point determined by its own options (grids_compatible, look-up table within max_dist, nearest neighbour within max_dist), inside the period. Data sets without data are left out; without data of the reference or of all others nothing is returned. get_other_data does the same without the reference. The constructor raises exactly for an unknown reference or a look-up table without grid.", "quantifier": "all dictionaries of data sets with arbitrary combinations of options, readers, grids, periods, reading methods, grid points", "why_tests_cant": "The options multiply per data set; tests use two or three data sets with default options.", "anchors": ["src/pytesmo/validation_framework/data_manager.py:DataManager.__init__", "src/pytesmo/validation_framework/data_manager.py:DataManager._add_default_values", "src/pytesmo/validation_framework/data_manager.py:DataManager.get_luts", "src/pytesmo/validation_framework/data_manager.py:DataManager.get_data", "src/pytesmo/validation_framework/data_manager.py:DataManager.get_other_data"]}
{"id": "C70", "title": "The dictionary of data sets can be used again", "statement": "Building a DataManager keeps the data sets, their order and every option of the caller's dictionary, and every later DataManager built from that dictionary behaves like one built from the original.", "quantifier": "all dictionaries, all later references, periods and reading methods", "why_tests_cant": "Concerns all later uses of a mutated argument.", "anchors": ["src/pytesmo/validation_framework/data_manager.py:DataManager._add_default_values"]}
{"id": "C71", "title": "period selects the time stamps between its ends", "statement": "With a period (start, end) exactly the rows of a reader with start <= time <= end are used.", "quantifier": "all time series and periods", "why_tests_cant": "Depends on the time stamps around both ends at any resolution.", "anchors": ["src/pytesmo/validation_framework/upscaling.py:MixinReadTs.read_ds"]}
{"id": "C72", "title": "Processing jobs cover every grid point once", "statement": "The jobs of get_processing_jobs together work on every grid point of the reference exactly once, each with its own longitude and latitude.", "quantifier": "all reference grids", "why_tests_cant": "All grids, with and without cells.", "anchors": ["src/pytesmo/validation_framework/validation.py:Validation.get_processing_jobs", "src/pytesmo/validation_framework/validation.py:Validation.calc"]}
{"id": "C73", "title": "A validation uses the references and calculators it was given", "statement": "A constructed Validation uses the given spatial reference, the given temporal and scaling reference or else the spatial one, the given period, and rejects calculators whose number of data sets is not that of the data sets.", "quantifier": "all arguments of the constructor", "why_tests_cant": "All combinations of optional arguments.", "anchors": ["src/pytesmo/validation_framework/validation.py:Validation.__init__"]}
{"id": "C74", "title": "Masking data sets are read for the location under validation", "statement": "For every location each masking data set is read at the grid point that its own options determine for the grid point of the spatial reference. The dictionary of masking data sets can be used for another validation.", "quantifier": "all masking data sets, references, options and locations", "why_tests_cant": "All combinations of references and options per masking data set.", "anchors": ["src/pytesmo/validation_framework/validation.py:Validation.__init__", "src/pytesmo/validation_framework/validation.py:Validation.mask_dataset"]}
{"id": "C75", "title": "Data behind a metric with the default matcher", "statement": "With the default temporal matcher the data handed to the calculators for a result consist of exactly one row for every time of the temporal reference at which all columns of the result have a value, the reference its own, every other data set that of its nearest observation within the window (the later of two equally near).", "quantifier": "all data sets, windows, columns and results", "why_tests_cant": "Composition of reading, matching and selection for every time series.", "anchors": ["src/pytesmo/validation_framework/validation.py:Validation.perform_validation", "src/pytesmo/validation_framework/validation.py:Validation.get_data_for_result_tuple", "src/pytesmo/validation_framework/temporal_matchers.py:BasicTemporalMatching.combinatory_matcher"]}
{"id": "C76", "title": "Data behind a metric with the combined matcher", "statement": "With make_combined_temporal_matcher the data handed to the calculators for a result consist of exactly one row for every time of the temporal reference at which all columns of all data sets have a value, so all results use the same times. Masking works with this matcher for any number of masking data sets.", "quantifier": "all data sets, windows, columns and results", "why_tests_cant": "Composition of reading, matching and selection for every time series.", "anchors": ["src/pytesmo/validation_framework/temporal_matchers.py:make_combined_temporal_matcher", "src/pytesmo/validation_framework/validation.py:Validation.get_data_for_result_tuple", "src/pytesmo/validation_framework/validation.py:Validation.temporal_match_masking_data"]}
{"id": "C77", "title": "Results of several jobs end up at their own locations", "statement": "When the results of any number of validation jobs are stored one after the other with netcdf_results_manager in the same directory, every key of the results has exactly one file, the locations of the file are those of all jobs of the key in order, and reading a location gives back the coordinates, metrics, time stamps and time series that were stored for it; a variable a job does not have is missing at its locations.", "quantifier": "all numbers of jobs, keys and locations, all metric names and values, with and without time series", "why_tests_cant": "the alignment of a variable depends on the whole history of jobs written before it; a test fixes one history", "anchors": ["src/pytesmo/validation_framework/results_manager.py:netcdf_results_manager", "src/pytesmo/validation_framework/results_manager.py:PointDataResults.add_metrics_results", "src/pytesmo/validation_framework/results_manager.py:PointDataResults.add_result", "src/pytesmo/validation_framework/start_validation.py:start_validation"]}
{"id": "C78", "title": "Storing results leaves the results usable and can be repeated", "statement": "netcdf_results_manager does not change the dictionaries it is given, so they can be inspected or stored again; after an exception, storing the same results again gives the files that an undisturbed call would have given; giving the names of time series does not make results without time series impossible to store.", "quantifier": "all results, directories, lists of time series names and points of failure", "why_tests_cant": "ranges over every point of failure and over every earlier state of the directory", "anchors": ["src/pytesmo/validation_framework/results_manager.py:netcdf_results_manager"]}
{"id": "C79", "title": "Metrics of a data frame are the metrics of its pairs of columns", "statement": "A metric of df_metrics applied to a data frame returns one field per pair of columns (per ordered pair for the metrics that depend on the order), named after the two columns, with the value the metric has for the rows in which both columns have a value, and NaN if there is no such row; the value does not depend on the other columns nor on the order of the columns.", "quantifier": "all numbers of columns and rows, all patterns of missing values, all column names", "why_tests_cant": "ranges over all patterns of missing values and column names; tests use one complete frame with short names", "anchors": ["src/pytesmo/df_metrics.py:_wrap_metric", "src/pytesmo/df_metrics.py:nwise_apply", "src/pytesmo/df_metrics.py:_dict_to_namedtuple", "src/pytesmo/df_metrics.py:mse_decomposition"]}
{"id": "C80", "title": "with_analytical_ci returns the metric and an interval around it", "statement": "has_analytical_ci(f) is true exactly for the documented metrics with an interval, and with_analytical_ci(f, x, y, alpha) then returns the value of the metric and bounds that enclose it, wider for smaller alpha; for other metrics it raises ValueError.", "quantifier": "all metrics, given as function or name, all data and all alpha", "why_tests_cant": "the enclosure has to hold for all data, numbers of observations and alpha; tests compare a few seeds with bootstrapping", "anchors": ["src/pytesmo/metrics/confidence_intervals.py:has_analytical_ci", "src/pytesmo/metrics/confidence_intervals.py:with_analytical_ci", "src/pytesmo/metrics/pairwise.py:pearson_r_ci", "src/pytesmo/metrics/__init__.py"]}
{"id": "C81", "title": "Deprecated mse and mad are what they say", "statement": "The deprecated mse(x, y, ddof) returns the mean squared error with divisor n - ddof and its correlation, bias and variance components, the same numbers as mse_decomposition for ddof 0; mad is a median of the absolute differences.", "quantifier": "all data, all ddof", "why_tests_cant": "identities of real functions for all inputs including constant series", "anchors": ["src/pytesmo/metrics/deprecated.py:mse", "src/pytesmo/metrics/pairwise.py:mad"]}
{"id": "C82", "title": "The deprecated rolling metrics agree with the fast ones", "statement": "The deprecated rolling_pr_rmsd, which is the reference the fast version is tested against, returns for every time stamp R, p-value and RMSD of the observations in its window, NaN if there are fewer than min_periods, and so agrees with the fast version.", "quantifier": "all time stamps and data, window sizes, window types and min_periods", "why_tests_cant": "the agreement is tested for one random series with regular time stamps; ties, too few observations and unsorted time stamps are not", "anchors": ["src/pytesmo/metrics/deprecated.py:rolling_pr_rmsd", "src/pytesmo/metrics/_fast_pairwise.pyx:rolling_pr_rmsd"]}
{"id": "C83", "title": "Climatological anomalies are relative to the same day of the year", "statement": "A reader wrapped in AnomalyClimAdapter returns, in each requested column and at each time, the observation minus the climatology of that column for the day (or month) the observation belongs to; with return_clim=True a column with exactly that climatology value is added per requested column; all other columns, the index and what the next read returns are unaffected.", "quantifier": "all frames, all calendars and years, all choices of columns, all arguments of the climatology", "why_tests_cant": "Leap years, gaps, window sizes, column sets and repeated reads combine in unboundedly many ways; the tests only compare values of single columns over a few fixed years.", "anchors": ["src/pytesmo/validation_framework/adapters.py:AnomalyClimAdapter", "src/pytesmo/time_series/anomaly.py:calc_anomaly", "src/pytesmo/time_series/anomaly.py:calc_climatology"]}
{"id": "C84", "title": "An adapted reader is read like the reader it wraps, in UTC", "statement": "For any stack of adapters, read, read_ts and the method named in read_name call the wrapped reader's method of the same name with the same arguments and pass its frame (taken from the agreed attribute if the reader returns another object) through the adapters from the inside out; the grid is that of the reader; time stamps denote the same instants, in UTC and without a time zone; the reader's own data are not changed.", "quantifier": "all readers, all stacks of adapters, all method names, arguments and frames, with and without time zone", "why_tests_cant": "Stacks can be arbitrarily deep and the behaviour depends on what every adapter in the stack was told and on whether the reader hands out its own object.", "anchors": ["src/pytesmo/validation_framework/adapters.py:BasicAdapter"]}
{"id": "C85", "title": "Subsets by months and by yearless dates", "statement": "MonthsMetricsAdapter built from lists of months computes each subset's metrics from exactly the rows of its months, in every year; the default seasons put every row in exactly one season; months that do not exist are refused; the same dictionary can be used for several adapters; yearless dates may be given as YearlessDatetime or datetime objects, as documented, and select the rows of that date in every year.", "quantifier": "all dictionaries of months, all time stamps to the second of all years, all lists of yearless dates, all sequences of constructions", "why_tests_cant": "Rows of all months and years and every way to group months cannot be enumerated; the tests build one adapter from a fresh dictionary and use one kind of date.", "anchors": ["src/pytesmo/validation_framework/metric_calculators_adapters.py:MonthsMetricsAdapter", "src/pytesmo/time_series/grouping.py:TsDistributor", "src/pytesmo/time_series/grouping.py:YearlessDatetime"]}
{"id": "C86", "title": "Attributes of stored variables and search by coordinates", "statement": "After any sequence of results stored with the same dictionary of attributes, each variable has the attributes given for it and names its coordinates (idx, lat, lon, and time for a time series) unless the user named others; attributes of a variable that already exists are kept; the user's dictionary is not changed; the indices found for a longitude and latitude are exactly those of the locations stored with them.", "quantifier": "all files, all dictionaries of attributes, all sequences of calls and names, all coordinates", "why_tests_cant": "The attributes depend on which call created a variable, over all histories of calls with a shared dictionary.", "anchors": ["src/pytesmo/validation_framework/results_manager.py:PointDataResults", "src/pytesmo/validation_framework/results_manager.py:add_metrics_results", "src/pytesmo/validation_framework/results_manager.py:add_ts_results"]}
{"id": "C87", "title": "A validation of pairs, from the data as read to the result table", "statement": "Validation(...).calc with the default temporal matcher, the pairwise metrics calculator and handle_errors='ignore' returns a table for every pair of columns of different data sets. At every location where all data sets could be read, the entries of a table are those of the matched pairs: the times of the temporal reference at which both columns (and the scaling reference) have a value, every other data set taken at its nearest observation in the window. Without scaling the correlation, bias, mean squared difference and number of observations are those of these pairs. With scaling to mean and standard deviation the bias, the bias part and the variance part of the mean squared difference are zero, the correlation is that of the unscaled pairs and the mean squared difference is twice the variance of the scaling reference times one minus the correlation. Too few pairs, no common time and constant series are reported by the documented status codes.", "quantifier": "all data, all numbers of data sets and columns, all windows, all lists of locations, all options of the calculator, scaling reference inside or outside of the result", "why_tests_cant": "The property is about the composition of reading, matching, selection, scaling, renaming, calculation and table building for all data; tests compare a few stored results.", "anchors": ["src/pytesmo/validation_framework/validation.py:Validation.calc", "src/pytesmo/validation_framework/temporal_matchers.py:BasicTemporalMatching", "src/pytesmo/validation_framework/data_scalers.py:DefaultScaler", "src/pytesmo/validation_framework/metric_calculators.py:PairwiseIntercomparisonMetrics"]}
{"id": "C88", "title": "What smoothn penalises", "statement": "dctNd with inverse=True undoes dctNd and the other way round, both keep the sum of squares, and arrays with more than three dimensions raise. The roughness that smoothn penalises is the sum of squared differences of neighbours for smooth_order 1 and the sum of squared second differences (added over the axes, reflecting borders) for smooth_order 2. smoothn of a complete series, image or cube is therefore the only array with the smallest sum of squared deviations from the data plus the smoothing parameter times this roughness.", "quantifier": "all sizes of arrays with one, two or three dimensions, all data, all smoothing parameters", "why_tests_cant": "The transform, its inverse and the penalty are sums over arbitrary sizes of the axes, and optimality ranges over all other arrays.", "anchors": ["src/pytesmo/interpolate/dctpls.py:dctNd", "src/pytesmo/interpolate/dctpls.py:smoothn"]}
{"id": "C89", "title": "Time zones in temporal collocation", "statement": "temporal_collocation compares instants: with time zones on the reference, the other frame or both, the nearest match, its index and its distance are those of the instants, whatever zones they are written in, and the result is in the zone of the reference. A missing time zone is taken to be UTC, as documented. combined_temporal_collocation returns one row per reference time also for frames in different zones. The frames passed by the caller are not changed.", "quantifier": "all reference times, all frames, all time zones and offsets, all combinations of indices with and without time zone, all windows", "why_tests_cant": "Tests use a few zones; the claim ranges over all zones, changes of clocks and combinations of frames with and without zone.", "anchors": ["src/pytesmo/temporal_matching.py:temporal_collocation", "src/pytesmo/temporal_matching.py:combined_temporal_collocation"]}
{"id": "C90", "title": "Mean collocation and the type of the data", "statement": "temporal_collocation with method=\"mean\" returns, for every column and every reference time, the mean of the values of this column within the window, and a missing value if there is none (so that dropna removes times without data), whatever the types of the columns.", "quantifier": "all frames, all types of columns, all reference times, all windows", "why_tests_cant": "The result has to be the mean for all combinations of column types and data; tests use floating point columns.", "anchors": ["src/pytesmo/temporal_matching.py:temporal_collocation"]}
{"id": "C91", "title": "checkna warns exactly if no match was found", "statement": "temporal_collocation(checkna=True) warns if and only if no reference time has a match; without checkna it never warns about missing matches.", "quantifier": "all reference times, all frames and series, all windows", "why_tests_cant": "An if and only if over all data; a test shows single cases with and without warning.", "anchors": ["src/pytesmo/temporal_matching.py:temporal_collocation"]}
{"id": "C92", "title": "Interrupted storing loses nothing that was stored", "statement": "If storing of a result (PointDataResults.add_result, add_metrics_results) is interrupted at any point, every location stored before reads back exactly as before (read_loc, read_ts), and after opening the file again further results can be stored and read back as they were given.", "quantifier": "all files, all results, all points of interruption, all results stored afterwards", "why_tests_cant": "Every point of interruption of every write sequence, for every history before and after; a test interrupts at one point.", "anchors": ["src/pytesmo/validation_framework/results_manager.py:PointDataResults.add_result", "src/pytesmo/validation_framework/results_manager.py:PointDataResults.add_metrics_results", "src/pytesmo/validation_framework/results_manager.py:netcdf_results_manager"]}
{"id": "C93", "title": "Metrics do not depend on the order of the pairs and follow a change of units", "statement": "Reordering the observations changes none of bias, aad, RSS, msd, rmsd, nrmsd, ubrmsd, the MSE parts, Nash-Sutcliffe, index of agreement, the moments, Pearson's R and p-value, nor the triple collocation results. Converting both series to other units (a x + b) scales bias by a, aad/rmsd/ubrmsd by |a|, RSS/msd/MSE parts by a squared, and leaves nrmsd, Nash-Sutcliffe and index of agreement unchanged; separate offsets move only the bias; Pearson's R and p-value are unchanged under separate positive gains and R changes sign only when exactly one series is inverted. In triple collocation SNR is independent of units, beta is converted, and err_std follows the unit of the reference only.", "quantifier": "every non-empty list of pairs / every list of triples of real numbers, every permutation, every non-zero gain and every offset, every ddof", "why_tests_cant": "a relation between two runs for arbitrary data, permutations and units; the one-pass routines process the pairs in order, so each order is a different computation", "anchors": ["src/pytesmo/metrics/_fast_pairwise.pyx:_moments_welford", "src/pytesmo/metrics/pairwise.py:bias", "src/pytesmo/metrics/pairwise.py:nrmsd", "src/pytesmo/metrics/pairwise.py:index_of_agreement", "src/pytesmo/metrics/pairwise.py:nash_sutcliffe", "src/pytesmo/metrics/tcol.py:tcol_metrics"]}
{"id": "C94", "title": "Filters look only where they say, and filters, climatologies and anomalies follow a change of units", "statement": "exp_filter never uses later observations; missing observations have no influence on the other values; boxcar_filter depends only on the usable observations in its window; a shift of the time axis changes neither filter. If the data are converted to other units (a v + b, a > 0), the filtered series, the moving average and the climatology are the converted ones (also gaps, fill values and exceptions), and anomalies (from the moving average or from the converted climatology) are multiplied by a.", "quantifier": "every series of any length with gaps anywhere, every window, time constant, option of calc_climatology without standard deviation, every gain and offset; any aggregation that follows units and lower bounds (mean, median); values above the no-data value -999999 before and after the conversion", "why_tests_cant": "a relation between the runs on two arbitrary series", "anchors": ["src/pytesmo/time_series/filters.pyx:exp_filter", "src/pytesmo/time_series/filters.pyx:boxcar_filter", "src/pytesmo/time_series/filtering.py:moving_average", "src/pytesmo/time_series/anomaly.py:calc_climatology", "src/pytesmo/time_series/anomaly.py:calc_anomaly"]}
{"id": "C95", "title": "Scaling does not depend on the units of the source and gives the units of the reference", "statement": "If the source is converted to other units (a v + b, a > 0) and the reference to others (c v + d, c > 0), the scaled values are the same, expressed in the converted units of the reference: for mean_std, min_max, linreg and CDF matching (every number of bins, percentiles, combination of options, limits converted too), also where they are missing or an exception is raised; and for scale on a frame in which every column is in units of its own.", "quantifier": "all source and reference arrays of any length with missing values anywhere, all positive gains and all offsets, every frame and reference column, all CDF matching parameters", "why_tests_cant": "a relation between the runs on two arbitrary pairs of series in arbitrary units; CDF matching decides by comparisons (ties, minimum observations, beta scaling of the edges) that all have to come out the same", "anchors": ["src/pytesmo/scaling.py:scale", "src/pytesmo/scaling.py:mean_std", "src/pytesmo/scaling.py:min_max", "src/pytesmo/scaling.py:linreg", "src/pytesmo/cdf_matching.py:CDFMatching"]}
{"id": "C96", "title": "Temporal collocation depends on time differences only, copies values and ignores what is in no window", "statement": "If all time stamps are moved or expressed in another unit (and the window with them), temporal_collocation and combined_temporal_collocation return the same rows at the moved time stamps, with index_other moved and distance_other in the new unit, for all options, flags, both methods, also the same exceptions. Nearest neighbours copy values: any function applied to the data (missing stays missing) comes out as applied to the result; means follow every change of units. Observations of a sorted frame that lie in the window of no reference time can be added or removed without any effect. Collocating a result to the same reference again changes nothing (without dropna).", "quantifier": "every reference index and every frame of any size and order, every window, all options of both functions, any number of frames, every gain a > 0 and offset b of the clock, every function of the values", "why_tests_cant": "relations between runs on arbitrary data; a lookup with a cursor, an absolute time or a dependence on values would show only for particular series", "anchors": ["src/pytesmo/temporal_matching.py:temporal_collocation", "src/pytesmo/temporal_matching.py:combined_temporal_collocation", "src/pytesmo/temporal_matching.py:resample_mean"]}
{"id": "C97", "title": "A validation by triple collocation reports the gains, errors and signal-to-noise ratios of the collocated data", "statement": "Validation with make_combined_temporal_matcher and TripleCollocationMetrics(reference), called with rename_cols=False and only_with_reference=True (handle_errors='ignore'), returns one table for every sorted triple of columns of three different data sets that holds the reference. At every location where all data sets could be read, the row is determined by the times of the temporal reference at which every column of every data set has a nearest value in the window: no such time - NO_TEMP_MATCHED_DATA; fewer than min_obs - INSUFFICIENT_DATA with n_obs and empty metrics; else OK, n_obs, and for each data set the snr, err_std and beta that tcol_metrics gives when called with the reference first. If the three columns are linear in a signal with uncorrelated errors, beta is the ratio of gains to the reference, err_std the error in units of the reference, snr the true ratio in dB. Without only_with_reference and with a triple that lacks the reference, calc raises at the first location, whatever data are read.", "quantifier": "any number of data sets, columns, locations and observations, every window, any reference and temporal reference, every signal, gains, offsets and errors", "why_tests_cant": "composition of collocation, column selection, naming of data sets, order of arguments and the covariance formulas over all inputs; a wrong assignment of a metric to a data set shows only for particular names and orders", "anchors": ["src/pytesmo/validation_framework/validation.py:Validation.calc", "src/pytesmo/validation_framework/metric_calculators.py:TripleCollocationMetrics", "src/pytesmo/validation_framework/temporal_matchers.py:make_combined_temporal_matcher", "src/pytesmo/metrics/tcol.py:tcol_metrics"]}
{"id": "C98", "title": "Metrics and filters depend on the numbers, not on the element type they are stored in", "statement": "Two arrays of the same length that hold the same numbers give the same bias, RSS, msd, rmsd, nrmsd, ubrmsd, mse and its parts and aad whether they are stored as float32, float64 or integers, also when the two arrays have different types; so do the metrics of a DataFrame, the result of BasicMetrics.calc_metrics, and the filters boxcar_filter, exp_filter and moving_average. (The code meets this for two arrays of the same floating point type, for frames with at least one floating point column where the metric is taken from df.values, and for moving_average; it raises TypeError or ValueError otherwise.)", "quantifier": "all arrays of any length, all combinations of element types, every ddof, every frame and min_obs", "why_tests_cant": "tests use float64 nearly everywhere; the combinations of types times the functions that pass arrays on with or without conversion are only covered by reasoning about the dispatch", "anchors": ["src/pytesmo/metrics/_fast_pairwise.pyx:bias", "src/pytesmo/metrics/pairwise.py:rmsd", "src/pytesmo/metrics/pairwise.py:ubrmsd", "src/pytesmo/validation_framework/metric_calculators.py:BasicMetrics.calc_metrics", "src/pytesmo/time_series/filters.pyx:boxcar_filter", "src/pytesmo/time_series/filtering.py:moving_average"]}
{"id": "C99", "title": "Results of a validation do not depend on units of scaled data sets or on the clock", "statement": "A validation that scales its data sets gives the same results - all metrics, counts, return codes and exceptions, for all locations - if any data set other than the scaling reference is given in other units (any gain > 0 and any offset), and if all times are counted from another origin in another unit, with window and data on the same clock. This holds from the readers through masking, temporal matching, extraction of the columns, scaling with mean_std, min_max, cdf_match or cdf_beta_match with or without limits, to the calculators of pairs. Without scaling, results do not depend on the clock. Matched data follow the units of their data sets and the clock for both temporal matchers.", "quantifier": "every set of data sets and columns, every list of locations, every data as read (unsorted, duplicated, missing), every gain > 0 and offset per data set, every origin and unit > 0 of time, every window >= 0, every calculator that does not look at the times, both error modes", "why_tests_cant": "It relates two runs of the whole pipeline for all data, all units and all clocks; tests run one data set in one unit.", "anchors": ["src/pytesmo/validation_framework/validation.py:Validation.calc", "src/pytesmo/validation_framework/validation.py:Validation.perform_validation", "src/pytesmo/validation_framework/validation.py:Validation.mask_dataset", "src/pytesmo/validation_framework/temporal_matchers.py:BasicTemporalMatching.combinatory_matcher", "src/pytesmo/validation_framework/temporal_matchers.py:make_combined_temporal_matcher", "src/pytesmo/validation_framework/data_scalers.py:DefaultScaler.scale", "src/pytesmo/scaling.py:scale"]}
{"id": "C100", "title": "Upscaled series do not depend on units, clock or order of the points, and the stability filter looks at the slope", "statement": "The upscaled series of several points is the same series in other units if the variable of all points is given in other units (any gain other than 0, any offset), and on another clock if all times and the window are on the other clock, with and without the stability filter; also the frame of a single point, no result and every exception. It does not depend on the order of the points in the look-up table as long as all points with the most values have the same times. The number that the stability filter compares with see_max (documented as upper threshold for the standard error of estimate) is the standard error of estimate divided by the root of the summed squared deviations of the average series.", "quantifier": "every look-up table, every set of points and readers (unsorted, duplicated, missing data), every option, every gain and offset, every origin and unit > 0 of time, every order of the points, every number of observations", "why_tests_cant": "It relates runs on all data in all units and all orders of points; tests use one network in one unit and one order.", "anchors": ["src/pytesmo/validation_framework/upscaling.py:Upscaling.get_upscaled_ts", "src/pytesmo/validation_framework/upscaling.py:Upscaling.temporal_match", "src/pytesmo/validation_framework/upscaling.py:Upscaling.tstability_filter", "src/pytesmo/validation_framework/upscaling.py:Upscaling.upscale"]}
{"id": "C101", "title": "Gap filling of data in other units", "statement": "smoothn of data times a positive gain (with the initial guess and the number for gaps in the same units) returns the smoothed values times the gain, the same smoothing parameter, exit flag and final weights, and the score times the square of the gain; exceptions are the same; this holds with gaps, weights, robust weights and exclusions. Weights are relative: multiplying all of them by a positive number changes nothing. smoothn of data plus an offset (degrees Celsius and Kelvin) returns the smoothed values plus the offset.", "quantifier": "every array of one, two or three dimensions, every argument, every positive gain, every offset; for the gain any search for the smoothing parameter whose place of the minimum does not change with the scale of the score", "why_tests_cant": "A test compares one array in two units; the loops, their stopping rule and the robust weights take different paths for other arrays.", "anchors": ["src/pytesmo/interpolate/dctpls.py: smoothn", "src/pytesmo/interpolate/dctpls.py: gcv", "src/pytesmo/interpolate/dctpls.py: RobustWeights", "src/pytesmo/interpolate/dctpls.py: calc_init_guess"]}
{"id": "C102", "title": "Rolling metrics do not depend on clock, units, order of the series or observations outside the window", "statement": "rolling_pr_rmsd returns the same on another clock (time stamps and window in another time unit, with another epoch). With both series in other units R and p-value are the same and the RMSD has the size of the gain as its factor; separate units of the two series only change the sign of R, if one of them is turned over. Exchanging the two series changes nothing. A larger min_periods only turns outputs into NaN. An output of a centred window only depends on the observations in the window, and reversing time reverses the outputs; outputs of trailing windows do not depend on later observations.", "quantifier": "every series, window size and min_periods; sorted time stamps for units, exchange, centred windows and reversal, all time stamps for clock, min_periods and later observations", "why_tests_cant": "The moments are carried from window to window, so each output depends on the whole history of the loop; a test sees a few histories.", "anchors": ["src/pytesmo/metrics/_fast_pairwise.pyx: rolling_pr_rmsd", "src/pytesmo/metrics/pairwise.py: rolling_pr_rmsd"]}
{"id": "C103", "title": "Colour maps are found by their names", "statement": "load(name, folder) returns the colour map of that name: a map that is in the list of user-defined maps of the folder can be loaded under its name and what is loaded is the map of this name; other names give the map of matplotlib, and a ValueError if there is none.", "quantifier": "every content of the file system, every folder (absolute or relative), every name", "why_tests_cant": "a test uses the one map shipped with the package, whose content repeats the name of its file, in an absolute folder", "anchors": ["src/pytesmo/colormaps/load_cmap.py:get_user_colormaps", "src/pytesmo/colormaps/load_cmap.py:load_colormap", "src/pytesmo/colormaps/load_cmap.py:load"]}
{"id": "C104", "title": "Rolling metrics of a window do not depend on what was in earlier windows, with missing values and rounding", "statement": "metrics.rolling_pr_rmsd reports for each window the correlation, its p-value and the RMSD of the observations in the window. A missing value (NaN) influences the windows that contain it and no others; rounding does not make a variance or a mean square difference negative; a window in which one column is constant has no correlation (NaN), a window in which both columns are equal has RMSD 0, and an outlier that has left the window has no influence.", "quantifier": "all series with and without missing values, time stamps, window sizes, minimal numbers of observations, centred and trailing windows; all monotone roundings with bounded relative error, in particular that of double", "why_tests_cant": "The sums are updated from window to window, so an error stays in them for the rest of the series; whether a sum becomes slightly negative depends on the digits of the data.", "anchors": ["src/pytesmo/metrics/_fast_pairwise.pyx:rolling_pr_rmsd", "src/pytesmo/metrics/_fast_pairwise.pyx:_pearsonr_from_moments", "src/pytesmo/metrics/_fast_pairwise.pyx:_moments_welford"]}
{"id": "C105", "title": "Rounding errors of difference metrics and smoothing filters are bounded by the data they are computed from", "statement": "metrics.bias, RSS, msd, rmsd and aad of n pairs differ from the exact values by at most about (n + 5) units of rounding relative to the mean absolute difference (bias) or to the value itself (the others), whatever the order of numpy's additions for aad; RSS is never negative and zero only for equal series; swapping the series leaves RSS and msd unchanged to the last bit and turns the sign of the bias. Each value of boxcar_filter is the mean of the usable observations in its window up to the rounding errors of this sum, and no observation outside of the window changes a bit of it; exp_filter never moves away from the new observation, and both filters leave a constant series unchanged.", "quantifier": "all series, lengths, windows, characteristic times; all roundings with bounded relative error (monotone and exact on their own results where needed), in particular rounding to 53 binary digits; all orders of addition", "why_tests_cant": "The error bound has to hold for every combination of digits and every length; tests compare a few series with a tolerance.", "anchors": ["src/pytesmo/metrics/_fast_pairwise.pyx:bias", "src/pytesmo/metrics/_fast_pairwise.pyx:RSS", "src/pytesmo/metrics/pairwise.py:aad", "src/pytesmo/metrics/pairwise.py:msd", "src/pytesmo/metrics/pairwise.py:rmsd", "src/pytesmo/time_series/filters.pyx:boxcar_filter", "src/pytesmo/time_series/filters.pyx:exp_filter"]}
{"id": "C106", "title": "Time stamps of rolling results survive the results file", "statement": "The time stamps written with PointDataResults.add_ts_results are read back by read_ts unchanged, and in the same order.", "quantifier": "all DatetimeIndex (64 bit nanosecond time stamps), any rounding of the extended precision product in cftime with relative error at most 2^-60", "why_tests_cant": "Whether the nearest microsecond is the right one depends on the digits of the quotient by the length of a day; it must hold for every microsecond of two centuries.", "anchors": ["src/pytesmo/validation_framework/results_manager.py:PointDataResults._date2num", "src/pytesmo/validation_framework/results_manager.py:PointDataResults._num2date", "src/pytesmo/validation_framework/results_manager.py:PointDataResults.read_ts"]}
{"id": "C107", "title": "Metrics of a series and itself are exactly perfect", "statement": "For a series and itself the difference metrics (bias, RSS, msd, aad, ubrmsd, mse_bias, mse_var, mse_corr, mse) are exactly 0 and nash_sutcliffe and index_of_agreement exactly 1, also in machine arithmetic; symmetric metrics do not change when the series are exchanged.", "quantifier": "all non-empty series, all roundings with bounded relative error and rnd 1 = 1, all orders of numpy's additions", "why_tests_cant": "Rounding errors cancel or not depending on the digits of the data; tests compare with a tolerance.", "anchors": ["src/pytesmo/metrics/_fast_pairwise.pyx:mse_decomposition", "src/pytesmo/metrics/_fast_pairwise.pyx:_moments_welford", "src/pytesmo/metrics/_fast_pairwise.pyx:_ubrmsd", "src/pytesmo/metrics/pairwise.py:nash_sutcliffe", "src/pytesmo/metrics/pairwise.py:index_of_agreement"]}
{"id": "C108", "title": "Scaled data keep order and range in machine arithmetic", "statement": "scaling.min_max, mean_std and linreg_stored_params keep the order of the values in spite of rounding; after min_max the minimum and the maximum of the result are those of the reference, different values stay different, and a series scaled to itself is unchanged.", "quantifier": "all series, all monotone roundings that are exact on their own results (shown for 53 binary digits), all computed parameters", "why_tests_cant": "Whether a rounded maximum exceeds the maximum of the reference depends on the digits of the data.", "anchors": ["src/pytesmo/scaling.py:min_max", "src/pytesmo/scaling.py:mean_std", "src/pytesmo/scaling.py:linreg_stored_params"]}
{"id": "C109", "title": "Mean collocation averages exactly the observations in the window", "statement": "temporal_collocation(reference, other, window, method=\"mean\") returns for every reference time the mean of the values of all rows of other at most window away, edges included, also in machine arithmetic; the deprecated df_match accepts exactly the rows within its window.", "quantifier": "all sorted time stamps of pandas (nanoseconds, 1677 to 2262), values with gaps, windows, and all roundings with the relative error of double", "why_tests_cant": "Whether a row at the edge is used depends on the rounding of two Julian dates and of their sum with the window; a test sees a few of 2^64 time stamps, and the loss follows a pattern (every third hour) that a test with one reference time misses.", "anchors": ["src/pytesmo/temporal_matching.py:temporal_collocation", "src/pytesmo/temporal_matching.py:resample_mean", "src/pytesmo/temporal_matching.py:df_match"]}
{"id": "C110", "title": "Rolling metrics use exactly the rows of the rolling window", "statement": "RollingMetrics returns at every time stamp of the data frame the correlation, p-value and RMSD of the rows inside the window around it (centred: at most window_size away; trailing: later than the start of the window and not later than the row), also with the Julian dates and the window computed in machine arithmetic.", "quantifier": "all strictly or weakly sorted time stamps of pandas (nanoseconds, 1677 to 2262), data, window sizes, min_periods, centred or trailing windows", "why_tests_cant": "Which rows at the edge of a window are used depends on the rounding of two Julian dates and of their difference with the window; tests use daily data, for which nothing is lost.", "anchors": ["src/pytesmo/validation_framework/metric_calculators.py:RollingMetrics.calc_metrics", "src/pytesmo/metrics/_fast_pairwise.pyx:rolling_pr_rmsd"]}
{"id": "C111", "title": "Pairwise metrics are consistent with each other as stored", "statement": "For all data of a validation the results of PairwiseIntercomparisonMetrics, computed in machine arithmetic and stored in single precision, are consistent: mse, its three components, RSS, RMSD and urmsd are numbers (never NaN) and not negative, no component exceeds mse, urmsd does not exceed RMSD, R is between -1 and 1 and NaN exactly for constant series, the components add up to mse, RSS is n_obs times mse, RMSD the root of mse, urmsd the root of mse_corr + mse_var (up to rounding), and BIAS lies in its confidence interval.", "quantifier": "all series of machine numbers of any length (double or float data), all roundings with the properties of IEEE 754 rounding to nearest, all square roots with bounded error", "why_tests_cant": "Square roots of rounded differences give NaN only for particular data (here: three of ten series that differ by a constant); a test compares a few series with a tolerance.", "anchors": ["src/pytesmo/validation_framework/metric_calculators.py:PairwiseMetricsMixin._calc_pairwise_metrics", "src/pytesmo/validation_framework/metric_calculators.py:PairwiseIntercomparisonMetrics.calc_metrics", "src/pytesmo/validation_framework/metric_calculators.py:_get_metric_template", "src/pytesmo/metrics/pairwise.py:_bias_ci_from_moments", "src/pytesmo/metrics/_fast_pairwise.pyx:_moments_welford"]}
{"id": "C112", "title": "moving_average averages exactly the values inside its window", "statement": "moving_average(Ser, window_size) of a series with a DatetimeIndex returns for each time stamp the mean of the valid values at most half a window away, edges included (NaN if there are fewer than min_obs, or if the value itself is missing and fillna is not set).", "quantifier": "all sorted time stamps of pandas, values with gaps, window sizes, fillna and min_obs, all roundings with the properties of double and float, all Julian dates with a bounded error", "why_tests_cant": "Whether a value at the edge is used depends on dropped fractions of seconds, rounded Julian dates and a window that is rounded to single precision; tests use daily data and windows of whole days, for which nothing is lost.", "anchors": ["src/pytesmo/time_series/filtering.py:moving_average", "src/pytesmo/time_series/filters.pyx:boxcar_filter"]}
{"id": "C113", "title": "Scaling in steps and scaling twice", "statement": "Data scaled to a reference are not changed by scaling them to the same reference with the same method again (single arrays, and the frames of scale). A linear scaling (mean_std, min_max, linreg) to any other reference beforehand does not change the result of the last scaling step.", "quantifier": "all sources (with NaN, constant, empty), all intermediate and final references, all methods, all frames and reference columns", "why_tests_cant": "An equation between two computations for all data; it holds for almost all test data and fails for constant references, falling relations and non-linear matching.", "anchors": ["src/pytesmo/scaling.py:mean_std", "src/pytesmo/scaling.py:min_max", "src/pytesmo/scaling.py:linreg", "src/pytesmo/scaling.py:cdf_match", "src/pytesmo/scaling.py:scale"]}
{"id": "C114", "title": "Results of a pair do not depend on the other data sets", "statement": "In a validation of pairs, the status, the number of observations and the metrics of a pair at a location depend only on the data of the two columns, of the temporal reference and of the scaling reference, and on the settings of the pair. Adding, removing or reordering other data sets (that can be read) does not change them.", "quantifier": "all pairs of validations with the same data for the pair, any number and content of other data sets, any locations, any pair of columns, with and without scaling to mean and standard deviation", "why_tests_cant": "A relation between two runs over all possible further data sets; tests compare a run with stored results only.", "anchors": ["src/pytesmo/validation_framework/validation.py:Validation.perform_validation", "src/pytesmo/validation_framework/validation.py:Validation.temporal_match_datasets", "src/pytesmo/validation_framework/temporal_matchers.py:BasicTemporalMatching.combinatory_matcher", "src/pytesmo/validation_framework/temporal_matchers.py:make_combined_temporal_matcher", "src/pytesmo/validation_framework/metric_calculators.py:PairwiseIntercomparisonMetrics.calc_metrics"]}
{"id": "C115", "title": "Triple collocation of a data frame is reported under the names of its columns", "statement": "tcol_error(df) and tcol_metrics(df, ref_ind) return one tuple for every three numeric columns of the frame (that contain the reference, if one is given), whatever the columns are called and whatever other columns the frame has; the field with the name of a column holds the estimates of this column from the rows in which the three have values. ref_ind is the number of a column of the frame.", "quantifier": "all frames: any number, order, names and types of columns, any number of rows, all ref_ind", "why_tests_cant": "Tests use one frame with short lower-case names, numeric columns and the first column as reference.", "anchors": ["src/pytesmo/df_metrics.py:tcol_error", "src/pytesmo/df_metrics.py:tcol_metrics", "src/pytesmo/df_metrics.py:tcol_snr", "src/pytesmo/df_metrics.py:nwise_apply"]}
{"id": "C116", "title": "SNR, error and scaling coefficient of triple collocation belong together", "statement": "For each data set tcol_metrics reports a signal-to-noise ratio and an error standard deviation that belong to the same decomposition: the SNR is 10 log10 of signal variance over error variance, the squared error standard deviation (before scaling) is the error variance, and both variances are not negative and add up to the variance of the data set. If there is no such decomposition (uncorrelated or constant data sets, negative variances, fewer than two observations) neither is a finite number.", "quantifier": "all triples of series of any length, also constant, uncorrelated and anticorrelated ones, all reference indices, all three data sets", "why_tests_cant": "Tests use simulated data that fulfil the error model; the cases in which the formulas divide by zero or take roots of negative numbers are reached by real data only.", "anchors": ["src/pytesmo/metrics/tcol.py:tcol_metrics", "src/pytesmo/metrics/tcol.py:_tcol_metrics_from_cov"]}
{"id": "C117", "title": "YearlessDatetime objects are ordered, comparable and convertible", "statement": "Dates without a year are totally ordered by their place in the (leap) year, consistently with ==; a date that no year has is refused by every comparison; to_datetime(years) gives the date in exactly the years that have it, always as the same kind of object; from_datetime followed by to_datetime of the same year gives the time back; the text form identifies the date.", "quantifier": "all integer months, days, hours, minutes and seconds, all lists of years", "why_tests_cant": "All pairs and triples of dates, all lists of years, dates outside of the calendar.", "anchors": ["src/pytesmo/time_series/grouping.py:YearlessDatetime"]}
{"id": "C118", "title": "Accuracy of variances, covariance, correlation and ubRMSD", "statement": "The means, variances, covariance, ubRMSD and Pearson R computed by the fast routines in floating point are close to the textbook values: the error grows at most with the number of values times the rounding unit times the square of the largest value (relative to the variance for R), whatever the values.", "quantifier": "all series of any length up to the inverse of the rounding unit, all values, any rounding with a relative error bound", "why_tests_cant": "Errors depend on all values and their order; a few data sets say nothing about the worst case.", "anchors": ["src/pytesmo/metrics/_fast_pairwise.pyx:_moments_welford", "src/pytesmo/metrics/_fast_pairwise.pyx:_pearsonr_from_moments", "src/pytesmo/metrics/_fast_pairwise.pyx:_ubrmsd"]}
{"id": "C119", "title": "Accuracy of the exponential filter", "statement": "exp_filter, which keeps its weights and gain in single precision, returns for every series the exponentially weighted mean of the usable observations up to a relative error of a few millionths of the largest value, however long the series is; the error only depends on the shortest time step in units of ctime.", "quantifier": "all series of any length with increasing times and any missing values, all ctime > 0, any rounding with the relative error of double and single precision, any exponential accurate to one unit in the last place", "why_tests_cant": "The filter is recursive: errors of all earlier steps enter each result, and only an argument over all lengths shows that they do not pile up.", "anchors": ["src/pytesmo/time_series/filters.pyx:exp_filter"]}
{"id": "C120", "title": "Percentiles of CDF matching are sorted in floating point", "statement": "The percentile values CDF matching computes in double precision are sorted and lie within the range of the data for every data set, so that fitting never fails because of rounding.", "quantifier": "all sorted data sets (any values, ties, any length up to 2^40), default number of bins, whole-number percentiles, and other numbers of bins", "why_tests_cant": "Failure needs a coincidence of a rounded level, a rounded rank and tied data; random tests do not hit it, and absence of it for all lengths is an arithmetic statement.", "anchors": ["src/pytesmo/cdf_matching.py:_matlab_percentile_values_from_sorted", "src/pytesmo/cdf_matching.py:_unique_percentile_interpolation", "src/pytesmo/cdf_matching.py:CDFMatching._calc_percentiles"]}
{"id": "C121", "title": "What start_validation leaves behind", "statement": "start_validation stores the results of all jobs in their order, prints each job once with the number of remaining jobs, and clears the engines at the end; when a job fails in all attempts or a result cannot be stored, exactly the results of the jobs before it are stored; a missing variable in the setup code is reported and nothing is calculated.", "quantifier": "all lists of jobs, all orders of completion, all patterns of failing attempts and failing writes, defined or missing variables", "why_tests_cant": "The outcome depends on the schedule of the engines and on which attempt of which job fails.", "anchors": ["src/pytesmo/validation_framework/start_validation.py:start_validation"]}
{"id": "C122", "title": "CDF matching of data in single precision", "statement": "Matching data stored in single precision gives the same result as matching the same numbers stored in double precision, up to rounding: a nondecreasing function that maps the smallest and largest source value to the smallest and largest reference value, and the identity for a data set matched against itself. (The code stores the percentiles in the type of the source; when two of them become equal by that, every value of the result is NaN.)", "quantifier": "all data sets, numbers of bins, minobs, roundings that keep the order; all inputs of predict", "why_tests_cant": "Tests use double precision; whether stored percentiles coincide depends on the data and the number of bins.", "anchors": ["src/pytesmo/cdf_matching.py:CDFMatching.fit", "src/pytesmo/cdf_matching.py:CDFMatching.predict", "src/pytesmo/scaling.py:cdf_match"]}
{"id": "C123", "title": "minobs of CDF matching is respected", "statement": "CDF matching with a minimum number of observations `minobs` uses the largest number of equal bins, at most `nbins` and at least one, that leaves `minobs` samples for each bin; the fitted percentile arrays contain one value more than there are bins, in both data sets, followed by NaN. Percentile levels given by the user are kept exactly if each of their bins leaves room for `minobs` samples. Every bin of the fitted percentiles then holds at least `minobs` observations of the source and of the reference. A fit fails (IndexError) exactly if the source or the reference has no valid value.", "quantifier": "all source and reference data of any length, with NaN, all numbers of bins and minima, all percentile levels", "why_tests_cant": "The number of bins depends on the number of samples, bins and the minimum together, and whether a bin is filled depends on every value; tests check single data sets with one setting.", "anchors": ["src/pytesmo/cdf_matching.py:CDFMatching._calc_percentiles", "src/pytesmo/cdf_matching.py:CDFMatching.fit", "src/pytesmo/cdf_matching.py:_matlab_percentile_values_from_sorted", "src/pytesmo/cdf_matching.py:_unique_percentile_interpolation"]}
{"id": "C124", "title": "Splitting the locations into jobs does not change the stored results", "statement": "However the locations of a validation are split into jobs, in whatever order the jobs complete and whichever attempts fail on the way, start_validation with all jobs finally successful returns without an exception and leaves one netCDF file per expected result, whose locations are those of all jobs in order; what is read back for a location is exactly what Validation.calc returns for this location alone, so two runs that split the locations differently hold the same values for every location.", "quantifier": "all validations whose calculators return one value per field, all lists of jobs (also empty ones), all completion orders, all patterns of attempts that fail fewer than three times, all result keys with distinct file names, all locations and fields", "why_tests_cant": "The number of splittings and completion orders is unbounded; a test compares a few splittings of one small data set.", "anchors": ["src/pytesmo/validation_framework/start_validation.py:start_validation", "src/pytesmo/validation_framework/start_validation.py:func", "src/pytesmo/validation_framework/validation.py:Validation.calc", "src/pytesmo/validation_framework/results_manager.py:netcdf_results_manager", "src/pytesmo/validation_framework/results_manager.py:build_filename"]}
{"id": "C125", "title": "Accuracy of triple collocation in floating point", "statement": "tcol_metrics in floating point arithmetic: whatever the order in which numpy adds, with or without fused multiply-add, every entry of the covariance matrix differs from the exact sample covariance by at most 112 (n + 2) rounding units times the square of the largest value, and the scaling coefficients, error variances and error standard deviations differ from the exact ones by an explicit multiple of rounding units as long as the covariances between the data sets are well away from zero; data without errors give an error of 0.", "quantifier": "all triples of series of any length n ≥ 2 with n u ≤ 1/5, all orders of summation, all roundings with relative error at most u, all references and data sets", "why_tests_cant": "Rounding errors depend on the data and on the order of the additions; a test sees one series on one machine.", "anchors": ["src/pytesmo/metrics/tcol.py:tcol_metrics", "src/pytesmo/metrics/tcol.py:_tcol_metrics_from_cov"]}
{"id": "C126", "title": "Accuracy of the linear scaling methods in floating point", "statement": "In floating point arithmetic min_max is off by at most 7 rounding units of the range of the reference plus one of its largest value, however close to each other the source values are; scaling with stored regression parameters is off by the errors of one product and one sum; mean_std, whatever the order in which numpy adds, returns numbers that are off by at most 56 (n + 5) u (B / s) (1 + |z|) C for source values up to B with standard deviation s, reference values up to C and the standardised value z, provided that 32 (n + 5) u (B / s) is at most 1. A constant source gives NaN for mean_std.", "quantifier": "all source and reference series of any length, all orders of summation, all roundings with relative error at most u, all square roots with relative error at most u", "why_tests_cant": "Rounding errors depend on the data and on the order of the additions; tests compare a few series with a tolerance.", "anchors": ["src/pytesmo/scaling.py:min_max", "src/pytesmo/scaling.py:linreg_stored_params", "src/pytesmo/scaling.py:mean_std"]}
{"id": "C127", "title": "Accuracy of scaling by linear regression in floating point", "statement": "Scaling with linreg in floating point arithmetic, whatever the order in which numpy adds, returns values that differ from |slope| x + intercept of the exact least squares line by at most 10 e (C + |slope| B), where e = 58 (n + 2) u B^2 / v for n pairs with source values up to B, reference values up to C and a source variance of at least v, provided that 4 e is at most 1; slope and intercept are as accurate, and a slope larger than its error bound has the right sign. Without a lower bound of the variance the slope may be wrong by half of its value for two pairs.", "quantifier": "all series of pairs of any length, all orders of summation, all roundings with relative error at most u, matrix products with or without fused operations", "why_tests_cant": "The error grows with the ratio of the values and their spread and depends on the order of the additions; tests compare a few series with a tolerance.", "anchors": ["src/pytesmo/scaling.py:linreg", "src/pytesmo/scaling.py:linreg_params", "src/pytesmo/scaling.py:linreg_stored_params"]}
{"id": "C128", "title": "Accuracy of the signal-to-noise ratio of triple collocation in floating point", "statement": "The signal-to-noise ratio that tcol_metrics returns in floating point arithmetic, whatever the order in which numpy adds, differs from the exact one (in dB) by at most 1620 (n + 2) u r^4 divided by the noise-to-signal ratio, plus 25 rounding units and 3 relative rounding units, where r = 8 B^2 / t for values up to B and covariances between data sets of at least t, provided that the noise-to-signal ratio is at least 540 (n + 2) u r^4 and 150 (n + 2) u r^2 is at most 1. Data without errors give an infinite ratio.", "quantifier": "all triples of series of any length n >= 2, all orders of summation, all roundings and logarithms with relative error at most u, all data sets", "why_tests_cant": "The error grows without bound as the noise vanishes, and depends on the data and the order of the additions.", "anchors": ["src/pytesmo/metrics/tcol.py:tcol_metrics", "src/pytesmo/metrics/tcol.py:_tcol_metrics_from_cov"]}
{"id": "C129", "title": "Accuracy of the MSE decomposition in floating point", "statement": "mse_decomposition(x, y) in floating point, n pairs of values of at most B, unit of rounding u: the total is never more than 287 (n + 2) u B^2 below the mean squared difference, and never more than that above it if the returned correlation component is positive, however small the variances are. If the standard deviations are at least s, the total is within 360 (n + 2) u B^3 / s in any case, and the components for correlation, bias and variance are within 420 (n + 2) u B^3 / s, 46 (n + 2) u B^2 and 300 (n + 2) u B^3 / s of their definitions. Variances are never negative, so that no component is NaN.", "quantifier": "every number of pairs, all finite values, every rounding with relative error u and every square root with that error, 55 (n + 2) u <= 1", "why_tests_cant": "Tests compare with a tolerance for a few random series; the bound has to hold for every series, in particular for those with small variance around a large mean.", "anchors": ["src/pytesmo/metrics/_fast_pairwise.pyx:mse_decomposition", "src/pytesmo/metrics/_fast_pairwise.pyx:_mse_corr_from_moments", "src/pytesmo/metrics/_fast_pairwise.pyx:_mse_var_from_moments", "src/pytesmo/metrics/_fast_pairwise.pyx:_mse_bias_from_moments", "src/pytesmo/metrics/_fast_pairwise.pyx:_moments_welford"]}
{"id": "C130", "title": "Accuracy and range of efficiency and index of agreement in floating point", "statement": "index_of_agreement(o, p) and nash_sutcliffe(o, p) in floating point, n pairs, observations of at most B with standard deviation at least s, unit of rounding u: both are numbers, and their distance from 1 has a relative error of at most 6 (n + 3) u + 2 (5 (n + 1) u B / s)^2 for the efficiency and 6 (n + 5) u + 30 (n + 1) u B / s for the index, plus one rounding of the result. Whatever the variance, a value of the index of agreement is in its documented range 0 to 1, and the efficiency of constant observations is not a finite number (its variance is 0).", "quantifier": "every number of pairs with 40 (n + 6) u <= 1, all finite values, every order of summation, every rounding with relative error u", "why_tests_cant": "Tests compare a few series with a tolerance; values outside of the range and efficiencies of constant series appear for particular values only.", "anchors": ["src/pytesmo/metrics/pairwise.py:index_of_agreement", "src/pytesmo/metrics/pairwise.py:nash_sutcliffe", "src/pytesmo/metrics/_fast_pairwise.pyx:RSS"]}
{"id": "C131", "title": "CDF matching of integer data", "statement": "scaling.cdf_match and CDFMatching give the same mapping for an array of integers as for the same numbers in floating point, up to the fraction that an integer cannot hold: the result is a nondecreasing function of the source, and a result exists whenever one exists for floating point numbers.", "quantifier": "all integer sources and floating point references, all numbers of bins and minobs, all limits, every number that the platform stores for NaN in an integer array", "why_tests_cant": "Tests use floating point data; whether the result is usable depends on the number of observations, the number of bins and ties after cutting fractions.", "anchors": ["src/pytesmo/cdf_matching.py:CDFMatching.fit", "src/pytesmo/cdf_matching.py:CDFMatching.predict", "src/pytesmo/scaling.py:cdf_match"]}
{"id": "C132", "title": "Compiled routines stay inside of the arrays they are given", "statement": "The compiled metrics (bias, RSS, mse_corr, mse_var, mse_decomposition, ubrmsd and what is built on them), the rolling metrics and the boxcar and exponential filters never read or write memory outside of their arguments and results: for arrays of equal length, and for other calls either as well or with an exception.", "quantifier": "all lengths of the arrays, all values, all time stamps in any order, all window sizes, centred or not", "why_tests_cant": "The routines are compiled without bounds checks, so an access outside of an array usually goes unnoticed and gives a number; which indices are used depends on all time stamps and the window through two cursors.", "anchors": ["src/pytesmo/metrics/_fast_pairwise.pyx:bias", "src/pytesmo/metrics/_fast_pairwise.pyx:RSS", "src/pytesmo/metrics/_fast_pairwise.pyx:_moments_welford", "src/pytesmo/metrics/_fast_pairwise.pyx:_ubrmsd", "src/pytesmo/metrics/_fast_pairwise.pyx:rolling_pr_rmsd", "src/pytesmo/time_series/filters.pyx:boxcar_filter", "src/pytesmo/time_series/filters.pyx:exp_filter"]}
{"id": "C133", "title": "Accuracy of anomalies from a moving average in floating point", "statement": "calc_anomaly without climatology (and AnomalyAdapter) returns for every observation, in double precision, the value minus the mean of the values inside the window around it, up to a bound given by the number and the mean magnitude of these values; observations without value have no anomaly, all others have one; the anomalies of a constant series are zero.", "quantifier": "all sorted series with missing values, all window sizes, every rounding with a bounded relative error; exactly the rows of the window for daily data and windows of whole days", "why_tests_cant": "Tests compare a few series with a tolerance; the bound has to hold for every length of the window and every magnitude of the data, and which rows are in the window depends on rounded dates.", "anchors": ["src/pytesmo/time_series/anomaly.py:calc_anomaly", "src/pytesmo/time_series/filtering.py:moving_average", "src/pytesmo/validation_framework/adapters.py:AnomalyAdapter"]}
{"id": "C134", "title": "Series of different lengths are refused", "statement": "A pairwise metric of two series of different lengths raises an error instead of returning a number (a single value may stand for a constant series); for equal lengths it is the metric of the pairs.", "quantifier": "all pairs of series of all lengths, all metrics of pytesmo.metrics.pairwise that are not plain calls of SciPy, all ddof", "why_tests_cant": "Whether a call is refused depends on both lengths and on the order in which NumPy and compiled code look at the arrays; what happens behind the end of an array differs from run to run.", "anchors": ["src/pytesmo/metrics/pairwise.py:aad", "src/pytesmo/metrics/pairwise.py:mad", "src/pytesmo/metrics/pairwise.py:nash_sutcliffe", "src/pytesmo/metrics/pairwise.py:index_of_agreement", "src/pytesmo/metrics/pairwise.py:bias_ci", "src/pytesmo/metrics/pairwise.py:msd", "src/pytesmo/metrics/pairwise.py:rmsd", "src/pytesmo/metrics/pairwise.py:nrmsd", "src/pytesmo/metrics/pairwise.py:ubrmsd"]}
{"id": "C135", "title": "What extended collocation estimates, and its relation to triple collocation", "statement": "For any data (not only data that follow the error model) ecol returns as signal variance of a data set the mean of the triple collocation estimates over all triplets without declared pairs, as error variance the rest of its variance, and as error covariance of a declared pair the covariance without the mean estimate of the common signal; error correlations belong to the returned variances and covariances; for three data sets it is equivalent to tcol_metrics.", "quantifier": "any number of data sets, all covariance matrices without zeros, all sets of declared pairs that can be identified, with and without known error covariance and abs_est", "why_tests_cant": "Tests use simulated data that follow the model; the claim is an identity for the least squares solution of a system whose size depends on the number of data sets and pairs, and it has to hold for estimates of any sign.", "anchors": ["src/pytesmo/metrics/tcol.py:ecol", "src/pytesmo/metrics/tcol.py:check_if_biased", "src/pytesmo/metrics/tcol.py:tcol_metrics"]}
{"id": "C136", "title": "Extended collocation reports a number wherever the data determine one", "statement": "ecol returns finite signal and error variances for every data set whose estimators do not divide by zero; a covariance of zero (for example of a data set that does not vary) affects only the results of the data sets it belongs to. The signal-to-noise ratio is finite exactly if signal and error variance have the same sign, the error correlation exactly if the two error variances have.", "quantifier": "all data frames with any number of data sets and rows (also none or one), all lists of declared pairs that can be identified, all known error covariances, both settings of abs_est", "why_tests_cant": "the results are one least-squares product over all estimators, so it has to be known for all sets of estimators which results depend on which; random test data never have a covariance of exactly zero", "anchors": ["src/pytesmo/metrics/tcol.py:ecol"]}
{"id": "C137", "title": "Adapters around adapters compose: masks are conjoined, in any order", "statement": "Reading through several masking adapters around each other returns exactly the rows that satisfy all the filters, as one AdvancedMaskingAdapter with all the filters does; the order of adapters and filters does not matter, and filters may be divided among adapters. Reading raises exactly if one of the filters cannot be used. Masking by a column and adding a combined column under another name can be exchanged.", "quantifier": "all data frames, all lists of filters of any length, all permutations and divisions of them, all functions of ColumnCombineAdapter", "why_tests_cant": "the number, order and nesting of adapters is unbounded; the tests use single adapters", "anchors": ["src/pytesmo/validation_framework/adapters.py:SelfMaskingAdapter", "src/pytesmo/validation_framework/adapters.py:AdvancedMaskingAdapter", "src/pytesmo/validation_framework/adapters.py:ColumnCombineAdapter", "src/pytesmo/validation_framework/adapters.py:AnomalyAdapter"]}
{"id": "C138", "title": "Upscaled averages are accurate, inside the range of the points and independent of their order, in floating point", "statement": "At every time the upscaled value is the mean of the available point values up to a relative error of a few units in the last place per point, it lies between the smallest and the largest of them, and it does not depend on the order of the points in the look-up table.", "quantifier": "all numbers of points, all values and gaps, all orders of the points and of the additions, every rounding with the relative error of the type", "why_tests_cant": "The order in which pandas adds depends on the memory layout and the number of columns, and the rounding errors depend on all values.", "anchors": ["src/pytesmo/validation_framework/upscaling.py:Upscaling._average", "src/pytesmo/validation_framework/upscaling.py:Upscaling.upscale"]}
{"id": "C139", "title": "A value that is no number never turns into a metric that is one", "statement": "If one of the two series contains NaN or an infinite value, no pairwise metric (bias, MSD, RMSD, nRMSD, ubRMSD, AAD, the decomposition of the MSE, Nash-Sutcliffe efficiency, index of agreement, Pearson's R with its p-value) is a finite number, also in the results of the metrics calculators, which remove NaN but keep infinite values. Without such values and without overflow the metrics are those of the numbers.", "quantifier": "all pairs of series of all lengths with values that are finite, infinite or NaN in any place, every rounding with overflow and underflow of any kind, all orders of additions", "why_tests_cant": "Whether NaN survives depends on every branch, minimum and maximum that it meets in compiled code and on the place of the value in a running update; tests use finite data.", "anchors": ["src/pytesmo/metrics/_fast_pairwise.pyx:_moments_welford", "src/pytesmo/metrics/_fast_pairwise.pyx:_pearsonr_from_moments", "src/pytesmo/metrics/_fast_pairwise.pyx:_mse_corr_from_moments", "src/pytesmo/metrics/_fast_pairwise.pyx:_ubrmsd", "src/pytesmo/metrics/pairwise.py:nash_sutcliffe", "src/pytesmo/validation_framework/metric_calculators.py:PairwiseMetricsMixin._calc_pairwise_metrics"]}
{"id": "C140", "title": "An infinite observation affects smoothed values only as far as its window or weight reaches", "statement": "A result of boxcar_filter with an infinite observation in its window is never a number; every other result is what it is without the infinite observations. In exp_filter results before an infinite observation are what they are without it, and its influence ends when its weight has decayed.", "quantifier": "all series with values that are finite, infinite or NaN and dates in order, all windows, minimal numbers of observations, fill values, every rounding with overflow, all weights", "why_tests_cant": "A running update can keep an infinite value for ever and a stopped loop can miss one; only a statement over all positions and later data shows that nothing is kept or lost.", "anchors": ["src/pytesmo/time_series/filters.pyx:boxcar_filter", "src/pytesmo/time_series/filters.pyx:exp_filter"]}
{"id": "C141", "title": "Results of a metrics calculator belong to their owner", "statement": "A result returned by a metrics calculator consists of arrays of its own: calling a calculator again, calling other calculators built from the same metadata template, failing calls, and changing a returned result never change another result, a later result, or the arrays of the user. Every field of a result holds the value that was stored under its name.", "quantifier": "all templates, all histories of calls (of any number of calculators that may share arrays of the user, failing ones included) and of changes to returned results", "why_tests_cant": "Sharing shows only in histories: a test looks at one result right after its call.", "anchors": ["src/pytesmo/validation_framework/metric_calculators.py:MetadataMetrics.__init__", "src/pytesmo/validation_framework/metric_calculators.py:MetadataMetrics.calc_metrics", "src/pytesmo/validation_framework/metric_calculators.py:TripleCollocationMetrics.calc_metrics"]}
{"id": "C142", "title": "Values that are not finite in scaling methods", "statement": "If the source or the reference of mean_std or linreg scaling has a value that is not finite, every scaled value is NaN, for linreg also everything scaled later with the stored parameters; min_max scaling gives no number then (NaN or infinite). Scaling with stored finite parameters affects only the value itself. For finite values the results are those of the documented formulas.", "quantifier": "all series of numbers, infinities and NaN in any positions, all orders of additions, roundings and overflows", "why_tests_cant": "Whether a value that is not finite shows in the result or silently changes the other values depends on its sign, the position and the formula; tests use finite values or single NaN.", "anchors": ["src/pytesmo/scaling.py:min_max", "src/pytesmo/scaling.py:mean_std", "src/pytesmo/scaling.py:linreg_stored_params", "src/pytesmo/scaling.py:linreg"]}
{"id": "C143", "title": "Values that are not finite in triple collocation", "statement": "If any of the three series of tcol_metrics has a value that is not finite, all signal-to-noise ratios and error standard deviations are NaN, and so are the scaling coefficients except that of the reference, which is always 1. Results that are numbers therefore never come from series with missing or infinite values; for numbers they are those of the documented formulas.", "quantifier": "all series of numbers, infinities and NaN of any length, all orders of additions, roundings and overflows, all references", "why_tests_cant": "An infinite value passes dropna, and x / inf = 0 can hide it in a ratio; only for all positions and data is it settled that it always shows.", "anchors": ["src/pytesmo/metrics/tcol.py:tcol_metrics", "src/pytesmo/metrics/tcol.py:_tcol_metrics_from_cov"]}
{"id": "C144", "title": "Options of a ColumnCombineAdapter", "statement": "Every ColumnCombineAdapter combines the columns of each row (axis 1), an adapter built without options is not affected by anything the program does later, and building an adapter changes no dictionary of the program; an adapter keeps the options it was built with.", "quantifier": "all programs that make dictionaries, assign to them and build adapters with or without shared dictionaries, in any order", "why_tests_cant": "Sharing of a dictionary between the program and adapters shows only in particular histories of constructions and assignments.", "anchors": ["src/pytesmo/validation_framework/adapters.py:ColumnCombineAdapter"]}
{"id": "C145", "title": "Rolling metrics after values that are not finite", "statement": "The rolling correlation and RMSD of a window are determined by the observations in the window: infinite values and overflow in earlier observations do not affect later windows that do not contain them, and with finite numbers and no overflow the results are those of finite arithmetic.", "quantifier": "all sorted time stamps, data with finite, infinite and NaN values, roundings, window lengths, centred and trailing windows", "why_tests_cant": "The running sums carry the history of all earlier windows; whether a value that has left the window still has an effect depends on the whole history and on the arithmetic.", "anchors": ["src/pytesmo/metrics/_fast_pairwise.pyx:rolling_pr_rmsd", "src/pytesmo/metrics/_fast_pairwise.pyx:_pearsonr_from_moments"]}
