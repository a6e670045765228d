# Formal model of pytesmo in Lean 4

This document says what is modelled, how each property of `properties.jsonl`
is proved, and what the proofs rest on. It is kept in step with the Lean
sources under `lean/Verif`.

## 1. Conventions

* Every definition that models code carries a comment with the file and lines
  of `/repo` it models and states every simplification. Definitions of a model
  are in `Model.lean` of an area and in files named after the part of the code
  (`Init.lean`, `Jobs.lean`, `Manager.lean`, ...).
* Specifications are in `Spec.lean` of an area, or under the heading
  "Specification" at the end of the model file. They are written without the
  functions they specify. They do share *data types* with the model, and in
  four places small naming functions that are part of the interface: the name of
  a column or variable (`varName`, `dataForKey`), the selection of columns
  (`onlyColumns`) and the arguments of `smoothn` (`Env`, `Args`). What these
  functions do is the subject of separate theorems.
* `Lemmas.lean` holds helper lemmas. `Props.lean` and `*Props.lean` hold the
  property theorems (their comment starts with the number of the property), each
  accompanied by an `example` or a theorem about a concrete, non-trivial case
  that meets the hypotheses.
* Numbers. Code arithmetic on float64 is modelled by exact arithmetic in an
  arbitrary linearly ordered field `K` (or in `ℝ` where a square root, an
  exponential or a logarithm occurs). Rounding is modelled in C104 to C112 and in the
  properties listed in section 5, infinities and overflow in C116, C139, C140, C142
  and C143; signed zeros are **not** modelled. `NaN` is `Option.none` (or a separate constructor).
* Time stamps are elements of a linear order / ordered field (or integers where
  the code works with ns, s or days).
* Exceptions are values (`Except` / `Option`), loops are folds or structural
  recursion, dictionaries are association lists in insertion order. Objects
  that are changed in place are state that is passed on and returned.
* Where the code violates the property, the property's negation is proved with
  a concrete witness, a `_partial` theorem (or a theorem with the needed
  hypothesis) keeps what does hold, and the disagreement is listed in section 4.
* The theorems are tested against wrong programs: `seeded/LOG.jsonl` has one
  line per edit of a definition with the theorems that fail because of it.

## 2. Trusted base

* Lean 4.33.0's kernel. Axioms used by the theorems: at most `propext`,
  `Classical.choice` and `Quot.sound` (Lean's standard ones). No own axioms, no
  `sorry`, no `native_decide`, no `bv_decide`.
* Faithfulness of the hand-written model to the Python/Cython text. The code is
  not executed here.
* Assumed behaviour of third-party calls. They are either parameters of the
  model (theorems hold for every value of the parameter, or for those with the
  stated property), or written out in the model as documented:

| area | third-party behaviour | treatment |
|------|-----------------------|-----------|
| Resample, Filters, Rolling, Moments | C arithmetic of Cython, typed memory views | written out, exact arithmetic |
| Memory (C132) | memory views compiled with `boundscheck=False, wraparound=False` | an access outside of an array is a failure of the run; `range` over C integers without overflow |
| Rolling.Float (C104) | IEEE double arithmetic, rounding after every operation; `min`/`max` of Cython with NaN; `sqrt`, `betainc` | rounding: any function, or to 53 binary digits without limits for the exponent; `min`/`max` as in the generated C file; `sqrt` (NaN below 0) and `betainc` parameters |
| Julian dates (C109, C110) | `DatetimeIndex.to_julian_date` of pandas | its formula for the time of the day with a rounding after every operation; the day number of the date is right and exact; pandas and numpy convert nanoseconds of a time difference to `double` before dividing |
| Julian dates (C112) | `julday` of cadati | a function of the whole seconds with a bounded error; exact at midnight (`moving_average_daily`) |
| Rounding (C105, C107, C108) | IEEE arithmetic of the pairwise metrics, the scaling functions and the smoothing filters; numpy's order of additions; C `float` variables; `exp` | rounding: any function with the bound of its relative error, shown for 53 binary digits without limits for the exponent; order of additions: any tree; `exp`: any nonnegative function |
| Results.Times (C106) | `date2num`, `num2date` of cftime | correctly rounded quotient of time differences; product with relative error at most 2^-60, nearest microsecond; no calendar |
| Collocation, Matchers | pandas `reindex(method="nearest", tolerance)`, `Index.duplicated`, `combine_first`, `dropna`, stable `sort_index`, `loc` with repeated labels; numpy in-place casting of time differences | written out |
| Collocation.Tz, Collocation.Options (C89-C91) | pandas `tz_localize`, `tz_convert`, `to_julian_date` (from local fields); table of time zones; numpy casting of floats stored in integer and boolean arrays; `Series.apply`/`DataFrame.apply` of `np.all` | zones: parameter; the rest written out, the integer stored for NaN is a parameter |
| Cdf.Integers (C131) | numpy casting of floats and NaN stored in integer arrays (`np.full`, `np.full_like`, assignment) | written out, the integer stored for NaN is a parameter |
| Results.Crash (C92) | netCDF4: a write to a variable happens completely or not at all, closing the file after an exception keeps the writes before it; fill values of `_row_size` count as 0 | an exception between two writes; a killed process, a full disk or a partly written array is not modelled |
| Calculators.Heap (C141) | `copy.deepcopy` of a dictionary of numpy arrays; `dict.update`; identity of arrays | one copy for each different array; arrays have one element |
| Pairwise.Infinite (C139) | IEEE arithmetic with infinities and NaN; comparisons with NaN are false; `min`/`max` of Cython; `np.max`, `np.median` with NaN | written out; stored results of finite operations: any function |
| Scaling.Infinite (C142) | `np.min`, `np.max`, `np.mean`, `np.std` with infinities and NaN | written out as folds; any order of additions |
| Tcol.Infinite (C143) | `np.cov` with infinities and NaN; `np.log10` of 0, infinities and NaN | written out; any order of additions, fused products not modelled |
| Adapters.Options (C144) | Python dictionaries: identity, assignment of entries | memory as a list; the program copies no references among its own names |
| Rolling.Infinite (C145) | IEEE arithmetic with infinities and NaN, as C139; the p-value (`betainc`) | as C139; the p-value is a function of R and the number of observations |
| Pairwise | scipy `pearsonr`, `spearmanr`, `kendalltau` | first written out; ranks: parameters |
| Pairwise (C50, C80) | quantile functions `norm.ppf`, `t.ppf`, `chi2.ppf` | parameters, monotone where stated |
| Pairwise (C81), Rolling (C82) | numpy `std`, `median`, `corrcoef` | written out |
| Tcol, DfMetrics | numpy `cov`, `logical_and` with `out` argument, `namedtuple` rules for names | written out |
| Ecol | `lstsq` returns a least squares solution; it raises `LinAlgError` for NaN; pandas copy semantics of the input frame | parameter with this property |
| Bootstrap | `scipy.stats.norm`, random resampling, numpy quantile by linear interpolation | resamples arbitrary; quantile written out |
| Scaling, Scalers, Cdf | `linregress`, `nanpercentile`/`nanquantile`, `betainc`, `InterpolatedUnivariateSpline` (order 1), optimisers of the beta fit | written out except the beta distribution and its fit (parameters) |
| Climatology, Adapters.Clim | `cadati` day of year and leap years, pandas `groupby(...).agg`, reindexing | written out |
| Grouping | `DatetimeIndex` comparison and slicing, `datetime` validity | written out |
| Adapters | pandas column assignment, comparison operators, `tz_convert`, `apply(np.all)` on a frame without columns | written out; comparison operators are parameters |
| DataManager, Validation | readers, grids (`find_nearest_gpi`, `calc_lut`, `get_cells`, `grid_points_for_cell`), string bounds of pandas slices | parameters; slices written out |
| Validation | metrics calculators, scalers, temporal matchers, masking operators | parameters; in `EndToEnd.lean` the matchers of `Verif.Matchers` |
| Results | `netCDF4` variables with unlimited dimensions, `pynetcf` index counting, file closed by `with` after an exception | written out |
| Calculators | scipy statistics, bootstrap, triple collocation, scaling inside calculators, float32 conversion | parameters; rounding ignored |
| DfMatch | KD-tree query (`pykdtree`/scipy), ties | parameter returning some nearest neighbour |
| Upscaling, Utils | `scipy.stats.linregress` (parameter in the model, written out in `Upscaling/Regression.lean`), numpy `nanmean`, `sort`, `unique`, `diff` | written out |
| Smoothn | the orthonormal cosine transform and its inverse, `distance_transform_edt`, `fminbound` | parameters; transform assumed linear, orthonormal, inverse to each other (`IsDct`). For arrays of one to three dimensions this is proved (C88) from the formulas in the documentation of `scipy.fftpack.dct`/`idct` (type 2, `norm='ortho'`), which stay trusted; the rounding of `ceil(n * 0.1)` is left out |
| Validation.Jobs (C40) | IPython `map_async` returns each result once, in any order | parameter: a permutation |

* Module map: `Resample`, `Collocation` = `temporal_matching.py`; `Filters`,
  `Rolling`, `Moments`, `Memory` = the Cython files; `Pairwise`, `Tcol`, `Ecol`,
  `Bootstrap` = `metrics/`; `DfMetrics` = `df_metrics.py`; `Scaling`, `Cdf` =
  `scaling.py`, `cdf_matching.py`; `Scalers` = `data_scalers.py`; `Climatology`,
  `Grouping` = `time_series/`; `Smoothn` = `interpolate/dctpls.py`; `Utils` =
  `utils.py`; `DfMatch` = the deprecated functions of `temporal_matching.py`; `DataManager`, `Validation`,
  `Matchers`, `Results`, `Adapters`, `Calculators`, `Upscaling` = the modules of
  `validation_framework/`.

## 3. Plan per property

| id | model | proof idea |
|----|-------|-----------|
| C01 | `resample_mean` two-cursor loop | loop invariant: cursors equal the counts of times below/above the window; sorted inputs; negation for unsorted targets |
| C02 | `temporal_collocation(nearest)`: dedupe, pandas reindex-nearest with tolerance, errors for non-monotonic index | minimality of the pad/backfill choice |
| C03 | flag handling incl. length check and `combine_first` | case analysis on top of C02 |
| C04 | `index_other` / `distance_other` columns | C02 corollary |
| C05 | `combined_temporal_collocation` | row-wise characterisation, dropna filters |
| C06 | `boxcar_filter` double loop with `break` | loop = filter on sorted stamps |
| C07 | `exp_filter` gain recursion over ℝ | induction: 1/gain = sum of weights |
| C08 | `rolling_pr_rmsd` two cursors and add/remove moment updates | invariant: running moments are those of the current window |
| C09 | `_moments_welford`, `_moments_welford_nd` | induction on length |
| C10, C11 | `_fast_pairwise.pyx` and `pairwise.py` metrics over ℝ | algebra on moments, Cauchy-Schwarz |
| C12 | `nash_sutcliffe`, `index_of_agreement` | sums of squares |
| C13 | `_tcol_metrics_from_cov` | field algebra |
| C14 | `ecol` design matrix | rows of A satisfy A x = y; normal equations |
| C15 | `nwise_apply` with in-place `out` argument of `logical_and` | n=2 correct, n=3 negation |
| C16 | `_to_df` | size ≤ 3 correct, size 4 negation |
| C17 | `tcol_metrics(df)`, `n_combinations` | ref 0 correct, negation for ref 1 of 4 columns |
| C18 | bootstrap CI formulas, quantile interpolation | monotonicity of quantiles; BCa negation |
| C19 | `mean_std`, `min_max`, `linreg` | algebra |
| C20 | `scale`, `add_scaled` | list lemmas |
| C21 | `_unique_percentile_interpolation` | induction over runs of ties |
| C22 | `CDFMatching.predict` piecewise linear part | interpolation lemmas |
| C23, C24 | `calc_climatology`, `calc_anomaly` | length and circular index lemmas |
| C25, C26 | `grouping.py` | calendar arithmetic on integers; negation for wrap-around ranges |
| C27 | `get_result_names` | membership characterisation, nodup |
| C28 | `DataManager.get_data`, `get_other_data` | decision logic |
| C29-C31 | `Validation.calc`/`perform_validation` with failing stages as oracles | induction over locations |
| C32 | `mask_dataset` | negation (identity test against `False`), partial |
| C33 | `PointDataResults` as file-state machine | refinement on ordered histories, negations |
| C34 | `build_filename` | length and injectivity analysis |
| C35, C36 | adapters | filter lemmas, offset arithmetic, negations |
| C37 | upscaling | mean bounds |
| C38 | `args_to_iterable` | decision logic |
| C39 | parameter store | history induction |
| C40 | worker function, result collection | permutation invariance |
| C41 | FTMetrics counts | partition count |
| C42 | subset adapters | filter characterisation |
| C43 | `pearsonr_recursive` | induction over chunks |
| C44 | not expressible: the conversions are imported from the package cadati and not part of the repository | |
| C45, C46, C60 | `interp_uniq` with bounded rounds, `array_dropna`, `ensure_iterable` | invariant of ascending arrays, measure of the number of repeated values; negations |
| C47, C63-C68 | `dctpls.py`: `smoothn` with `gcv`, `RobustWeights`, `calc_init_guess` on flattened real arrays; cosine transform, distance transform and `fminbound` as parameters; `Lambda` for all shapes | loop invariants; non-interference; convexity of the objective and normal equations; negations |
| C69-C71 | `data_manager.py`: constructor with defaults, look-up tables, reading methods; period bounds of `read_ds`; grids and readers as parameters | refinement to a specification per data set; rebuild law; negations |
| C72-C74 | `validation.py`: constructor, masking data manager, `get_processing_jobs` | decision logic; partition of the grid points; negations |
| C75, C76 | composition of `Verif.Validation` with the temporal matchers of `Verif.Matchers` | refinement to nearest observations in the data as read; negations |
| C77, C78 | `Results/Manager.lean`, `ManagerProps.lean`, `ManagerTs.lean` | `netcdf_results_manager` as a function of the directory (files by name) and the dictionaries, exceptions as values next to the state they leave; jobs in sequence. Invariant per key: the columns are the concatenated batches. Induction over results and jobs. With time series by refinement to the history of `add_result` calls of C33. |
| C79 | `DfMetrics/Wrap.lean`, `WrapProps.lean` | `_wrap_metric` over `nwise_apply` (C58 model), `_dict_to_namedtuple` with the field name rules of `namedtuple`, the metrics with their behaviour on empty arrays. Result compared with the pairs of values of the common rows, for every pair of columns. |
| C80 | `Pairwise/Analytical.lean`, `AnalyticalProps.lean` | The module `pairwise` as a list of attributes; dispatch by name; correlation intervals over extended numbers (NaN, infinities). Enclosure and nesting from the theorems of C50. |
| C81 | `Pairwise/Deprecated.lean`, `DeprecatedProps.lean` | `mse` with numpy std and scipy `pearsonr` written out, compared with the decomposition of C10; `mad` by sorting, compared with the set of all medians. |
| C82 | `Rolling/Old.lean`, `OldProps.lean` | Boolean window, slice from first to last position, numpy `corrcoef`; equal to the window specification of C08 for sorted time stamps. |
| C83 | `Adapters/Clim.lean`, `ClimProps.lean` | The loop of `AnomalyClimAdapter` on top of the models of `calc_climatology` and `calc_anomaly`, with dates as julian date plus year, month, day. Induction over the columns; composition with the circular-mean theorem of C23; day-of-year arithmetic. |
| C84 | `Adapters/Basic.lean`, `BasicProps.lean` | `BasicAdapter` with stacks of adapters; readers are partial maps from method names to functions; indices with and without time zone. Induction over the stack. |
| C85 | `Grouping/Months.lean`, `MonthsProps.lean` | The constructor of `MonthsMetricsAdapter` as a loop that replaces the entries of the dictionary of the caller; yearless dates as a sum type. Induction over the dictionary; composition with the theorem on selected rows of C42. |
| C86 | `Results/Attrs.lean`, `AttrsProps.lean` | The attributes of a file and the dictionary of the user as one state; invariant over all sequences of calls. Search for locations composed with the invariant of C33. |
| C87 | `Validation/Pair.lean`, `PairLemmas.lean`, `PairProps.lean`, `Values.lean` | A `Validation` built from the models of the parts (default matcher, `DefaultScaler`, pairwise calculator) with conversions between their representations of frames. Composition of the theorems of the parts; affine invariance of the correlation. |
| C88 | `Smoothn/Dct.lean`, `DctProps.lean` | `dctNd` for one, two and three dimensions and the environment it gives `smoothn`. Cosine sums by telescoping give an orthonormal matrix; rows are eigenvectors of the second difference with reflecting borders; Kronecker products for several axes; summation by parts for order 1. |
| C89 | `Collocation/Tz.lean`, `TzProps.lean` | Frames with an optional time zone over an arbitrary table of zones (local time of an instant, partial instant of a local time). Refinement: after the preparation of the indices the call is the one without zones on the instants that are meant; negations by examples with fixed offsets and with a change of clocks. |
| C90 | `Collocation/Options.lean` | The array of means has the type of the first column: storing in integer and boolean arrays on top of the mean branch. |
| C91 | `Collocation/Options.lean` | The test behind the warning, for frames (by column) and series (by element), from the specification of nearest collocation (C01). |
| C92 | `Results/Crash.lean`, `CrashProps.lean`, `CrashStore.lean` | `add_result` and `add_metrics_results` as sequences of single writes (proved to give the model of C33 when all are carried out), cut off after any number. Frame: an invariant kept by every write. Recovery: an invariant on which storing can go on, then induction over the later records. |
| C93 | `Pairwise/Invariance.lean`, `Tcol/Invariance.lean`, `Calculators/Order.lean` | Permutation: every loop is first brought to a sum (C09, C12), sums are invariant under `List.Perm`. Units: the moments of `a x + b`, `c y + d` in terms of those of `x`, `y`, then each metric. |
| C94 | `Filters/Relations.lean`, `Climatology/Relations.lean` | Simulation: the loops on the converted, shifted or extended series are in a state that corresponds to that on the original one. Locality of the boxcar filter from C06. The climatology stage by stage (smoothing, grouping, wrapping, leap day, fill value). |
| C95 | `Scaling/Units.lean`, `Cdf/Units.lean` | Every stage (percentiles, unique bins, edge scaling, interpolation, extrapolation) commutes with increasing affine maps; `scale` column by column. `linreg`: the line in other units in closed form, negation by two points. |
| C96 | `Collocation/Relations.lean` | Every stage (dropping duplicates, pad and backfill neighbours, flags, cursors of the window means, concatenation) commutes with the change of clock and values. Locality from the characterisation of nearest neighbours in C02. |
| C97 | `Validation/Triple.lean`, `Validation/TripleProps.lean` | Models of C01-C03, C29-C32, C55/C56 and C13 composed: the row of every location is rewritten to the values of the columns at the common times by the refinement of C29 (fields may depend on the result key), the calculator by C56, the covariances by C13. |
| C98 | `Dtypes/Model.lean`, `Dtypes/Props.lean` | Arrays carry a type; the dispatch of functions with fused types is modelled (type of the first argument chooses, the second must agree); metrics, calculators and filters are rewritten to the untyped models of C07-C12, C29, C21/C22 or to the exception, by cases on the types. |
| C99 | `Collocation/FrameUnits.lean`, `Matchers/Units.lean`, `Validation/Units.lean`, `Validation/UnitsProps.lean` | Two runs related step by step: collocation, both matchers (induction over the combinations), extraction of columns, masking, scaling (C95), and the loops over names, calculators and locations commute with a change of units per data set and of the clock. |
| C100 | `Upscaling/Units.lean`, `Upscaling/Order.lean`, `Upscaling/Regression.lean` | Every step of `get_upscaled_ts` commutes with units and clock (through C96). For the order: closed form of the matched frame as times and list of series, every later step is a filter of that list by a property of the series, so a permutation of the points permutes the list. `linregress` written out over the reals; smallest sum of squared residuals by completing the square. |
| C101 | `Smoothn/Units.lean`, `Smoothn/UnitsDct.lean` | Simulation: every step of the loops commutes with the gain (linearity of the transform from its isometry, medians and norms are homogeneous, the tolerance is a ratio). Offset: constants only have the coefficient with eigenvalue zero, which the filter keeps; one round commutes, so equal numbers of rounds give equal results; the stopping rule does not commute (witness). |
| C102 | `Rolling/Units.lean` | Clock, `min_periods` and later observations by simulation of the loop, for all time stamps; the other parts through C08 (outputs are functions of the window) and the behaviour of correlation and mean squared difference under units, exchange and permutation. |
| C103 | `Colormaps/Model.lean`, `Props.lean` | the file system is a list of files by absolute path with a working directory, paths are absolute or relative lists of names; `get_user_colormaps`, `load_colormap` and `load` are modelled, what `load` gives in an absolute folder is characterised outright; negations by concrete folders |
| C104 | `Rolling/Float.lean`, `FloatExact.lean`, `FloatProps.lean`, `FloatRounding.lean` | the rolling metrics once more, with NaN and with a rounding function after each operation; without rounding and NaN refined to the metrics of each window (invariant over the rounds); NaN stays in the sums (invariant, for all data and roundings); the sums keep their sign while observations are only added (for every monotone rounding with bounded relative error, which is proved for rounding to 53 binary digits); negations by concrete machine numbers |
| C105 | `Rounding/Basic.lean`, `Metrics.lean`, `MetricsProps.lean`, `Filters.lean`, `FiltersProps.lean` | difference metrics and smoothing filters with a rounding after each operation; error bounds of sums by induction over the list or the tree of additions; specification: textbook formulas on exact numbers, exact mean of the values in the window; bit-exact statements (symmetry, zero, locality, constants) separately; negation by a concrete constant series |
| C106 | `Results/Times.lean`, `TimesProps.lean` | time stamps as integers, rounding to 53 binary digits; bound of the absolute error below 2^16 days, then the nearest integer is the original; order by monotonicity; negations by concrete time stamps |
| C107 | `Rounding/Perfect.lean`, `PerfectProps.lean` | moments, MSE components, ubRMSD, Nash-Sutcliffe and index of agreement with rounding; for equal columns the two halves of the computation agree bit by bit (invariant of the loop), so differences are exactly 0; bound of `mse_corr`; negations by concrete machine numbers |
| C108 | `Rounding/Scaling.lean`, `ScalingProps.lean` | scaling functions with rounding; order by monotonicity of every step, range from minimum and maximum; negations by concrete machine numbers |
| C109 | `Collocation/Julian.lean`, `JulianProps.lean` | Julian dates of pandas and `resample_mean` with rounding; errors of each step added up, monotone because a nanosecond is more than the error; the cursors as in C01; for windows of whole days the rounding commutes with the shift by whole days (same binade), so no edge is lost; negation by concrete machine numbers |
| C110 | `Rolling/Julian.lean`, `JulianProps.lean` | `RollingMetrics.calc_metrics` from time stamps to rows: the bounds of each round are those of a set of rows given by the comparisons of the machine (induction over the rounds, monotone rounding); the set is compared with the window with the errors of C109; sums exact; negation by concrete machine numbers |
| C111 | `Rounding/Single.lean`, `Stored.lean`, `StoredProps.lean` | `calc_metrics` of the pairwise calculators with the roundings of data, `double` and float32; variances of Welford's loop are not negative because the new mean lies between the old one and the new value (invariant of the loop); the rest by monotone, idempotent rounding and error bounds; rounding to 24 digits and a square root of `double` defined and shown to meet the hypotheses; negations by concrete machine numbers |
| C112 | `Rounding/Moving.lean`, `MovingProps.lean` | `moving_average` from time stamps: the set of rows of the boxcar filter (C105) compared with the window, errors of seconds, Julian dates and window added up; for midnights and whole days every operation is exact; negation by concrete machine numbers |
| C113 | `Scaling/Twice.lean` | each linear method is a change of units with a positive gain, so C95 applies; frames by induction over the columns; negations for all constant references, falling and flat regressions, and a concrete one for CDF matching |
| C114 | `Validation/Others.lean` | C87 (the whole validation of a pair) applied to both runs; the matched times are permutations of each other and the values agree, so scaling and metrics agree by their independence of the order (C35); negation with a concrete third data set for the combined matcher |
| C115 | `DfMetrics/Frame.lean`, `DfMetrics/FrameProps.lean` | `nwise_apply` on the numeric columns evaluated by C15, naming of the tuples by induction over the triples; membership of the result characterised by triples of columns; negations for all frames with an illegal name or a reference beyond the numeric columns, and a concrete frame with a text column |
| C116 | `Tcol/Ieee.lean`, `Tcol/IeeeProps.lean` | the formulas over reals with infinities and NaN, evaluated by cases on the signs of the implied variances; refinement to the model of C13; negations for all data of each case, each with an instance |
| C117 | `Grouping/Yearless.lean`, `Grouping/YearlessProps.lean` | `YearlessDatetime` as an object with unchecked integer fields: comparisons through `datetime` objects of the year 2400, equality of the dataclass, `to_datetime`, `from_datetime`, `__repr__` (grouping.py:159-230). `doy` of cadati is a parameter with the hypothesis that it counts the days of a leap year. Order, trichotomy and transitivity by arithmetic on the fields; conversion by induction over the years; the order is the one of the keys in `Grouping/Model.lean`. |
| C118 | `Rounding/Accuracy.lean` | The models with rounding of `_moments_welford`, `_ubrmsd` and `_pearsonr_from_moments` (`Rounding/Perfect.lean`, `Rounding/Stored.lean`) against the textbook moments of `Moments/Spec.lean`. Invariant of the loop: distance of the rounded state from the exact state (`Close`), induction over the list; R by the effect of relative errors on quotient and root, the clipping to [-1, 1] does not increase the distance. |
| C119 | `Rounding/ExpAccuracy.lean` | `exp_filter` with rounding (`Rounding/Filters.lean`) against the closed form of C07. The reciprocal of the gain satisfies a contracting recursion (w' = 1 + e w), so its relative error stays below a fixed bound; with that the error of the filtered value contracts too. Induction over the list for both. |
| C120 | `Rounding/Percentiles.lean`, `Rounding/Binned.lean` | ranks and `np.interp` with a rounding after each operation. An interpolated value can only exceed the next knot if the level lies within a few rounding units before a rank; whole numbers never do (distance of fractions with denominator n), neither do the 101 default levels (three of them lie below a whole number; arithmetic of their distances). `Rounding/Binned.lean`: any number of bins with at least ten values each (`minobs` ≥ 10), because two doubles differ by a relative 2^-53 at least and the rank concerned is then at least the tenth; the number of bins follows `_calc_percentiles` with all roundings. Negation by a concrete data set with 22 bins. |
| C121 | `Validation/Start.lean` | `start_validation` as a whole on top of the asynchronous map of C40: variables of the setup code as options, a write returns the store and an optional exception (it may write a part), printed lines and clearing of the engines as outputs. Induction over the jobs before the first failure, for every order of completion. |
| C122 | `Cdf/Stored.lean` | `fit` and `predict` of C22 with a rounding where values are stored in arrays of the type of the source. Order and end points by monotonicity of the rounding and the lemmas of C22; the prediction is NaN exactly if stored percentiles coincide; negation for all fits with coinciding percentiles and by a concrete pair of neighbouring single precision numbers. |
| C123 | `Cdf/Bins.lean` | number of bins in closed form from `_calc_percentiles`; fitted arrays by cases of `fit`; for distinct data the percentile function is strictly monotone and hits the data at the ranks, so the ranks between two levels are counted; negation with tied data |
| C124 | `Validation/Split.lean` | The composition of `calcAll` (C29), `start` (C121) and `storeJobs` (C77). Induction over the jobs locates every location of all jobs in the batches of a key; the entry of a location in the table of its job is that of `calc` for the location alone (`Alone`). C77 is strengthened to file names that are distinct only for the keys that occur (`results_of_jobs_on_partial`), so that `build_filename` with clean names (C34) is an instance. |
| C125 | `Rounding/Triple.lean` | `np.cov` and `_tcol_metrics_from_cov` with a rounding after each operation; sums are arbitrary binary trees of additions, products rounded or exact (fused). Bounds by the error of sums (`tree_err`), of deviations and products (C118), of a quotient with a denominator away from zero. SNR (logarithm), overflow and underflow not modelled. |
| C126 | `Rounding/ScalingAccuracy.lean` | `min_max`, stored regression parameters and `mean_std` with `np.mean`, `np.std` computed in any order of additions; two-pass standard deviation: relative error of each square and of the sum of nonnegative terms, and the identity mean squared deviation from m' = variance + (mean - m')², so the error does not depend on how small the deviation is; negation in double precision by evaluation. |
| C127 | `Rounding/Linreg.lean`: `linreg` with the formulas of `linregress` and `np.cov`, a rounding after every operation, sums in any order | errors of means, covariances, quotient and line added up; concrete witness in double precision for a source with a large offset |
| C128 | `Rounding/Snr.lean`: SNR of `_tcol_metrics_from_cov` with a rounding after every operation and a logarithm with relative error | error of the covariance ratio, then of the logarithm of a number whose relative error is at most 1/2; concrete witness for series without errors |
| C129 | `Rounding/Decomposition.lean` | Model of `mse_decomposition` with a rounding after each operation (`Rounding/Perfect.lean`) compared with mean squared difference, standard deviations, covariance and means. The roots cancel in the sum of the components for correlation and variance, so the sum is as accurate as the variances; single components by the error of roots of numbers at least s². |
| C130 | `Rounding/Efficiency.lean` | Models of `index_of_agreement` and `nash_sutcliffe` with a rounding after each operation (`Rounding/Perfect.lean`) compared with mean squared difference over variance or over potential error. The denominators are taken around the computed mean: its distance from the mean enters squared for the efficiency, linearly for the index. Range and undefined values: counterexamples in double precision. |
| C131 | `Cdf/Integers.lean` | `fit` and `predict` on arrays of integers: conversion of percentiles, padding and predictions to integers on top of the model of C22, with the integer for NaN as a parameter. Unused bins leave two equal entries, so the spline is never built; with all bins in use the conversion is monotone. |
| C132 | `Memory/Model.lean`, `Props.lean` | the compiled routines with integer indices and every access explicit, an access outside of an array ends the run; refined to the models of C06 to C11 by induction over the rounds. For the centred rolling window the invariant is that the upper cursor is never behind the observation, and is at it only if the next one is out of reach. |
| C133 | `Rounding/Anomaly.lean` | the rounded difference of the series and the moving average of C112; the error of the average is carried through the difference. |
| C134 | `Memory/Lengths.lean` | broadcasting of NumPy as a function of two lists, the compiled `RSS` of C132; case distinction on the lengths, equality with the models of `Pairwise`; negations |
| C135 | `Ecol/Estimates.lean` | the normal equations of the model of C14 are solved by explicit means over triplets and bridges (as finite sets); comparison with the model of `tcol_metrics` with special values (C116); negations |
| C136 | `Ecol/Finite.lean` | `ecol` with NaN and infinities (`none`): covariances of fewer than two rows, divisions by zero, logarithm and root outside of their domain; every entry of the solution is a sum over all entries of `y`. Refinement to the model of C135 when all is finite, propagation otherwise. |
| C137 | `Adapters/Chain.lean` | Nested `SelfMaskingAdapter`s as recursion over the filters, on the model of C35. Both kinds of masks are filters by a conjunction (induction over the filters); permutation, division and exchange with a new column follow for all frames. Rows without values and anomalies around masks: negations. |
| C138 | `Rounding/Upscaled.lean` | `df.mean(axis=1)` with a rounding after every operation, missing values added as 0, the additions in the order of any tree. Error of a sum (`tree_err`) and of a quotient against the mean of C37; range and order as corollaries. Exact range and order: negations with doubles. |
| C139 | `Pairwise/Infinite.lean` | The pairwise metrics over numbers that are finite, infinite or NaN; finite results are stored by an arbitrary function (rounding, overflow). Values that are no numbers spread through sums (induction over folds and trees) and through Welford's update (invariants: NaN variance, covariance and mean no number). `min` and `max` as in the generated C file. Refinement to C105 and C107 without overflow; the correlation is a negation for all such data. |
| C140 | `Filters/Infinite.lean` | Both filters with the numbers of C139. Boxcar: time differences grow in both directions (monotone rounding), so the loops stop behind the window; refinement to C105 on the series without infinite values. Exponential filter: simulation of C105 up to the infinite value, then induction: the state is no number any more (negation for all data). |
| C141 | `Calculators/Heap.lean` | Memory as a list of array elements, dictionaries of addresses, `copy.deepcopy` with its memo, stores and rebindings as arbitrary operations. Refinement of histories to dictionaries of values (invariant: results have arrays of their own behind those that existed before). Negations for shared arrays (all results) and kept arrays. |
| C142 | `Scaling/Infinite.lean` | `min_max`, `mean_std`, `linreg` and `linreg_stored_params` with the numbers of C139. Values that are no numbers reach the extremes (induction over the fold) or the mean and spread; negation for positive infinite values in the source of `min_max` (all such data); refinement to C108 and C127 for numbers. |
| C143 | `Tcol/Infinite.lean` | `np.cov` and `_tcol_metrics_from_cov` with the numbers of C139. The sum of a series with an infinite value is that infinity or NaN (induction over the order of additions), so the deviation of that value is NaN, and with it the covariances and all results; refinement to C125 and C128 for numbers. |
| C144 | `Adapters/Options.lean` | Dictionaries in memory, programs as lists of statements. Invariants over all programs (addresses exist, names differ, adapters use axis 1); negations for shared dictionaries. |
| C145 | `Rolling/Infinite.lean` | The rolling sums with numbers that are finite, infinite or NaN and any storage of finite results (rounding, overflow). Invariants over the rounds, indexed by the number of observations added; finite numbers refined to the model of C104 by simulation. |
| C48, C61 | `combinatory_matcher`, `make_combined_temporal_matcher` on the model of C02-C05 | refinement to a join specification `IsJoin` |
| C49, C62 | `df_match`, `matching`; nearest neighbour search as parameter | argmin lemmas, permutation lemmas; negations |
| C50 | CI formulas with abstract quantile functions | monotonicity |
| C51 | `n_combinations` | membership characterisation by induction |
| C52 | `get_data_for_result_tuple`, `k_datasets_from`, scaling and renaming | case analysis; negations |
| C53 | `AnomalyAdapter`, `ColumnCombineAdapter` on a frame the reader keeps | column-wise description of one read, iteration for several; negations |
| C54 | result dictionaries of all metrics calculators, `MetadataMetrics`, threshold `min_obs`, status | description `Reports` of a result (location, metadata, status, values, nothing else); invariant of assignments to a template |
| C55 | `PairwiseIntercomparisonMetrics` with `PairwiseMetricsMixin`; scipy and bootstrap as parameters | equality with the metric functions via the moments (C09, C10) |
| C56 | `TripleCollocationMetrics`; `tcol_metrics` as parameter, its symmetry proved for the model of C13 | positions of names, permutation of columns |
| C57 | `IntercomparisonMetrics`, `TCMetrics` with `str.split` and `str.join` on characters | splitting undoes joining for names free of the separator; negations |
| C58 | `HSAF_Metrics` | entries per season; negation for the pair metrics |
| C59 | `get_dataset_names` on the model of `get_result_names` | equality with the first result name; negation |

## 4. Findings (code disagrees with the property)

Each entry names the property, the disagreement and the theorem that proves it
about the model.

| property | disagreement | theorem |
|----------|--------------|---------|
| C01 | `resample_mean` never moves its cursors back: wrong for unsorted target times | `Resample.resampleMean_unsorted_targets_wrong` |
| C03 | a flag array must have the length of the reference, so a flag for `other` of another length is rejected | `Collocation.flag_column_of_other_rejected` |
| C03 | `method='mean'` together with a flag always raises | `Collocation.mean_flagged_fails` |
| C06 | `boxcar_filter` stops at the first observation beyond the window: wrong for unsorted time stamps | `Filters.boxcar_filter_unsorted_wrong` |
| C08 | trailing `rolling_pr_rmsd` misses later observations with an equal time stamp | `Rolling.rolling_trailing_ties_wrong` |
| C09 | diagonal of `_moments_welford_nd` is not the variance ([0, 2] gives 1/2) | `Moments.moments_nd_diagonal_wrong` |
| C13 | scaled error standard deviation is negative for gains of opposite sign | `Tcol.tcol_negative_std` |
| C14 | `ecol` removes incomplete rows from the caller's frame | `Ecol.ecol_mutates_input` |
| C50 | `ubrmsd_ci` does not enclose the estimate for large alpha | `Pairwise.ubrmsd_ci_misses_estimate` |
| C15 | `nwise_apply(n=3)`: the third mask is passed as `out` argument of `np.logical_and`; NaN of the third column reach the metric | `DfMetrics.nwise_triples_third_mask_ignored` |
| C15 | same cause: the overwritten mask removes rows from other combinations | `DfMetrics.nwise_triples_other_column` |
| C15 | n = 1 and n >= 4 always raise TypeError | `DfMetrics.nwise_other_sizes_raise` |
| C16 | `_to_df(comm=True)` permutes the lower triangle for every K >= 4 | `DfMetrics.to_df_lower_triangle_wrong` |
| C17 | `tcol_metrics(df, ref_ind)` uses `ref_ind` as position in the triple, not as column | `DfMetrics.tcol_df_wrong_reference`, `tcol_df_wrong_reference_beta` |
| C17 | `ref_ind >= 3` raises IndexError | `DfMetrics.tcol_df_large_reference` |
| C17 | `tcol_snr(df, ref_ind)` ignores `ref_ind` | `DfMetrics.tcol_snr_ignores_reference` |
| C17 | a triple without common rows raises TypeError | `DfMetrics.tcol_df_no_rows` |
| C51 | `must_include=0` is ignored | `DfMetrics.n_combinations_zero_ignored` |
| C18 | BCa uses alpha instead of alpha/2 for its normal quantiles: with zero corrections it is the percentile interval of 2 alpha | `Bootstrap.bca_is_percentile_of_twice_alpha`, `bca_not_percentile` |
| C18 | BCa raises if the estimate is not strictly inside the bootstrapped values or all jackknife values agree | `Bootstrap.bca_raises` |
| C18 | jackknife values of integer data are truncated (`np.empty_like(x)`) | `Bootstrap.jackknife_int_truncates` |
| C18 | BCa for triple collocation mixes the jackknife values of the three data sets | `Bootstrap.tcol_bca_mixes_data_sets` |
| C19 | `linreg` multiplies by `np.abs(slope)`: not the least squares line for a negatively related source | `Scaling.linreg_negative_slope_wrong` |
| C19 | `mean_std` and `min_max` of a constant source give NaN, `linreg` raises | `Scaling.mean_std_constant`, `min_max_constant`, `linreg_raises` |
| C21 | percentile levels given as Python list raise TypeError as soon as percentiles are tied | `Cdf.unique_percentiles_list_raises` |
| C22 | a single bin with linear edge scaling (default arguments, fewer than 40 samples) fits a regression line; it reverses the order of a negatively related source | `Cdf.cdf_match_reverses_order` |
| C23 | a wrapped climatology with a smoothing window of 0 or of more than 366 (12) units raises ValueError | `Climatology.climatology_window_raises` |
| C23 | leap day interpolation with the standard deviation column averages over both columns | `Climatology.leapday_std_mixed` |
| C24 | default arguments of `calc_climatology` (all years are leap years) and `calc_anomaly` (leap years respected) disagree: from March of ordinary years on, the climatology of the day before is subtracted | `Climatology.anomaly_defaults_shifted` |
| C25 | a yearless range that crosses New Year misses its part after New Year in the first year of the index (and in every year after a year without data) | `Grouping.yearless_first_year_missed`, `yearless_ranges_partial` |
| C25 | the yearless range 29 February to 29 February selects almost a whole year from March of ordinary years on | `Grouping.leap_day_range_wrong` |
| C26 | the documented bins `[0, 11, 21]` raise: ValueError for bin starts (day 0), IndexError for bin ends | `Grouping.documented_bins_raise` |
| C26 | with `start=True`, days before the first bin are labelled with the start of the last bin | `Grouping.label_before_first_bin_wraps` |
| C42 | month subsets end at 23:59:59, so time stamps in the last second of a month are in no subset | `Grouping.months_last_second_missed` |
| C28 | A reader that returns `None` (the usual "no data" of pygeo readers) makes `read_ds` raise TypeError, and a RuntimeError without message an IndexError, instead of reporting no data. | `DataManager.read_ds_raises` |
| C28 | A look-up table shorter than the reference grid raises IndexError for the points beyond it. | `DataManager.get_data_lut_too_short` |
| C27 | A column listed twice for a data set yields the same result key twice. | `DataManager.result_names_repeated_column` |
| C29 | a location whose reference data is completely masked gets no entry at all | `Validation.calc_masked_location_missing` |
| C29 | two metrics calculators with the same k write two entries per location into the same result | `Validation.calc_same_k_repeats` |
| C29 | a calculator that stores a bare number as status (`TripleCollocationMetrics` on ValueError) makes `calc` raise even with `handle_errors='ignore'` | `Validation.calc_bare_status_raises` |
| C30 | with subset adapters a failing calculation is reported as VALIDATION_FAILED; with joined names no failure code is ever written | `Validation.status_with_subsets`, `Validation.status_joined_subsets` |
| C30 | a scaling failure of one result marks all results of the location as failed | `Validation.scaling_failure_spreads` |
| C32 | `data[key] is False` is never true: reference observations with mask value False are removed too; without any match masking raises IndexError | `Validation.mask_false_removed`, `Validation.mask_no_match_raises` |
| C38 | arguments of different lengths: locations silently lost; empty sequences: one bogus location | `Validation.locations_truncated`, `Validation.locations_empty` |
| C52 | scaling reference in the key with another than its first column: the calculator gets an additional column, two columns are named "ref" | `Validation.calculator_extra_column` |
| C52 | `get_data_for_result_tuple` ignores its search for a frame with the requested data sets and takes the last one | `Validation.wrong_frame_selected` |
| C33 | a metric (or time series) variable that first appears in a later `add_result` call is written from position 0 and so attributed to other locations (rows) | `Results.late_metric_misaligned`, `Results.late_series_misaligned` |
| C33 | tuple metric names are joined by `__` without escaping: two metrics may share one variable | `Results.joined_names_collide` |
| C34 | shortened file names and the fallback `validation.nc` are shared by different result keys; dots and `_with_` inside names collide; for long directories the path exceeds 255 characters | `Results.short_names_collide`, `Results.fallback_collides`, `Results.separator_collides`, `Results.dot_collides`, `Results.path_too_long` |
| C35 | `AdvancedMaskingAdapter` with an empty filter list, and all masking adapters on a reader returning `None`, raise KeyError | `Adapters.no_filters_raises`, `Adapters.missing_data_raises` |
| C35 | the operator `!=` keeps rows whose value is missing | `Adapters.not_equal_keeps_missing` |
| C36 | `TimestampAdapter` loses offsets below a second: the running sum is kept in whole seconds | `Adapters.subsecond_lost` |
| C36 | `TimestampAdapter` with more offset fields than units (the default is one unit) ignores the remaining fields silently | `Adapters.units_truncated` |
| C36 | fractional offsets and base times are cut to integers | `Adapters.fraction_lost` |
| C36 | k rows with the same exact time become k² rows | `Adapters.equal_times_multiplied` |
| C36 | without any base time the unadapted frame is returned, with the columns that should be dropped | `Adapters.no_base_time_unchanged` |
| C53 | `AnomalyAdapter` and `ColumnCombineAdapter` modify the frame of the reader: a second read of a cached frame gives anomalies of anomalies | `Adapters.second_read_differs`, `Adapters.second_anomaly_differs` |
| C37 | `tstability_filter` never removes a series with a gap (linregress gives NaN, comparisons are false) | `Upscaling.gap_never_filtered` |
| C37 | `drop_missing=True` with one point that never falls into the window gives an empty series | `Upscaling.far_series_removes_all` |
| C37 | if the stability filter removes all points, a series of missing values is returned | `Upscaling.all_series_filtered` |
| C39 | Parameters are calculated only when nothing at all is stored for a grid point: a later call with another column (the second pair of a validation with three data sets) ends in a KeyError. | `Scalers.new_column_fails`, `Scalers.second_pair_fails` |
| C39 | The stored names are joined with underscores, so different pairs of columns can share one stored parameter set. | `Scalers.names_collide` |
| C41 | an observation with missing surface state counts as unfrozen | `Calculators.ft_missing_state_unfrozen` |
| C54 | status after a failure of triple collocation is the number 2, not an array as everywhere else | `Calculators.tc_failed_partial` |
| C54 | an exception of the bootstrap in `PairwiseIntercomparisonMetrics` leaves `calc_metrics`, no result with a failure status is returned | `Calculators.pairwise_bootstrap_error` |
| C54 | `RollingMetrics` ignores `other_name` and uses the second column | `Calculators.rolling_ignores_name` |
| C55 | RSS is in the list of metrics with bootstrapped intervals, but its interval is never written | `Calculators.rss_listed`, `Calculators.rss_never_written` |
| C57 | a data set name with `_and_` breaks the names of `IntercomparisonMetrics` | `Calculators.inter_and_in_name` |
| C57 | `calc_tau=False` leaves the entries of tau in the result, always NaN | `Calculators.inter_tau_stays` |
| C57 | `TCMetrics` raises a KeyError for data with the columns in another order than ref, others | `Calculators.tcm_column_order` |
| C58 | `HSAF_Metrics` stores the correlations, bias and ubrmsd of all data for every season | `Calculators.hsaf_pairs_use_all_data` |
| C58 | the status of `HSAF_Metrics` is OK even without any data | `Calculators.hsaf_ok_without_data` |
| C58 | names with underscores can make two results of `HSAF_Metrics` share an entry | `Calculators.hsaf_names_collide` |
| C59 | `get_dataset_names` does not put the reference first, against its documentation | `DataManager.dataset_names_reference_not_first` |
| C45 | `interp_uniq` never ends for an array whose first and last entries are equal, for example a constant one | `Utils.interp_uniq_never_ends` |
| C45 | `interp_uniq` never ends for an integer array with neighbouring values | `Utils.interp_uniq_integer` |
| C45 | `interp_uniq` can raise an IndexError for an array that is not sorted | `Utils.interp_uniq_index_error` |
| C46 | `array_dropna` ignores the NaN of the third array | `Utils.array_dropna_keeps_nan` |
| C46 | `array_dropna` of one or of more than three arrays is a TypeError | `Utils.array_dropna_number` |
| C49 | `df_match` with `dropduplicates` uses rows twice if reference times are repeated | `DfMatch.df_match_duplicates_stay` |
| C49 | `df_match` with an asymmetric window can miss the only admissible row, if another one is as near | `DfMatch.df_match_asymmetric_misses` |
| C60 | `ensure_iterable([])` is a list with one element; a dictionary without key 0 is a KeyError | `Utils.ensure_iterable_empty` |
| C61 | the combined matcher ignores `k` and returns nothing if `n` is not the number of data sets | `Matchers.combined_matcher_other_number` |
| C47 | `smoothn` compares the number of the outer round with `MaxIter`: failure to converge is never reported for `MaxIter` of 3 or more | `Smoothn.smoothn_never_reports`, `Smoothn.smoothn_hidden_failure` |
| C65 | `smoothn` overwrites gaps and excluded elements of the caller's array with 0 | `Smoothn.smoothn_overwrites` |
| C66 | `axis=(0,)` smooths a square along its second axis and fails for other rectangles; a number is a TypeError | `Smoothn.Axis.axis_first_swapped`, `Smoothn.Axis.axis_first_fails`, `Smoothn.Axis.axis_number` |
| C67 | weights that are all negative are accepted and become 1 or more | `Smoothn.smoothn_all_negative` |
| C67 | the weight of a gap changes the result through the normalisation | `Smoothn.smoothn_gap_weight` |
| C67 | `RobustWeights` without a mask gives weight 0 to everything | `Smoothn.robustWeights_no_mask` |
| C67 | if all residuals are equal (exact fit), all robust weights are 0 and the data are ignored in the next round | `Smoothn.robustWeights_exact_fit` |
| C68 | `euclidean_distance` is calculated but never put into the returned statistics | `Smoothn.smoothn_no_distance` |
| C69 | a reader that only has a read method (as documented) makes `get_data` raise AttributeError unless `grids_compatible` | `DataManager.data_manager_reader_without_grid` |
| C70 | the caller's dictionary of data sets is changed (defaults filled in) | `DataManager.data_manager_changes_argument` |
| C71 | the end of `period` is passed as a string without fraction, so the whole last second is included | `DataManager.period_end_too_late` |
| C72 | for a reference grid that is not exactly a `CellGrid`, `get_processing_jobs` makes jobs of all indices, all longitudes, all latitudes | `Validation.jobs_other_grid` |
| C73 | `n` larger than the number of data sets is accepted | `Validation.init_accepts_large_n` |
| C73 | `spatial_ref` and `period` are ignored if a `DataManager` is given | `Validation.init_manager_ignores` |
| C73 | masking data sets together with a `DataManager` raise | `Validation.init_masking_manager_raises` |
| C74 | look-up tables of masking data sets belong to the grid of the temporal reference, but are used with points of the spatial reference | `Validation.masking_lut_wrong_point` |
| C75 | one data set without data at a location prevents the results of all other pairs | `Validation.basic_missing_data`, `Validation.missing_data_no_result` |
| C76 | masking with the combined matcher raises unless exactly one masking data set has data | `Validation.mask_combined_raises` |
| C77 | A metric that appears for a key first in a later job (same directory) is written from location 0: its values are read at the locations of earlier jobs. | `Results.later_job_misaligned` |
| C78 | `netcdf_results_manager` pops "lon" and "lat" from the dictionaries of the caller: the same results cannot be stored again (KeyError), also after a failure. | `Results.results_used_up` |
| C78 | After a failure, the results before it are in the files; storing them again duplicates their locations. | `Results.repeated_call_duplicates` |
| C78 | With `ts_vars`, a result without entry "time" raises UnboundLocalError, or silently gets the time stamps of the key before. | `Results.no_time_unbound`, `Results.time_of_other_key` |
| C78 | With `ts_vars`, metrics named by tuples (subset calculators) raise AttributeError; an entry "Time" raises KeyError. | `Results.tuple_name_raises`, `Results.spelled_time_raises` |
| C79 | `nash_sutcliffe` of a data frame is calculated for one order of each pair only, although it depends on the order (it is declared symmetric). | `DfMetrics.nash_sutcliffe_depends_on_order` |
| C79 | If the first two columns have no common row, `msd`, `rmsd` and `nrmsd` of a data frame raise ZeroDivisionError, whatever the other columns are. | `DfMetrics.first_columns_disjoint_raises` |
| C79 | Integer column names, names with a dot, and columns "a", "a_and_b", "b", "b_and_a"-like names that join to the same field raise TypeError or ValueError. | `DfMetrics.integer_columns_raise`, `DfMetrics.dotted_columns_raise`, `DfMetrics.joined_columns_clash` |
| C80 | The documentation lists analytical intervals for `rmsd`, `nrmsd` and `mse`; the first two raise ValueError (after the metric was evaluated), the third AttributeError. | `Pairwise.documented_metrics_raise` |
| C80 | The interval of the ubRMSD need not contain the estimate; correlations of two observations have NaN bounds, of three the bounds -1 and 1 whatever alpha. | `Pairwise.ubrmsd_with_ci_misses`, `Pairwise.correlation_few_observations` |
| C80 | The interval is chosen by `__name__`: a function of the user called `bias` gets the interval of the bias; one called `has` or `no` raises TypeError although `has_analytical_ci` is true. | `Pairwise.interval_by_name` |
| C81 | The deprecated `mse` is NaN for a constant series; with `ddof ≠ 0` its total is not the sum of squared differences over n - ddof. | `Pairwise.old_mse_constant`, `Pairwise.old_mse_ddof_not_error` |
| C82 | The deprecated `rolling_pr_rmsd` returns uninitialised memory as RMSD for windows with fewer than `min_periods` observations; unsorted time stamps use observations outside the window. | `Rolling.old_rolling_rmsd_garbage`, `Rolling.old_rolling_unsorted` |
| C83 | `AnomalyClimAdapter` builds the climatology with `respect_leap_years=False` (default of `calc_climatology`) and looks it up with `respect_leap_years=True` (default of `calc_anomaly`): from March on in ordinary years the anomaly is relative to the day before | `Adapters.clim_adapter_day_before` |
| C83 | `AnomalyClimAdapter(output_freq="month")` looks up the day of the year among twelve months: NaN from 13 January on, wrong month before | `Adapters.clim_adapter_monthly` |
| C83 | `AnomalyClimAdapter(return_clim=True)` on a reader that hands out the same frame: the second read computes anomalies of the climatology column and adds a further column | `Adapters.clim_adapter_second_read` |
| C84 | an adapter changes the index of the frame object it gets: a reader that keeps its frame loses the time zone | `Adapters.Basic.cached_read_changes_reader` |
| C85 | `MonthsMetricsAdapter` replaces the entries of the dictionary of the user; building a second adapter from it raises TypeError. | `Grouping.months_adapter_second_use` |
| C85 | `TsDistributor(yearless_dates=...)` documents `datetime` objects but they raise AttributeError in `select`. | `Grouping.yearless_dates_datetime` |
| C86 | `add_ts_results` asks for the attributes with `time=False`: a stored time series does not name `time` among its coordinates. | `Results.series_without_time_coordinate` |
| C86 | The dictionary `attr` of the user gets entries "coordinates". | `Results.attributes_of_user_changed` |
| C89 | `temporal_collocation` documents that UTC is assumed for an index without time zone. A reference without time zone is read in the zone of the other frame | `Collocation.Tz.naive_reference_not_utc` |
| C89 | `combined_temporal_collocation` with a reference without time zone and frames in different zones reads the reference once per zone: one reference time gives several rows, each with the data of some frames only | `Collocation.Tz.naive_reference_split` |
| C89 | `combined_temporal_collocation(add_ref_data=True)` sets a time zone on the caller's reference frame if it had none (unless `dropduplicates`) | `Collocation.Tz.reference_changed` |
| C89 | `method="mean"` compares Julian dates of local times: around a change of clocks, observations outside of the window enter the mean | `Collocation.Tz.mean_across_clock_change` |
| C90 | `method="mean"` stores the means in the type of the first column: with integers all means (of all columns) are truncated, and times without data get a number instead of NaN, so `dropna` keeps them | `Collocation.int_mean_truncated`, `Collocation.int_mean_never_missing` |
| C91 | `checkna=True` warns that no match has been found although all reference times have one, if some column is empty; for a series one time without match is enough | `Collocation.checkna_warns_with_matches`, `Collocation.checkna_series_warns_with_matches` |
| C92 | Storing of the first result in a new file is interrupted (exception, Ctrl-C) before its variables are created: the results stored next are written to the interrupted location, and their own location has none | `Results.interrupted_first_record` |
| C92 | An interrupted result stays in the file as an incomplete location; storing it again gives a second location with the same coordinates | `Results.interrupted_record_stays` |
| C95 | `linreg` uses the absolute value of the slope with the intercept of the signed slope: for a negatively related source the result depends on the zero point of the source's unit (K or °C). | `Scaling.linreg_units_wrong` |
| C97 | With TripleCollocationMetrics, more than three data sets and the default `only_with_reference=False`, `calc` raises `ValueError` at the first location, even with `handle_errors='ignore'`: the calculator refuses every triple without the reference, also the empty frame used for the dummy result (validation.py:395-400, 512-514). | `Validation.triple_without_reference` |
| C98 | All compiled metrics raise ValueError ("Buffer dtype mismatch") when one array is float32 and the other float64, and TypeError for integer arrays, while `aad` and the correlations return a value. | `Dtypes.metrics_mixed_types`, `Dtypes.metrics_integers` |
| C98 | `BasicMetrics.calc_metrics` passes `data['ref'].values` and `data[other].values` on with their own types: with a float32 and a float64 data set it raises at every location with enough rows. `PairwiseIntercomparisonMetrics` takes `data.values` and does not. | `Dtypes.basic_mixed_types` |
| C98 | `boxcar_filter` and `exp_filter` declare their arguments for float32 and float64 but store the result of `np.empty` (float64) in a buffer of the argument's type: float32 data always raise ValueError. | `Dtypes.filter_types` |
| C100 | `tstability_filter`: `see_max` is documented as upper threshold for the standard error of estimate, the code compares the standard error of the slope (unit free, shrinks with the number of observations): points with a standard error of estimate of 28 times the threshold are kept | `Upscaling.see_max_not_respected` |
| C100 | `temporal_match`: if two points have the most values, the times and values of the upscaled series depend on which of them comes first in the look-up table | `Upscaling.order_matters` |
| C101 | `smoothn` ends its rounds when the change is below `TolZ` times the norm of the values: with gaps the filled values depend on the zero of the scale (degrees Celsius or Kelvin), not only the units | `Smoothn.smoothn_offset_rounds` |
| C103 | `get_user_colormaps` lists a map by the name in its content (or by its path), but `load` compares with `name + ".cmap"` and opens that file in the folder itself: a map whose content has the name without extension, or no name, or that is in a subfolder, is listed but cannot be loaded; a name can give another map. | `Colormaps.listed_not_loaded`, `Colormaps.other_map_loaded` |
| C103 | With a relative folder (that contains a map) `get_user_colormaps` and `load` always raise `FileNotFoundError`: the directory is joined to a path that contains it already. | `Colormaps.load_relative` |
| C103 | The documentation of `load` says that the maps of matplotlib are searched first; user-defined maps of the same name are preferred. | `Colormaps.load_own` |
| C104 | `rolling_pr_rmsd`: after a missing value in one observation every later window has RMSD NaN and correlation -1 with p-value 0, also windows that do not contain it (`max(-1, min(NaN, 1))` is -1 in the generated C code) | `Rolling.Fl.nan_forever` |
| C104 | `rolling_pr_rmsd` in double precision: x = 0, 1, 2, 0 and y = 0.1, 0.2, 0.2, 0.2 with windows of three: the last window has a constant y, the reported correlation is -1 with p-value 0 instead of NaN (rounding makes the sum of squares negative) | `Rolling.Fl.constant_window_wrong` |
| C104 | `rolling_pr_rmsd` in double precision: RMSD NaN instead of 0 for a window in which both series are 0; RMSD 64 instead of 0.4 after an outlier has left the window | `Rolling.Fl.equal_window_wrong`, `Rolling.Fl.outlier_window_wrong` |
| C105 | `boxcar_filter` of the constant series 0.1, 0.1, 0.1 gives 0.10000000000000002 in the middle: the mean of equal numbers is not that number (`exp_filter` returns constant series unchanged) | `Rounding.boxcar_constant_wrong` |
| C106 | Results of rolling metrics: nanoseconds of time stamps are dropped in the file, and from 2079-06-06 on (2^16 days after 1900) a microsecond may change | `Results.Times.times_nanoseconds_wrong`, `Results.Times.times_late_wrong` |
| C107 | `mse_corr` and `mse` of the series 2, 0, -2, 0 and itself are 8.9e-16, not 0 (rounded square roots); `mse_corr(x, y)` and `mse_corr(y, x)` differ in the last digits for x = 0, 0, 1 and y = 0, 1, 3 (the covariance update treats x and y differently) | `Rounding.mse_corr_perfect_wrong`, `Rounding.mse_corr_exchange_wrong` |
| C108 | `min_max`: the scaled maximum can exceed the maximum of the reference (0.20000000000000004 for -0.1 and 0.2); a series scaled to itself changes; different values become equal | `Rounding.min_max_maximum_wrong`, `Rounding.min_max_self_wrong`, `Rounding.min_max_ties_wrong` |
| C109 | `temporal_collocation(method="mean")` compares Julian dates as doubles (steps of 40 µs): with hourly data and a window of one hour the mean at 01:00 lacks the value of 02:00, the mean at 02:00 that of 01:00. | `Collocation.Julian.mean_window_wrong` |
| C110 | `RollingMetrics` compares Julian dates as doubles: with hourly data and a centred window of one hour (min_periods 3) only one of five inner rows gets a result; with data every eight hours a trailing window of eight hours sometimes includes its open start. | `Rolling.Fl.Jd.rolling_window_wrong` |
| C111 | `PairwiseIntercomparisonMetrics` with `analytical_cis` takes the root of `varx + vary - 2 * cov`, which rounding makes negative for many series that differ by a constant: `BIAS_ci_lower`, `BIAS_ci_upper` are NaN (e.g. 5, 2, 9 and 11, 8, 15). | `Rounding.bias_ci_wrong` |
| C111 | `urmsd` is the root of `mse - mse_bias`: for a bias of 10^9 and deviations of 1/2 it is 0, while `mse_var` is 1/4. | `Rounding.urmsd_wrong` |
| C111 | `R` is NaN for series of which neighbouring values differ in the last digit only (variance rounded to 0). | `Rounding.correlation_nan_wrong` |
| C112 | `moving_average` rounds `window_size` to single precision and drops fractions of seconds: with a window of 0.7 days values 0.35 days apart are not averaged, with a window of 2 days values 1 day and 0.9 s apart are. | `Rounding.Moving.window_wrong` |
| C113 | Scaling twice: with a constant reference the second `mean_std` or `min_max` gives NaN; a falling `linreg` moves the data by twice the intercept each time; a flat one raises ValueError; matched CDFs change when matched again. | `Scaling.constant_reference_wrong`, `Scaling.linreg_twice_wrong`, `Scaling.linreg_twice_flat`, `Scaling.cdf_match_twice_wrong` |
| C114 | With `make_combined_temporal_matcher` the results of a pair depend on the other data sets of the validation: times missing in a third data set are dropped. | `Validation.combined_depends_on_others` |
| C115 | `tcol_error(df)` and `tcol_metrics(df)` raise ValueError if a numeric column has a name that is no identifier (numbers, "ASCAT sm", "sm.1") or is a keyword. | `DfMetrics.tcol_error_illegal_name`, `DfMetrics.tcol_metrics_illegal_name` |
| C115 | `tcol_metrics(df, ref_ind)` counts numeric columns only: after a text column the wrong data set is the reference; a number beyond the numeric columns gives empty results. | `DfMetrics.text_column_shifts_reference`, `DfMetrics.reference_beyond_numeric` |
| C116 | `tcol_metrics` takes absolute values inside the SNR: for a negative implied error variance the error is NaN and the SNR a number; for a negative signal variance the error exceeds the variance of the data and the SNR is a number, even +inf. | `Tcol.snr_without_error`, `Tcol.snr_of_negative_signal` |
| C116 | `tcol_metrics`: if the two other data sets are uncorrelated, the SNR is 0 dB whatever the data are; a constant reference data set has error 0. | `Tcol.snr_of_uncorrelated_others`, `Tcol.constant_reference_without_error` |
| C117 | `YearlessDatetime.to_datetime(years)` for several years returns a list, a single `datetime` or `None`, depending on how many of the years have the date (29 February). | `Grouping.not_always_list` |
| C118 | In double precision the variance of values with a large offset has no relative accuracy: 2 instead of 1 for the values 2^53 and 2^53 + 2 (the error bound is proved to be relative to the largest value). | `Rounding.variance_wrong`, `Rounding.covariance_wrong` |
| C57 | With columns `k1` and `k1_and_x` next to each other IntercomparisonMetrics runs without an error, stores the metrics of the reference and `k1_and_x` under the name of `k1`, and has no entry for `k1_and_x` | `Calculators.inter_and_overwrites`, `Calculators.and_same_key` |
| C57 | TCMetrics raises IndexError when metadata is missing, the other calculators a describing exception | `Calculators.no_metadata` |
| C120 | `CDFMatching(nbins=22)` raises ValueError for some data sets of 11 values with a tie: the rounded level 3/22·100 lies just below the rounded rank 1.5/11·100, the interpolated percentile exceeds the tied value behind it, and the percentiles are not sorted | `Rounding.percentiles_unsorted` |
| C121 | Without the variable `jobs` in the setup code `start_validation` prints its message and raises TypeError (`len(jobs)` stands before the check for None); after any exception the engines are not cleared | `Validation.start_no_jobs`, `Validation.start_job_fails` |
| C122 | `CDFMatching.fit` stores the percentiles with `dtype=x.dtype`: for float32 sources, percentiles that the separation of ties (or a narrow range of the data) puts closer together than single precision resolves become equal again, `predict` catches the ValueError of the spline and returns NaN for the whole series; the same numbers as float64 work | `Cdf.stored_collapse`, `Cdf.stored_self_nan` |
| C123 | With repeated values a bin of CDF matching can hold fewer observations than `minobs`: tied percentiles are replaced by interpolated ones after the number of bins has been chosen. | `Cdf.bins_hold_minobs_wrong` |
| C125 | `tcol_metrics` of three identical series can return NaN instead of 0 as error standard deviation: the computed error variance is slightly negative in double precision (series 0, 0, 1, 5). | `Rounding.identical_nan` |
| C32 | `choose_all` has one column for each masking column, whatever the reference column: with several reference columns the last one overwrites the others, and a masked observation is kept where the last reference column is missing | `Validation.mask_true_kept` |
| C126 | `mean_std` of a constant source in double precision: six times 0.1 have the computed mean 0.09999999999999999 and a computed standard deviation of 2^-56 instead of 0; all values are scaled to one standard deviation above the mean of the reference instead of NaN | `Rounding.mean_std_constant_wrong` |
| C25 | A yearless range inside 29 February: whether March to December of an ordinary year is selected depends on whether the index has data in the next year, if that is a leap year (columns of the same name replace each other) | `Grouping.leap_day_range_depends_on_years`, `leap_day_range_exact` |
| C127 | In double precision the slope of `linreg` for the pairs (2^53, 0), (2^53 + 2, 1) is 1/4 instead of 1/2: the error depends on the ratio of the values and their spread. | `Rounding.linreg_slope_wrong` |
| C128 | Series without errors (multiples of each other) have infinite SNR; in double precision one of three gets a finite value (about 160 dB), the others infinity. | `Rounding.errorfree_snr` |
| C130 | `index_of_agreement` can be negative (-2.2e-16 for observations 1.6, 1.7 and predictions 1.9, -1.7), outside of the documented range 0 to 1. | `Rounding.agreement_below_zero` |
| C130 | `nash_sutcliffe` of constant observations divides by a variance of 0 (-inf or NaN), but for three observations 0.1 it returns a finite number below -10^33, because the computed mean differs from 0.1. | `Rounding.nash_constant_observations` |
| C131 | `scaling.cdf_match` of an integer array with less than 1980 values and default arguments returns the integer for NaN (-2^63) for every value, because the padding NaN are stored in integer arrays. | `Cdf.int_default_lost` |
| C132 | the lengths of two series are not compared: if the second one is shorter, `bias`, `RSS` (so `msd`, `rmsd`), `mse_corr`, `mse_var`, `mse_decomposition` and `ubrmsd` read memory behind its end; if it is longer, the rest is silently ignored | `Memory.metrics_unsafe`, `Memory.metrics_safe` |
| C132 | `boxcar_filter` and `exp_filter` with more dates than values read behind the end of the values | `Memory.boxcar_unsafe`, `Memory.exp_unsafe` |
| C132 | `rolling_pr_rmsd` with a centred window of negative size reads behind the end of the arrays, for a single observation already | `Memory.rolling_unsafe` |
| C133 | anomalies of a constant series are not zero: three days of 0.1 have the anomaly -2^-56 | `Rounding.Moving.anomaly_constant_wrong` |
| C134 | `msd` and `rmsd` of series of different lengths are not refused: a longer second series is cut off, a shorter one is read past its end | `Memory.msd_lengths` |
| C134 | `index_of_agreement` of several observations and one prediction reads past the end of the predictions; with one observation and several predictions only the first prediction counts as error | `Memory.agreement_single_observation` |
| C134 | `ubrmsd` with ddof of a longer second series subtracts the mean of all its values but compares only the first ones | `Memory.ubrmsd_ddof_wrong` |
| C135 | for three data sets with a negative signal variance `ecol` (documented as equivalent to triple collocation) gives another SNR than `tcol_metrics` | `Ecol.three_differ` |
| C135 | `err_corr` of `ecol` uses the error variances before `abs_est`: NaN beside positive error variances | `Ecol.err_corr_undefined` |
| C136 | `ecol`: one covariance of zero by which one estimator divides (a data set that is constant, fewer than two complete rows) makes every result of every data set NaN or infinite, also of data sets with complete triplets of their own; no error is raised | `Ecol.Finite.nothing_finite`, `Ecol.Finite.constant_data_set`, `Ecol.Finite.fourth_takes_all` |
| C137 | `AnomalyAdapter` without `columns` replaces flag columns by their anomalies too, so that a masking adapter around it compares anomalies of flags; `SelfMaskingAdapter` keeps rows without any value for "!=", `AdvancedMaskingAdapter` with the same filter drops them | `Adapters.anomaly_masking_order`, `Adapters.chain_keeps_empty_rows` |
| C138 | Upscaled averages in floating point: three points with the value 0.1 give more than 0.1, and the order of the points in the look-up table changes the last digits | `Rounding.upscaled_outside`, `Rounding.upscaled_order_matters` |
| C139 | An infinite value (which `dropna` keeps) in one of the series gives R = -1 with p-value 0 in the results of the calculators, whatever the other values; series with very large numbers have the correlation -1 with themselves (overflow) | `Pairwise.Infinite.calculator_spoilt`, `Pairwise.Infinite.infinite_correlation`, `Pairwise.Infinite.overflow_correlation` |
| C140 | `exp_filter`: after an infinite observation no result is a number any more, also when its weight is 0 (the update computes `inf - inf`) | `Filters.Infinite.exp_spoilt`, `Filters.Infinite.exp_forever` |
| C141 | Metadata templates with the same array object for two fields (e.g. from `dict.fromkeys`): all results have the value of the last field in both | `Calculators.Heap.shared_fields`, `Calculators.Heap.shared_wrong` |
| C141 | The calculator keeps the arrays of `metadata_template` instead of copies; changing them later changes the initial values of later results | `Calculators.Heap.template_kept` |
| C142 | `min_max`: with a positive infinite value in the source every number of the source becomes the smallest value of the reference, without a warning; a negative infinite value makes all results NaN or infinite | `Scaling.Infinite.min_max_infinite`, `Scaling.Infinite.min_max_sample` |
| C144 | `ColumnCombineAdapter` sets `axis` in the caller's `func_kwargs` and keeps that dictionary: later assignments to it (e.g. `axis = 0`) change what the adapter does | `Adapters.Options.argument_changed`, `Adapters.Options.adapter_follows` |
| C145 | `rolling_pr_rmsd`: after an observation with an infinite value, or a squared difference that overflows, the RMSD of every later window is NaN, also of windows without it; after an infinite value the correlation is -1 with p-value 0 (or NaN) | `Rolling.Infinite.rmsd_forever`, `Rolling.Infinite.correlation_forever`, `Rolling.Infinite.infinite_before` |

## 5. Not modelled

* of `colormaps/load_cmap.py`: files that are no JSON objects, links, names with slashes, the construction of maps by matplotlib.
* `timedate/`, `grid/resample.py`: re-exports of functions of the packages
  `cadati` and `repurpose`, and two deprecated conversions on top of them.
* `utils.deprecated`, `utils.rootdir`; `__repr__` methods.
* The internals of `num2date` and `date2num` of cftime (their arithmetic is
  modelled, C106); the byte format of the files; compression.
* `setup.py`, generated C files (the `.pyx` sources are modelled).
* The multiprocessing runtime, logging and warnings.
* Floating point rounding (except C104: rolling metrics and one-pass moments; C105, C107, C108, C111, C112, C118, C119, C129, C130, C133: pairwise metrics, smoothing filters and anomalies; C108, C120, C122, C126, C127: scaling; C125, C128: triple collocation; C106, C109, C110: time stamps; C138: upscaling), overflow and underflow (except C139, C140, C142, C143, C145); float32 storage of results (except C111).
* pandas and numpy internals beyond the semantics stated in comments.
