import Verif.Adapters.Basic
import Verif.Adapters.BasicProps
import Verif.Adapters.Chain
import Verif.Adapters.Clim
import Verif.Adapters.ClimProps
import Verif.Adapters.Model
import Verif.Adapters.Options
import Verif.Adapters.Props
import Verif.Bootstrap.Model
import Verif.Bootstrap.Props
import Verif.Calculators.Errors
import Verif.Calculators.Heap
import Verif.Calculators.Hsaf
import Verif.Calculators.Inter
import Verif.Calculators.Lemmas
import Verif.Calculators.Model
import Verif.Calculators.Named
import Verif.Calculators.NamedLemmas
import Verif.Calculators.Order
import Verif.Calculators.Pair
import Verif.Calculators.Props
import Verif.Calculators.TcMetrics
import Verif.Calculators.Triple
import Verif.Cdf.Bins
import Verif.Cdf.Edge
import Verif.Cdf.Integers
import Verif.Cdf.Lemmas
import Verif.Cdf.Model
import Verif.Cdf.Percentiles
import Verif.Cdf.Props
import Verif.Cdf.Stored
import Verif.Cdf.Units
import Verif.Climatology.Lemmas
import Verif.Climatology.Model
import Verif.Climatology.Props
import Verif.Climatology.Relations
import Verif.Climatology.Spec
import Verif.Collocation.FrameUnits
import Verif.Collocation.Julian
import Verif.Collocation.JulianProps
import Verif.Collocation.Lemmas
import Verif.Collocation.Model
import Verif.Collocation.Options
import Verif.Collocation.Props
import Verif.Collocation.Relations
import Verif.Collocation.Spec
import Verif.Collocation.Tz
import Verif.Collocation.TzProps
import Verif.Colormaps.Model
import Verif.Colormaps.Props
import Verif.Common.ListAux
import Verif.Common.Sorted
import Verif.DataManager.DatasetNames
import Verif.DataManager.Init
import Verif.DataManager.InitProps
import Verif.DataManager.Lemmas
import Verif.DataManager.Model
import Verif.DataManager.Period
import Verif.DataManager.Props
import Verif.DataManager.Spec
import Verif.DfMatch.Model
import Verif.DfMatch.Props
import Verif.DfMetrics.Frame
import Verif.DfMetrics.FrameProps
import Verif.DfMetrics.Lemmas
import Verif.DfMetrics.Model
import Verif.DfMetrics.Props
import Verif.DfMetrics.Spec
import Verif.DfMetrics.Wrap
import Verif.DfMetrics.WrapProps
import Verif.Dtypes.Model
import Verif.Dtypes.Props
import Verif.Ecol.Estimates
import Verif.Ecol.Finite
import Verif.Ecol.Lemmas
import Verif.Ecol.Model
import Verif.Ecol.Props
import Verif.Ecol.Spec
import Verif.Filters.Infinite
import Verif.Filters.Lemmas
import Verif.Filters.Model
import Verif.Filters.Props
import Verif.Filters.Relations
import Verif.Filters.Spec
import Verif.Grouping.LeapDay
import Verif.Grouping.Lemmas
import Verif.Grouping.Model
import Verif.Grouping.Months
import Verif.Grouping.MonthsProps
import Verif.Grouping.Props
import Verif.Grouping.Spec
import Verif.Grouping.Yearless
import Verif.Grouping.YearlessProps
import Verif.Matchers.Model
import Verif.Matchers.Props
import Verif.Matchers.Spec
import Verif.Matchers.Units
import Verif.Memory.Lengths
import Verif.Memory.Model
import Verif.Memory.Props
import Verif.Moments.Ineq
import Verif.Moments.Lemmas
import Verif.Moments.Model
import Verif.Moments.Props
import Verif.Moments.Spec
import Verif.Pairwise.Analytical
import Verif.Pairwise.AnalyticalProps
import Verif.Pairwise.Ci
import Verif.Pairwise.Deprecated
import Verif.Pairwise.DeprecatedProps
import Verif.Pairwise.Exact
import Verif.Pairwise.Infinite
import Verif.Pairwise.Invariance
import Verif.Pairwise.Lemmas
import Verif.Pairwise.Model
import Verif.Pairwise.Props
import Verif.Pairwise.Spec
import Verif.Resample.Lemmas
import Verif.Resample.Model
import Verif.Resample.Props
import Verif.Resample.Spec
import Verif.Results.Attrs
import Verif.Results.AttrsProps
import Verif.Results.Crash
import Verif.Results.CrashProps
import Verif.Results.CrashStore
import Verif.Results.Examples
import Verif.Results.Lemmas
import Verif.Results.Manager
import Verif.Results.ManagerProps
import Verif.Results.ManagerTs
import Verif.Results.Model
import Verif.Results.Names
import Verif.Results.Props
import Verif.Results.Spec
import Verif.Results.Times
import Verif.Results.TimesProps
import Verif.Rolling.Float
import Verif.Rolling.FloatExact
import Verif.Rolling.FloatProps
import Verif.Rolling.FloatRounding
import Verif.Rolling.Infinite
import Verif.Rolling.Julian
import Verif.Rolling.JulianProps
import Verif.Rolling.Lemmas
import Verif.Rolling.Model
import Verif.Rolling.Old
import Verif.Rolling.OldProps
import Verif.Rolling.Props
import Verif.Rolling.Spec
import Verif.Rolling.Units
import Verif.Rounding.Accuracy
import Verif.Rounding.Anomaly
import Verif.Rounding.Basic
import Verif.Rounding.Binned
import Verif.Rounding.Decomposition
import Verif.Rounding.Efficiency
import Verif.Rounding.Exact
import Verif.Rounding.ExpAccuracy
import Verif.Rounding.Filters
import Verif.Rounding.FiltersProps
import Verif.Rounding.Linreg
import Verif.Rounding.Metrics
import Verif.Rounding.MetricsProps
import Verif.Rounding.Moving
import Verif.Rounding.MovingProps
import Verif.Rounding.Percentiles
import Verif.Rounding.Perfect
import Verif.Rounding.PerfectProps
import Verif.Rounding.Scaling
import Verif.Rounding.ScalingAccuracy
import Verif.Rounding.ScalingProps
import Verif.Rounding.Single
import Verif.Rounding.Snr
import Verif.Rounding.Stored
import Verif.Rounding.StoredProps
import Verif.Rounding.Triple
import Verif.Rounding.Upscaled
import Verif.Scalers.Model
import Verif.Scalers.Props
import Verif.Scaling.Infinite
import Verif.Scaling.Model
import Verif.Scaling.Props
import Verif.Scaling.Twice
import Verif.Scaling.Units
import Verif.Smoothn.Axis
import Verif.Smoothn.Dct
import Verif.Smoothn.DctProps
import Verif.Smoothn.Model
import Verif.Smoothn.Optimal
import Verif.Smoothn.Props
import Verif.Smoothn.Spec
import Verif.Smoothn.Stopping
import Verif.Smoothn.Units
import Verif.Smoothn.UnitsDct
import Verif.Smoothn.Weights
import Verif.Tcol.Ieee
import Verif.Tcol.IeeeProps
import Verif.Tcol.Infinite
import Verif.Tcol.Invariance
import Verif.Tcol.Model
import Verif.Tcol.Props
import Verif.Tcol.Spec
import Verif.Upscaling.Model
import Verif.Upscaling.Order
import Verif.Upscaling.Props
import Verif.Upscaling.Regression
import Verif.Upscaling.Units
import Verif.Utils.Interp
import Verif.Utils.Lemmas
import Verif.Utils.Model
import Verif.Utils.Props
import Verif.Validation.EndToEnd
import Verif.Validation.Init
import Verif.Validation.Jobs
import Verif.Validation.Lemmas
import Verif.Validation.Model
import Verif.Validation.More
import Verif.Validation.Others
import Verif.Validation.Pair
import Verif.Validation.PairLemmas
import Verif.Validation.PairProps
import Verif.Validation.Props
import Verif.Validation.Spec
import Verif.Validation.Split
import Verif.Validation.Start
import Verif.Validation.Triple
import Verif.Validation.TripleProps
import Verif.Validation.Units
import Verif.Validation.UnitsProps
import Verif.Validation.Values
