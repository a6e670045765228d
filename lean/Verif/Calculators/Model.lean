import Verif.Pairwise.Model
import Verif.DfMetrics.Model

/-!
Model of the metrics calculators in `src/pytesmo/validation_framework/metric_calculators.py`: the result dictionaries, `MetadataMetrics`,
`BasicMetrics`, `BasicMetricsPlusMSE`, `FTMetrics`, `PairwiseIntercomparisonMetrics`, `TripleCollocationMetrics`. The calculators that join data
set names (`HSAF_Metrics`, `IntercomparisonMetrics`, `TCMetrics`) are in `Verif.Calculators.Named`.

Simplifications:
* names are lists of characters; a value is kept as an exact number, the rounding to `float32` is left out; NaN is `none`;
* arrays of length one (`np.float32([np.nan])`) are their element;
* a data frame is the list of its column names and its rows; of the index only the month is kept;
* the correlation functions of scipy, `tcol_metrics` and the bootstrap are parameters;
* warnings are left out.
-/

namespace Verif.Calculators

/-- exceptions. Used for metric_calculators.py:95-151, metric_calculators.py:213-215. -/
inductive Err
  | keyError
  | indexError
  | valueError
  | typeError
  /-- "No metadata has been provided to the job" -/
  | noMetadata
  deriving DecidableEq

/-- a string. Used for metric_calculators.py:68-92, metric_calculators.py:303-324. -/
abbrev Name := List Char

/-- a key of a result: a name, or the pair of a metric and a data set (1745-1751) -/
inductive Key
  | name (n : Name)
  | pair (metric ds : Name)
  deriving DecidableEq

/-- a plain key. Used for metric_calculators.py:95-151, metric_calculators.py:176-189. -/
def key (s : String) : Key := .name s.toList

/-- a value: integer or floating point array of length one, or a bare number instead of an array.
Used for metric_calculators.py:68-92, metric_calculators.py:213-215. -/
inductive Val (K : Type)
  | int (z : ℤ)
  | num (x : Option K)
  | bare (z : ℤ)
  deriving DecidableEq

/-- a result or a template, in insertion order. Used for metric_calculators.py:95-151, metric_calculators.py:68-92. -/
abbrev Dict (K : Type) := List (Key × Val K)

/-- `error_handling.py:11-19` -/
def uncaught : ℤ := -1
/-- `error_handling.py:13` -/
def ok : ℤ := 0
/-- `error_handling.py:16` -/
def insufficientData : ℤ := 1
/-- `error_handling.py:19` -/
def metricsFailed : ℤ := 2

section
variable {K : Type}

/-- `d[k] = v`. Used for metric_calculators.py:1785-1812. -/
def put (d : Dict K) (k : Key) (v : Val K) : Dict K :=
  if k ∈ d.map Prod.fst then d.map (fun e => if e.1 = k then (k, v) else e) else d ++ [(k, v)]

/-- `d.update(e)`. Used for metric_calculators.py:176-189, metric_calculators.py:258-279. -/
def update (d e : Dict K) : Dict K := e.foldl (fun d kv => put d kv.1 kv.2) d

/-- `d[k][0] = v`. Used for metric_calculators.py:213-215, metric_calculators.py:281-324. -/
def set (d : Dict K) (kv : Key × Val K) : Except Err (Dict K) :=
  if kv.1 ∈ d.map Prod.fst then .ok (put d kv.1 kv.2) else .error .keyError

/-- several assignments, one after the other. Used for metric_calculators.py:192-223, metric_calculators.py:281-324. -/
def setAll (d : Dict K) (ws : List (Key × Val K)) : Except Err (Dict K) := ws.foldlM set d

/-! ### Templates -/

/-- metric_calculators.py:102-145: the metrics known to `_get_metric_template` apart from `n_obs` -/
def pairMetrics : List String :=
  ["R", "p_R", "rho", "p_rho", "BIAS", "tau", "p_tau", "RMSD", "mse", "RSS", "mse_corr", "mse_bias", "mse_var", "urmsd",
   "BIAS_ci_lower", "BIAS_ci_upper", "RMSD_ci_lower", "RMSD_ci_upper", "RSS_ci_lower", "RSS_ci_upper", "mse_ci_lower", "mse_ci_upper",
   "mse_corr_ci_lower", "mse_corr_ci_upper", "mse_bias_ci_lower", "mse_bias_ci_upper", "mse_var_ci_lower", "mse_var_ci_upper",
   "urmsd_ci_lower", "urmsd_ci_upper", "R_ci_lower", "R_ci_upper", "rho_ci_lower", "rho_ci_upper", "tau_ci_lower", "tau_ci_upper"]

/-- metric_calculators.py:95-151 `_get_metric_template`; repeated names do not occur in the calls -/
def metricTemplate (metr : List String) : Except Err (Dict K) :=
  if metr.all (fun m => decide (m = "n_obs") || decide (m ∈ pairMetrics)) then
    .ok (metr.map (fun m => (key m, if m = "n_obs" then .int 0 else .num none)))
  else .error .valueError

/-- metric_calculators.py:68-92 `_get_tc_metric_template(["snr", "err_std", "beta"], ds_names)` -/
def tcMetricTemplate (dsNames : List Name) : Dict K :=
  ["snr", "err_std", "beta"].flatMap (fun m => dsNames.map (fun d => (Key.pair m.toList d, Val.num none)))

/-- metric_calculators.py:176-189: the template of `MetadataMetrics` -/
def metadataTemplate (mt : Option (Dict K)) : Dict K :=
  update [(key "gpi", .int (-1)), (key "lon", .num none), (key "lat", .num none), (key "status", .int uncaught)] (mt.getD [])

/-- `gpi_info`; `md` is the optional fourth element. Used for metric_calculators.py:213-215, metric_calculators.py:192-223. -/
structure Info (K : Type) where
  gpi : ℤ
  lon : K
  lat : K
  md : Option (Dict K)

/-- metric_calculators.py:213-215: one metadata field -/
def setField (info : Info K) (d : Dict K) (e : Key × Val K) : Except Err (Dict K) :=
  match info.md with
  | none => .error .noMetadata
  | some md =>
    match md.lookup e.1 with
    | none => .error .keyError
    | some v => set d (e.1, v)

/-- metric_calculators.py:192-223 `MetadataMetrics.calc_metrics`. (`TCMetrics` has the same code, there the missing metadata is an
IndexError.) -/
def metadataCalc (template : Dict K) (mt : Option (Dict K)) (info : Info K) : Except Err (Dict K) := do
  let d ← setAll template [(key "gpi", .int info.gpi), (key "lon", .num (some info.lon)), (key "lat", .num (some info.lat))]
  (mt.getD []).foldlM (setField info) d

/-! ### Frames -/

/-- a data frame: column names, rows with their month. Used for metric_calculators.py:303-324, metric_calculators.py:281-324. -/
structure Frame (K : Type) where
  cols : List Name
  rows : List (ℕ × List (Option K))

/-- `data[name].values`. Used for metric_calculators.py:303-324, metric_calculators.py:350-356. -/
def column (f : Frame K) (n : Name) : Except Err (List (Option K)) :=
  if n ∈ f.cols then .ok (f.rows.map (fun r => (r.2[f.cols.idxOf n]?).join)) else .error .keyError

/-! ### BasicMetrics and BasicMetricsPlusMSE -/

/-- metrics of two arrays: `stats.pearsonr`, `stats.spearmanr`, `metrics.kendalltau` (value and p-value), `metrics.rmsd`, `metrics.bias`,
`metrics.mse_decomposition`. Used for metric_calculators.py:303-324, metric_calculators.py:281-324. -/
structure BasicFuncs (K : Type) where
  pearson : List (Option K) → List (Option K) → Except Err (Option K × Option K)
  spearman : List (Option K) → List (Option K) → Except Err (Option K × Option K)
  kendall : List (Option K) → List (Option K) → Except Err (Option K × Option K)
  rmsd : List (Option K) → List (Option K) → Except Err (Option K)
  bias : List (Option K) → List (Option K) → Except Err (Option K)
  mse : List (Option K) → List (Option K) → Except Err (Option K × Option K × Option K × Option K)

/-- metric_calculators.py:265-275 -/
def basicMetrics : List String := ["n_obs", "R", "p_R", "rho", "p_rho", "RMSD", "BIAS", "tau", "p_tau"]

/-- metric_calculators.py:258-279 `BasicMetrics.__init__` -/
def basicTemplate (mt : Option (Dict K)) : Except Err (Dict K) := do
  let t ← metricTemplate basicMetrics
  .ok (update (metadataTemplate mt) t)

/-- metric_calculators.py:303-324: the values written by `BasicMetrics.calc_metrics` -/
def basicWrites (F : BasicFuncs K) (other : Name) (calcTau : Bool) (data : Frame K) : Except Err (List (Key × Val K)) := do
  let x ← column data "ref".toList
  let y ← column data other
  let R ← F.pearson x y
  let rho ← F.spearman x y
  let rmsd ← F.rmsd x y
  let bias ← F.bias x y
  let tau ← if calcTau then do
      let t ← F.kendall x y
      .ok [(key "tau", .num t.1), (key "p_tau", .num t.2)]
    else .ok []
  .ok ([(key "R", .num R.1), (key "p_R", .num R.2), (key "rho", .num rho.1), (key "p_rho", .num rho.2), (key "RMSD", .num rmsd),
    (key "BIAS", .num bias), (key "n_obs", .int data.rows.length)] ++ tau ++ [(key "status", .int ok)])

/-- metric_calculators.py:281-324 `BasicMetrics.calc_metrics` -/
def basicCalc (F : BasicFuncs K) (other : Name) (calcTau : Bool) (minObs : ℕ) (template : Dict K) (mt : Option (Dict K)) (data : Frame K)
    (info : Info K) : Except Err (Dict K) := do
  let d ← metadataCalc template mt info
  if data.rows.length < minObs then set d (key "status", .int insufficientData)
  else do
    let ws ← basicWrites F other calcTau data
    setAll d ws

/-- metric_calculators.py:333-339 `BasicMetricsPlusMSE.__init__` -/
def mseTemplate (mt : Option (Dict K)) : Except Err (Dict K) := do
  let b ← basicTemplate mt
  let t ← metricTemplate ["mse", "mse_corr", "mse_bias", "mse_var"]
  .ok (update b t)

/-- metric_calculators.py:350-356 -/
def mseWrites (F : BasicFuncs K) (other : Name) (data : Frame K) : Except Err (List (Key × Val K)) := do
  let x ← column data "ref".toList
  let y ← column data other
  let m ← F.mse x y
  .ok [(key "mse", .num m.1), (key "mse_corr", .num m.2.1), (key "mse_bias", .num m.2.2.1), (key "mse_var", .num m.2.2.2),
    (key "status", .int ok)]

/-- metric_calculators.py:341-357 `BasicMetricsPlusMSE.calc_metrics` (`calc_tau` is always False) -/
def mseCalc (F : BasicFuncs K) (other : Name) (minObs : ℕ) (template : Dict K) (mt : Option (Dict K)) (data : Frame K) (info : Info K) :
    Except Err (Dict K) := do
  let d ← basicCalc F other false minObs template mt data info
  let d ← set d (key "status", .int uncaught)
  if data.rows.length < minObs then set d (key "status", .int insufficientData)
  else do
    let ws ← mseWrites F other data
    setAll d ws

/-! ### FTMetrics -/

/-- metric_calculators.py:375-391 `FTMetrics.__init__` -/
def ftTemplate (mt : Option (Dict K)) : Dict K :=
  update (metadataTemplate mt) [(key "ssf_fr_temp_un", .num none), (key "ssf_fr_temp_fr", .num none), (key "ssf_un_temp_fr", .num none),
    (key "ssf_un_temp_un", .num none), (key "n_obs", .int 0)]

/-- `arr < 0` of a possibly missing value. Used for metric_calculators.py:419-445. -/
def below [Zero K] [LT K] [DecidableLT K] (t : Option K) : Bool := t.any (fun v => decide (v < 0))
/-- `arr >= 0`. Used for metric_calculators.py:419-445. -/
def atLeast [Zero K] [LE K] [DecidableLE K] (t : Option K) : Bool := t.any (fun v => decide (0 ≤ v))

/-- metric_calculators.py:419-445: the counts. `zip` stands for the common index of the two arrays. -/
def ftWrites [NatCast K] [Zero K] [LT K] [DecidableLT K] [LE K] [DecidableLE K] [DecidableEq K] (flag : K) (other : Name) (data : Frame K) :
    Except Err (List (Key × Val K)) := do
  let ssf ← column data "ref".toList
  let temp ← column data other
  let frozen := ((ssf.zip temp).filter (fun p => decide (p.1 = some flag))).map Prod.snd
  let unfrozen := ((ssf.zip temp).filter (fun p => decide (p.1 ≠ some flag))).map Prod.snd
  let frFr := (frozen.filter below).length
  let unUn := (unfrozen.filter atLeast).length
  let frUn := (frozen.filter atLeast).length
  let unFr := (unfrozen.filter below).length
  .ok [(key "ssf_fr_temp_un", .num (some (frUn : K))), (key "ssf_fr_temp_fr", .num (some (frFr : K))),
    (key "ssf_un_temp_fr", .num (some (unFr : K))), (key "ssf_un_temp_un", .num (some (unUn : K))), (key "n_obs", .int data.rows.length),
    (key "status", .int ok)]

/-- metric_calculators.py:393-446 `FTMetrics.calc_metrics` -/
def ftCalc [NatCast K] [Zero K] [LT K] [DecidableLT K] [LE K] [DecidableLE K] [DecidableEq K] (flag : K) (other : Name) (minObs : ℕ)
    (template : Dict K) (mt : Option (Dict K)) (data : Frame K) (info : Info K) : Except Err (Dict K) := do
  let d ← metadataCalc template mt info
  if data.rows.length < minObs then set d (key "status", .int insufficientData)
  else do
    let ws ← ftWrites flag other data
    setAll d ws

/-! ### RollingMetrics -/

/-- metric_calculators.py:1329-1376 `RollingMetrics.calc_metrics`: the two arrays given to `rolling_pr_rmsd`, `none` if there are not enough rows
for metrics. (The name of the other data set is not used.) -/
def rollingArrays (_other : Name) (minObs : ℕ) (data : Frame K) : Option (List (Option K) × List (Option K)) :=
  if data.rows.length < minObs then none
  else some (data.rows.map (fun r => (r.2[0]?).join), data.rows.map (fun r => (r.2[1]?).join))

/-! ### TripleCollocationMetrics -/

/-- values of triple collocation per data set. Used for metric_calculators.py:1791-1793, metric_calculators.py:1804-1808. -/
structure Tc (K : Type) where
  snr : ℕ → Option K
  errStd : ℕ → Option K
  beta : ℕ → Option K

/-- `res[j]`. Used for metric_calculators.py:1791-1793, metric_calculators.py:1804-1808. -/
def Tc.metric (t : Tc K) : List (String × (ℕ → Option K)) := [("snr", t.snr), ("err_std", t.errStd), ("beta", t.beta)]

/-- `tcol_metrics(x, y, z)` and `tcol_metrics_with_bootstrapped_ci(x, y, z)` (values, lower and upper bounds).
Used for metric_calculators.py:1785-1812, metric_calculators.py:1754-1813. -/
structure TcFuncs (K : Type) where
  tcol : List (List (Option K)) → Except Err (Tc K)
  boot : List (List (Option K)) → Except Err (Tc K × Tc K × Tc K)

/-- metric_calculators.py:1717-1733 `TripleCollocationMetrics.__init__` -/
def tcTemplate (mt : Option (Dict K)) : Except Err (Dict K) := do
  let t ← metricTemplate ["n_obs"]
  .ok (update (metadataTemplate mt) t)

/-- metric_calculators.py:1735-1752 `_get_metric_template(refname, othernames)` -/
def tcNamesTemplate (bootstrap : Bool) (names : List Name) : Dict K :=
  let t := update [] (tcMetricTemplate names)
  if bootstrap then
    update t (["snr", "err_std", "beta"].flatMap (fun m => names.flatMap (fun d =>
      [(Key.pair (m ++ "_ci_lower").toList d, Val.num none), (Key.pair (m ++ "_ci_upper").toList d, Val.num none)])))
  else t

/-- metric_calculators.py:1791-1793: assignments of the values of the data sets -/
def tcWrites (names : List Name) (t : Tc K) : List (Key × Val K) :=
  names.zipIdx.flatMap (fun ni => t.metric.map (fun m => (Key.pair m.1.toList ni.1, Val.num (m.2 ni.2))))

/-- metric_calculators.py:1804-1808 -/
def tcBootWrites (names : List Name) (t : Tc K × Tc K × Tc K) : List (Key × Val K) :=
  names.zipIdx.flatMap (fun ni => (t.1.metric.zip (t.2.1.metric.zip t.2.2.metric)).flatMap (fun m =>
    [(Key.pair m.1.1.toList ni.1, Val.num (m.1.2 ni.2)),
     (Key.pair (m.1.1 ++ "_ci_lower").toList ni.1, Val.num (m.2.1.2 ni.2)),
     (Key.pair (m.1.1 ++ "_ci_upper").toList ni.1, Val.num (m.2.2.2 ni.2))]))

/-- `list.remove`. Used for metric_calculators.py:1754-1813. -/
def removeName (l : List Name) (n : Name) : Except Err (List Name) := if n ∈ l then .ok (l.erase n) else .error .valueError

/-- metric_calculators.py:1785-1812: the metrics or the marker of a failed calculation; only a ValueError is caught -/
def tcFill (F : TcFuncs K) (bootstrap : Bool) (names : List Name) (arrays : List (List (Option K))) (d : Dict K) : Except Err (Dict K) :=
  let ws := if bootstrap then (F.boot arrays).map (tcBootWrites names) else (F.tcol arrays).map (tcWrites names)
  match ws with
  | .ok ws => setAll d (ws ++ [(key "status", .int ok)])
  | .error .valueError => .ok (put d (key "status") (.bare metricsFailed))
  | .error e => .error e

/-- metric_calculators.py:1754-1813 `TripleCollocationMetrics.calc_metrics` -/
def tcCalc (F : TcFuncs K) (refname : Name) (bootstrap : Bool) (minObs : ℕ) (template : Dict K) (mt : Option (Dict K)) (data : Frame K)
    (info : Info K) : Except Err (Dict K) := do
  let d ← metadataCalc template mt info
  let d ← set d (key "n_obs", .int data.rows.length)
  let others ← removeName data.cols refname
  let names := refname :: others
  let d := update d (tcNamesTemplate bootstrap names)
  if data.rows.length < minObs then set d (key "status", .int insufficientData)
  else do
    let arrays ← names.mapM (column data)
    tcFill F bootstrap names arrays d

end

/-! ### PairwiseIntercomparisonMetrics -/

open Verif.Pairwise Verif.Moments

/-- the functions of scipy and the bootstrap used by `PairwiseMetricsMixin`.
Used for metric_calculators.py:1538-1554, metric_calculators.py:1538-1554. -/
structure PairFuncs where
  betainc : ℝ → ℝ → ℝ → ℝ
  tppf : ℝ → ℝ → ℝ
  chi2ppf : ℝ → ℝ → ℝ
  normppf : ℝ → ℝ
  spearman : Pairs → Option (ℝ × ℝ)
  kendall : Pairs → Option (ℝ × ℝ)
  /-- `with_bootstrapped_ci(metric_func, x, y, alpha, minimum_data_length)`: the bounds -/
  boot : (Pairs → ℝ) → Pairs → Except Err (ℝ × ℝ)

/-- the options. Used for metric_calculators.py:1416-1454, metric_calculators.py:1614-1636. -/
structure PairOptions where
  spearman : Bool
  kendall : Bool
  analytical : Bool
  bootstrap : Bool

/-- metric_calculators.py:1416-1454 `_pairwise_metric_names` -/
def pairwiseNames (o : PairOptions) : List String :=
  ["R", "p_R", "BIAS", "RMSD", "mse", "RSS", "mse_corr", "mse_bias", "urmsd", "mse_var"]
  ++ (if o.spearman then ["rho", "p_rho"] else [])
  ++ (if o.kendall then ["tau", "p_tau"] else [])
  ++ (if o.analytical then
      ["BIAS_ci_lower", "BIAS_ci_upper", "urmsd_ci_lower", "urmsd_ci_upper", "R_ci_lower", "R_ci_upper"]
      ++ (if o.spearman then ["rho_ci_lower", "rho_ci_upper"] else [])
      ++ (if o.kendall then ["tau_ci_lower", "tau_ci_upper"] else [])
    else [])
  ++ (if o.bootstrap then
      ["mse_var_ci_lower", "mse_var_ci_upper", "mse_corr_ci_lower", "mse_corr_ci_upper", "mse_bias_ci_lower", "mse_bias_ci_upper",
       "RMSD_ci_lower", "RMSD_ci_upper", "mse_ci_lower", "mse_ci_upper", "RSS_ci_lower", "RSS_ci_upper"]
    else [])

/-- metric_calculators.py:1614-1636 `PairwiseIntercomparisonMetrics.__init__` -/
def pairwiseTemplate (o : PairOptions) (mt : Option (Dict ℝ)) : Except Err (Dict ℝ) := do
  let t ← metricTemplate (pairwiseNames o ++ ["n_obs"])
  .ok (update (metadataTemplate mt) t)

/-- `data.dropna()`: the values of the complete rows. Used for metric_calculators.py:1638-1671. -/
def dropna {K : Type} (f : Frame K) : List (List K) := (f.rows.filter (fun r => r.2.all Option.isSome)).map (fun r => r.2.filterMap id)

/-- `data_matrix[:, 0]`, `data_matrix[:, 1]`. Used for metric_calculators.py:1638-1671. -/
def firstTwo {K : Type} : List K → Option (K × K)
  | a :: b :: _ => some (a, b)
  | _ => none

/-- a number with value and p-value as two entries. Used for metric_calculators.py:1456-1554. -/
noncomputable def statWrites (value p : String) (r : Option (ℝ × ℝ)) : List (Key × Val ℝ) :=
  [(key value, .num (r.map Prod.fst)), (key p, .num (r.map Prod.snd))]

/-- lower and upper bound as two entries; the interval of a missing value is missing.
Used for metric_calculators.py:1538-1554, metric_calculators.py:1456-1554. -/
noncomputable def ciWrites (metric : String) (r : Option (ℝ × ℝ)) : List (Key × Val ℝ) :=
  [(key (metric ++ "_ci_lower"), .num (r.map Prod.fst)), (key (metric ++ "_ci_upper"), .num (r.map Prod.snd))]

/-- metric_calculators.py:1539-1545: the function whose interval is bootstrapped -/
noncomputable def bootMetric (m : String) : Pairs → ℝ :=
  if m = "mse" then msd else if m = "RMSD" then (fun l => rmsd l 0)
  else if m = "mse_var" then mseVar else if m = "mse_corr" then mseCorr else mseBias

/-- metric_calculators.py:1538-1554 -/
noncomputable def bootWrites (F : PairFuncs) (l : Pairs) : List String → Except Err (List (Key × Val ℝ))
  | [] => .ok []
  | m :: ms => do
    let b ← F.boot (bootMetric m) l
    let rest ← bootWrites F l ms
    .ok (ciWrites m (some b) ++ rest)

/-- metric_calculators.py:1538-1554: the bootstrapped intervals, if asked for -/
noncomputable def bootPart (F : PairFuncs) (o : PairOptions) (l : Pairs) : Except Err (List (Key × Val ℝ)) :=
  if o.bootstrap then bootWrites F l ["mse_var", "mse_corr", "mse_bias", "mse", "RMSD"] else .ok []

/-- metric_calculators.py:1456-1554 `_calc_pairwise_metrics` with an empty suffix -/
noncomputable def pairwiseWrites (F : PairFuncs) (o : PairOptions) (l : Pairs) (m : Moments ℝ) : Except Err (List (Key × Val ℝ)) := do
  let n : ℝ := (l.length : ℝ)
  let c := mseCorrFromMoments m
  let v := mseVarFromMoments m
  let b := mseBiasFromMoments m
  let mse := max (c + v + b) 0
  let u := Real.sqrt (mse - b)
  let R := pearsonrFromMoments F.betainc m.varx m.vary m.cov (l.length : ℤ)
  let rho := F.spearman l
  let tau := F.kendall l
  let boot ← bootPart F o l
  .ok ([(key "BIAS", .num (some (m.mx - m.my))), (key "mse_corr", .num (some c)), (key "mse_var", .num (some v)), (key "mse_bias", .num (some b)),
      (key "mse", .num (some mse)), (key "RSS", .num (some (mse * n))), (key "RMSD", .num (some (Real.sqrt mse))), (key "urmsd", .num (some u))]
    ++ statWrites "R" "p_R" R
    ++ (if o.spearman then statWrites "rho" "p_rho" rho else [])
    ++ (if o.kendall then statWrites "tau" "p_tau" tau else [])
    ++ (if o.analytical then
        ciWrites "BIAS" (some (biasCiFromMoments F.tppf 0.05 m n)) ++ ciWrites "urmsd" (some (ubrmsdCi F.chi2ppf l u 0.05))
        ++ ciWrites "R" (R.map (fun r => pearsonCi F.normppf n r.1 0.05))
        ++ (if o.spearman then ciWrites "rho" (rho.map (fun r => spearmanCi F.normppf n r.1 0.05)) else [])
        ++ (if o.kendall then ciWrites "tau" (tau.map (fun r => kendallCi F.normppf n r.1 0.05)) else [])
      else [])
    ++ boot)

/-- metric_calculators.py:1638-1671 `PairwiseIntercomparisonMetrics.calc_metrics` -/
noncomputable def pairwiseCalc (F : PairFuncs) (o : PairOptions) (minObs : ℕ) (template : Dict ℝ) (mt : Option (Dict ℝ)) (data : Frame ℝ)
    (info : Info ℝ) : Except Err (Dict ℝ) := do
  let d ← metadataCalc template mt info
  let rows := dropna data
  let d ← set d (key "n_obs", .int rows.length)
  if rows.length < minObs then set d (key "status", .int insufficientData)
  else
    match rows.mapM firstTwo with
    | none => .error .indexError
    | some l => do
      let ws ← pairwiseWrites F o l (momentsWelford l)
      let d ← setAll d ws
      set d (key "status", .int ok)

end Verif.Calculators
