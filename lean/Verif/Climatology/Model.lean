import Verif.Filters.Model

/-!
Model of `src/pytesmo/time_series/anomaly.py` (`calc_anomaly` 13-93, `_index_units` 96-112, `calc_climatology` 115-284) and of
`src/pytesmo/time_series/filtering.py:moving_average` (38-85).

An observation carries its julian date, the calendar date it stands for, and its value (`none`: NaN). The conversions between
time stamps and julian/calendar dates (`cadati`) are not part of the repository; the calendar date is simply a field.
-/

namespace Verif.Climatology

variable {K : Type} [Field K] [LinearOrder K]

/-- exceptions. Used for anomaly.py:251-269, anomaly.py:207-208. -/
inductive Err
  | keyError
  | valueError
  deriving DecidableEq

/-- one observation. Used for anomaly.py:96-112, anomaly.py:207-208. -/
structure Obs (K : Type) where
  jd : K
  year : ℕ
  month : ℕ
  day : ℕ
  value : Option K

/-- `cadati.check_date.is_leap_year` (third party). Used for anomaly.py:96-112, anomaly.py:53-81. -/
def isLeap (y : ℕ) : Bool := (y % 4 == 0 && y % 100 != 0) || y % 400 == 0

/-- the days before each month of a leap year, as used by `cadati.conv_doy.doy` (third party). Used for anomaly.py:96-112, anomaly.py:53-81. -/
def daysPast : List ℕ := [0, 31, 60, 91, 121, 152, 182, 213, 244, 274, 305, 335]

/-- `cadati.conv_doy.doy(month, day[, year])` (third party): without a year, every year is a leap year.
Used for anomaly.py:96-112, anomaly.py:53-81. -/
def doy (month day : ℕ) (year : Option ℕ) : ℕ :=
  let d := daysPast.getD (month - 1) 0 + day
  match year with
  | none => d
  | some y => if month > 2 ∧ isLeap y = false then d - 1 else d

/-- the no-data value of `boxcar_filter`, filters.pyx:116 -/
def noData : K := -999999

/-- filtering.py:40-85 `moving_average(Ser, window_size, fillna, min_obs)`: the filtered values, the index is kept -/
def movingAverage (obs : List (K × Option K)) (window : K) (fillna : Bool) (minObs : Int) : List (Option K) :=
  Filters.boxcarFilter obs window noData fillna minObs

/-- value of `output_freq`. Used for anomaly.py:96-112. -/
inductive Freq
  | day
  | month
  | other

/-- anomaly.py:96-112 `_index_units`: the index of an observation and the number of indices -/
def indexUnit (freq : Freq) (respect : Bool) (o : Obs K) : ℕ :=
  match freq with
  | .day => doy o.month o.day (if respect then some o.year else none)
  | _ => o.month

/-- the number of units. Used for anomaly.py:115-284. -/
def nUnits : Freq → ℕ
  | .day => 366
  | _ => 12

/-- Arguments of `calc_climatology`. `timespan` is given in julian dates. `agg` is the mean or the median of at least one value;
`sd` is the standard deviation column (`none` if `std=False`). Used for anomaly.py:251-269, anomaly.py:191-201. -/
structure Args (K : Type) where
  movingAvgOrig : K
  movingAvgClim : Option ℕ
  agg : List K → K
  sd : Option (List K → Option K)
  timespan : Option (K × K)
  fill : Option K
  wraparound : Bool
  respectLeapYears : Bool
  interpolateLeapday : Bool
  fillna : Bool
  minObsOrig : Int
  minObsClim : Int
  freq : Freq

/-- the valid values of one unit, `Ser.groupby('unit')`. Used for anomaly.py:229-247. -/
def unitValues (units : List (ℕ × Option K)) (u : ℕ) : List K :=
  (units.filter (fun o => decide (o.1 = u))).filterMap (·.2)

/-- anomaly.py:229-247: aggregated value (and standard deviation) of unit `u`; units without values are NaN after `reindex` -/
def unitRow (agg : List K → K) (sd : Option (List K → Option K)) (units : List (ℕ × Option K)) (u : ℕ) : List (Option K) :=
  let vs := unitValues units u
  let c := if vs = [] then none else some (agg vs)
  match sd with
  | none => [c]
  | some s => [c, s vs]

/-- `df.iloc[-m:]`. Used for anomaly.py:251-269. -/
def lastRows {α : Type} (m : ℕ) (l : List α) : List α := if m = 0 then l else l.drop (l.length - m)

/-- `df.iloc[m:-m]`. Used for anomaly.py:251-269. -/
def inner {α : Type} (m : ℕ) (l : List α) : List α := if m = 0 then [] else (l.drop m).take (l.length - 2 * m)

/-- the index 1..n. Used for anomaly.py:251-269, anomaly.py:210-249. -/
def index (n : ℕ) : List ℕ := (List.range n).map (· + 1)

/-- anomaly.py:261-265: the smoothed first column -/
def smoothFirst (window : K) (fillna : Bool) (minObs : Int) (idx : List ℕ) (rows : List (List (Option K))) : List (List (Option K)) :=
  let sm := movingAverage (List.zipWith (fun (i : ℕ) r => ((i : K), r.headD none)) idx rows) window fillna minObs
  List.zipWith (fun v r => v :: r.drop 1) sm rows

/-- anomaly.py:251-269: smoothing of the climatology, with or without wrapping around -/
def smooth (A : Args K) (m n : ℕ) (rows : List (List (Option K))) : Except Err (List (List (Option K))) :=
  if A.wraparound then
    let left := lastRows m rows
    let leftIdx := lastRows m (index n)
    let ext := left ++ rows ++ rows.take m
    let idx := leftIdx ++ (index n).map (· + n) ++ ((index n).take m).map (· + n * 2)
    let sm := inner m (smoothFirst (m : K) A.fillna A.minObsClim idx ext)
    if sm.length = n then .ok sm else .error .valueError
  else .ok (smoothFirst (m : K) A.fillna A.minObsClim (index n) rows)

/-- `np.mean` of a tuple of rows: one number, the mean over all columns of both rows (NaN if one is missing). Used for anomaly.py:271-277. -/
def meanOfRows (a b : List (Option K)) : Option K :=
  if (a ++ b).all Option.isSome then some (((a ++ b).filterMap id).sum / ((a ++ b).length : K)) else none

/-- `clim_ser.loc[t, :] = np.mean((clim_ser.loc[a, :], clim_ser.loc[b, :]))` with labels starting at 1. Used for anomaly.py:271-277. -/
def interpolateRow (t a b : ℕ) (rows : List (List (Option K))) : List (List (Option K)) :=
  let v := meanOfRows (rows.getD (a - 1) []) (rows.getD (b - 1) [])
  rows.set (t - 1) ((rows.getD (t - 1) []).map (fun _ => v))

/-- anomaly.py:271-277 -/
def leapday (interpolate respect : Bool) (rows : List (List (Option K))) : List (List (Option K)) :=
  if interpolate && !respect then interpolateRow 60 59 61 rows
  else if interpolate && respect then interpolateRow 366 365 1 rows
  else rows

/-- anomaly.py:207-208 `Ser.truncate`: needs a sorted index -/
def truncate (span : Option (K × K)) (ser : List (Obs K)) : Except Err (List (Obs K)) :=
  match span with
  | none => .ok ser
  | some (a, b) =>
    if b < a then .error .valueError
    else if decide (ser.Pairwise (fun o p => o.jd ≤ p.jd)) || decide (ser.Pairwise (fun o p => p.jd ≤ o.jd)) then
      .ok (ser.filter (fun o => decide (a ≤ o.jd) && decide (o.jd ≤ b)))
    else .error .valueError

/-- anomaly.py:191-201: the smoothing window of the climatology -/
def climWindow (A : Args K) : Except Err ℕ :=
  match A.movingAvgClim with
  | some m => .ok m
  | none =>
    match A.freq with
    | .day => .ok 35
    | .month => .ok 3
    | .other => .error .keyError

/-- anomaly.py:210-249: long term rows 1..n -/
def longTerm (A : Args K) (respect : Bool) (n : ℕ) (ser : List (Obs K)) : List (List (Option K)) :=
  let sm := movingAverage (ser.map (fun o => (o.jd, o.value))) A.movingAvgOrig A.fillna A.minObsOrig
  let units := List.zipWith (fun o v => (indexUnit A.freq respect o, v)) ser sm
  (index n).map (unitRow A.agg A.sd units)

/-- anomaly.py:115-284 `calc_climatology`: one row per unit, the first column is the climatology. The window of the climatology is
a natural number (other values fail in `iloc`). -/
def calcClimatology (A : Args K) (ser : List (Obs K)) : Except Err (List (List (Option K))) := do
  let m ← climWindow A
  let isDay := match A.freq with
    | .day => true
    | _ => false
  let respect := A.respectLeapYears && isDay
  let interpolate := A.interpolateLeapday && isDay
  let ser ← truncate A.timespan ser
  match A.freq with
  | .other => .error .valueError
  | _ => do
    let n := nUnits A.freq
    let rows ← smooth A m n (longTerm A respect n ser)
    .ok ((leapday interpolate respect rows).map (fun r => r.map (fun v => v.orElse (fun _ => A.fill))))

/-- subtraction with NaN. Used for anomaly.py:53-81, anomaly.py:89-91. -/
def sub? (a b : Option K) : Option K :=
  match a, b with
  | some x, some y => some (x - y)
  | _, _ => none

/-- anomaly.py:53-81: anomalies from a climatology, given by its index and values (left join: NaN for days that are missing) -/
def anomalyFromClimatology (respect : Bool) (clim : List (ℕ × Option K)) (ser : List (Obs K)) : List (Option K) :=
  ser.map (fun o =>
    let d := doy o.month o.day (if respect then some o.year else none)
    sub? o.value ((clim.lookup d).getD none))

/-- anomaly.py:89-91: anomalies from the moving average -/
def anomalyFromAverage (window : K) (ser : List (Obs K)) : List (Option K) :=
  List.zipWith sub? (ser.map (·.value)) (movingAverage (ser.map (fun o => (o.jd, o.value))) window false 1)

end Verif.Climatology
