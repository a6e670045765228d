import Mathlib.Data.List.Sort
import Mathlib.Data.List.Dedup
import Verif.Climatology.Model

/-!
Model of `src/pytesmo/time_series/grouping.py` (47-397) and of
`src/pytesmo/validation_framework/metric_calculators_adapters.py` (42-203).

A time stamp is a year and a position inside the year (month, day, nanosecond of the day). Time zones are not modelled.
-/

namespace Verif.Grouping

open Climatology (isLeap)

/-- exceptions. Used for grouping.py:87-125, grouping.py:47-84. -/
inductive Err
  | indexError
  | valueError
  | typeError
  deriving DecidableEq

/-- nanoseconds per day. Used for grouping.py:178-188. -/
def dayNs : ℕ := 86400000000000

/-- month, day and nanosecond of the day: `YearlessDatetime` (159-230; whole seconds) and the year-independent part of a time
stamp -/
structure Pos where
  month : ℕ
  day : ℕ
  ns : ℕ
  deriving DecidableEq

/-- the position in the (leap) year, as a number. grouping.py:178-188 compares the dates in the leap year 2400; for dates
(`day < 32`, `ns < dayNs`) this is the order of the keys. -/
def Pos.key (p : Pos) : ℕ := (p.month * 32 + p.day) * dayNs + p.ns

/-- a time stamp. Used for grouping.py:209-230, grouping.py:371-391. -/
structure Stamp where
  year : ℕ
  pos : Pos
  deriving DecidableEq

/-- order of time stamps. Used for grouping.py:323-397, grouping.py:47-84. -/
def Stamp.le (a b : Stamp) : Bool := decide (a.year < b.year) || (decide (a.year = b.year) && decide (a.pos.key ≤ b.pos.key))

/-- 29 February: `doy == 60` (218, 375, 385), doy counted as in a leap year -/
def isLeapDay (p : Pos) : Bool := decide (p.month = 2) && decide (p.day = 29)

/-! ### Date sets -/

/-- grouping.py:209-230 `YearlessDatetime.to_datetime(years)`: 29 February of ordinary years is left out -/
def toDatetimes (p : Pos) (years : List ℕ) : List Stamp :=
  (years.filter (fun y => !(!isLeap y && isLeapDay p))).map (fun y => ⟨y, p⟩)

/-- `np.unique(idx.year)`. Used for grouping.py:323-397. -/
def uniqueYears (idx : List Stamp) : List ℕ := (idx.map Stamp.year).dedup.insertionSort (· ≤ ·)

/-- grouping.py:371-391: the column written for year `y` of a yearless range: the year in its name, start and end -/
def rangeColumn (g : Pos × Pos) (y : ℕ) : ℕ × Stamp × Stamp :=
  let start := if !isLeap y && isLeapDay g.1 then ⟨3, 1, 0⟩ else g.1
  let y' := if g.2.key < start.key then y + 1 else y
  let end_ := if !isLeap y' && isLeapDay g.2 then ⟨2, 28, 86399000000000⟩ else g.2
  (y', ⟨y, start⟩, ⟨y', end_⟩)

/-- dictionary assignment (390) -/
def assign {β : Type} (d : List (ℕ × β)) (k : ℕ) (v : β) : List (ℕ × β) :=
  if d.any (fun e => decide (e.1 = k)) then d.map (fun e => if e.1 = k then (k, v) else e) else d ++ [(k, v)]

/-- grouping.py:366-391, one yearless range: the columns, by the year in their names (a later column with the same name replaces an
earlier one) -/
def rangeColumns (g : Pos × Pos) (years : List ℕ) : List (ℕ × Stamp × Stamp) :=
  years.foldl (fun d y => assign d (rangeColumn g y).1 (rangeColumn g y).2) []

/-- A `TsDistributor` (233-273); the yearless dates are dates of a leap year (others raise in `datetime`). -/
structure Distributor where
  dates : Option (List Stamp)
  dateRanges : Option (List (Stamp × Stamp))
  yearlessDates : Option (List Pos)
  yearlessRanges : Option (List (Pos × Pos))

/-- grouping.py:323-397 `filter`: is the time stamp `t` of the index `idx` selected? -/
def selected (D : Distributor) (idx : List Stamp) (t : Stamp) : Bool :=
  ((D.dates.getD []).contains t) ||
  ((D.dateRanges.getD []).any (fun r =>
    let s := if r.1.le r.2 then r else (r.2, r.1)
    s.1.le t && t.le s.2)) ||
  ((D.yearlessDates.getD []).any (fun p => (toDatetimes p (uniqueYears idx)).contains t)) ||
  ((D.yearlessRanges.getD []).any (fun g =>
    (rangeColumns g (uniqueYears idx)).any (fun c => c.2.1.le t && t.le c.2.2)))

/-- grouping.py:284-321 `select` for the rows of a frame; with `set_nan` the rows stay and their values become NaN (in the frame of
the caller) -/
def select {V : Type} (D : Distributor) (rows : List (Stamp × V)) : List (Stamp × V) :=
  rows.filter (fun r => selected D (rows.map Prod.fst) r.1)

/-- grouping.py:317-319: `set_nan` -/
def selectNan {V : Type} (nan : V) (D : Distributor) (rows : List (Stamp × V)) : List (Stamp × V) :=
  rows.map (fun r => if selected D (rows.map Prod.fst) r.1 then r else (r.1, nan))

/-! ### Day bins -/

/-- a date. Used for grouping.py:87-125, grouping.py:47-84. -/
structure Date where
  year : ℕ
  month : ℕ
  day : ℕ
  deriving DecidableEq

/-- `calendar.monthrange(year, month)[1]`. Used for grouping.py:87-125, metric_calculators_adapters.py:42-46. -/
def monthLen (year month : ℕ) : ℕ :=
  if month = 2 then (if isLeap year then 29 else 28) else if month = 4 ∨ month = 6 ∨ month = 9 ∨ month = 11 then 30 else 31

/-- `np.digitize(day, bins)` for increasing bins. Used for grouping.py:87-125. -/
def digitize (bins : List ℤ) (day : ℕ) : ℕ := bins.countP (fun b => decide (b ≤ (day : ℤ)))

/-- `date(year, month, day)`: the day has to exist. Used for grouping.py:87-125. -/
def mkDate (year month : ℕ) (day : ℤ) : Except Err Date :=
  if 1 ≤ day ∧ day ≤ (monthLen year month : ℤ) then .ok ⟨year, month, day.toNat⟩ else .error .valueError

/-- `bins[i]`; `-1` is the last entry. Used for grouping.py:87-125. -/
def binAt (bins : List ℤ) (i : ℤ) : Except Err ℤ :=
  let j := if i < 0 then (bins.length : ℤ) + i else i
  if 0 ≤ j then
    match bins[j.toNat]? with
    | some b => .ok b
    | none => .error .indexError
  else .error .indexError

/-- grouping.py:87-125 `grp_to_datetimeindex`, one entry -/
def label (bins : List ℤ) (start : Bool) (d : Date) : Except Err Date := do
  let b ← binAt bins ((digitize bins d.day : ℤ) + (if start then -1 else 0))
  mkDate d.year d.month (min (b - (if start then 0 else 1)) (monthLen d.year d.month))

/-- order of dates. Used for grouping.py:323-397, grouping.py:47-84. -/
def Date.le (a b : Date) : Prop := a.year < b.year ∨ (a.year = b.year ∧ (a.month < b.month ∨ (a.month = b.month ∧ a.day ≤ b.day)))

instance : DecidableRel Date.le := fun a b => by unfold Date.le; infer_instance

/-- grouping.py:47-84 `group_by_day_bin`: the sorted labels with the rows of each group (`groupby(level=0)`). `dates` are the
dates of the rows. -/
def groupByDayBin {V : Type} (bins : List ℤ) (start : Bool) (rows : List (Date × V)) : Except Err (List (Date × List V)) := do
  let labels ← rows.mapM (fun r => label bins start r.1)
  let keys := labels.dedup.insertionSort Date.le
  .ok (keys.map (fun k => (k, ((labels.zip rows).filter (fun p => decide (p.1 = k))).map (fun p => p.2.2))))

/-- grouping.py:128-156 `grouped_dates_between`, given the days between start and end date -/
def groupedDatesBetween (bins : List ℤ) (start : Bool) (daily : List Date) : Except Err (List Date) := do
  let g ← groupByDayBin bins start (daily.map (fun d => (d, ())))
  .ok (g.map Prod.fst)

/-! ### Metric calculators on subsets -/

/-- result keys of `SubsetsMetricsAdapter`. Used for metric_calculators_adapters.py:107-117, metric_calculators_adapters.py:97-105. -/
inductive Key
  | plain (metric : String)
  | pair (set metric : String)
  deriving DecidableEq

/-- `group_results`. Used for metric_calculators_adapters.py:107-117, metric_calculators_adapters.py:97-105. -/
inductive Mode
  | tuple
  | join
  deriving DecidableEq

/-- metric_calculators_adapters.py:107-117 `_genname`. Metric names are strings. -/
def genname (mode : Mode) (nonSeas : List String) (set metric : String) : Key :=
  if nonSeas.contains metric then .plain metric
  else match mode with
    | .tuple => .pair set metric
    | .join => .plain (set ++ "|" ++ metric)

/-- dictionary assignment. Used for metric_calculators_adapters.py:97-105, metric_calculators_adapters.py:119-144. -/
def put {α β : Type} [DecidableEq α] (d : List (α × β)) (k : α) (v : β) : List (α × β) :=
  if d.any (fun e => decide (e.1 = k)) then d.map (fun e => if e.1 = k then (k, v) else e) else d ++ [(k, v)]

/-- metric_calculators_adapters.py:97-105: the template with an entry for every subset -/
def subsetTemplate {V : Type} (mode : Mode) (nonSeas : List String) (subsets : List String) (template : List (String × V)) :
    List (Key × V) :=
  subsets.foldl (fun ds s => template.foldl (fun ds m => put ds (genname mode nonSeas s m.1) m.2) ds) []

/-- metric_calculators_adapters.py:119-144 `calc_metrics`: the wrapped calculator (`metrics`) for every subset -/
def subsetMetrics {R V : Type} (mode : Mode) (nonSeas : List String) (template : List (String × V))
    (subsets : List (String × Distributor)) (metrics : List (Stamp × R) → List (String × V)) (data : List (Stamp × R)) :
    List (Key × V) :=
  subsets.foldl (fun ds s =>
    (metrics (if data.isEmpty then data else select s.2 data)).foldl (fun ds m => put ds (genname mode nonSeas s.1 m.1) m.2) ds)
    (subsetTemplate mode nonSeas (subsets.map Prod.fst) template)

/-- metric_calculators_adapters.py:42-46: days of a month in a leap year -/
def daysInMonth (m : ℕ) : ℕ := monthLen 2400 m

/-- metric_calculators_adapters.py:190-196: the distributor for some months -/
def monthsDistributor (months : List ℕ) : Distributor :=
  ⟨none, none, none, some (months.map (fun m => (⟨m, 1, 0⟩, ⟨m, daysInMonth m, 86399000000000⟩)))⟩

end Verif.Grouping
