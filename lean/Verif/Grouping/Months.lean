import Verif.Grouping.Model

/-! Model of the constructor of `MonthsMetricsAdapter` (/repo/src/pytesmo/validation_framework/metric_calculators_adapters.py:147-203) and of
the yearless dates given to `TsDistributor` (time_series/grouping.py:235-273, 352-363) as documented: as `YearlessDatetime` or as `datetime`
objects.

A dictionary is a list of entries with distinct keys. -/

namespace Verif.Grouping

/-- a value of the dictionary `month_subsets`: a list of months, or what the constructor puts in its place.
Used for metric_calculators_adapters.py:193-198, metric_calculators_adapters.py:192-198. -/
inductive Subset
  | months (l : List ℕ)
  | distr (D : Distributor)

/-- metric_calculators_adapters.py:42-46 `days_in_month`: the table of `cadati` has 13 entries -/
def daysInMonth? (m : ℕ) : Except Err ℕ := if m ≤ 12 then .ok (daysInMonth m) else .error .indexError

/-- metric_calculators_adapters.py:193-198: the distributor for one entry; a `TsDistributor` is not iterable -/
def distributorOf : Subset → Except Err Distributor
  | .distr _ => .error .typeError
  | .months l => do
    let rs ← l.mapM (fun m => do
      let n ← daysInMonth? m
      .ok ((⟨m, 1, 0⟩ : Pos), (⟨m, n, 86399000000000⟩ : Pos)))
    .ok ⟨none, none, none, some rs⟩

/-- metric_calculators_adapters.py:192-198: the loop. The entries are replaced in the dictionary of the caller; an exception leaves the rest
as it was. Returns the dictionary and the exception. -/
def buildMonths : List (String × Subset) → List (String × Subset) × Option Err
  | [] => ([], none)
  | (s, e) :: l =>
    match distributorOf e with
    | .error err => ((s, e) :: l, some err)
    | .ok D =>
      let r := buildMonths l
      ((s, .distr D) :: r.1, r.2)

/-- the subsets handed to `SubsetsMetricsAdapter` (201-202) -/
def distributors (d : List (String × Subset)) : List (String × Distributor) :=
  d.filterMap (fun e => match e.2 with
    | .distr D => some (e.1, D)
    | .months _ => none)

/-- metric_calculators_adapters.py:183-190: the default subsets -/
def defaultMonths : List (String × Subset) :=
  [("DJF", .months [12, 1, 2]), ("MAM", .months [3, 4, 5]), ("JJA", .months [6, 7, 8]), ("SON", .months [9, 10, 11]),
    ("ALL", .months [1, 2, 3, 4, 5, 6, 7, 8, 9, 10, 11, 12])]

/-- an element of `yearless_dates`. Used for grouping.py:352-363. -/
inductive YDate
  | yearless (p : Pos)
  | datetime (t : Stamp)

/-- grouping.py:352-363: `d.to_datetime(years)` for every element; a `datetime` has no such method -/
def yearlessDates? : List YDate → Option (List Pos)
  | [] => some []
  | .yearless p :: l => (yearlessDates? l).map (p :: ·)
  | .datetime _ :: _ => none

/-- grouping.py:203-207 `YearlessDatetime.from_datetime`: fractions of a second are dropped -/
def fromDatetime (t : Stamp) : Pos := ⟨t.pos.month, t.pos.day, t.pos.ns / 1000000000 * 1000000000⟩

end Verif.Grouping
