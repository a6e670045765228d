import Verif.Rolling.Float

/-!
Model of the conversion of time stamps in the results file: `PointDataResults._date2num` and `_num2date`
(`src/pytesmo/validation_framework/results_manager.py:155-176`), used by `add_ts_results` (223) and `read_ts` (358-360).

A time stamp of pandas is the number of nanoseconds since 1900-01-01 (`time_unit`, line 69). `date2num` and `num2date` of cftime are
taken to do what their source says: the number of days is the correctly rounded quotient of two `timedelta`s (an integer if it is
one), the way back multiplies in extended precision and takes the nearest microsecond. `rnd` is the rounding of `double`, `rndL` that
of `long double`. The calendar plays no role between 1677 and 2262 (the range of pandas). The byte format of the file is not modelled; a
`double` is stored as it is (dtype "float", line 135).
-/

namespace Verif.Results.Times

/-- microseconds of a day. Used for results_manager.py:176, results_manager.py:159-165. -/
def day : ℤ := 86400000000

/-- results_manager.py:174-175: `dates.to_pydatetime()` drops the nanoseconds -/
def toPydatetime (ns : ℤ) : ℤ := ns / 1000

/-- results_manager.py:176: `date2num(dates, units=self.time_unit, calendar="standard")`, in days -/
def date2num (rnd : ℚ → ℚ) (us : ℤ) : ℚ := if us % day = 0 then ((us / day : ℤ) : ℚ) else rnd ((us : ℚ) / day)

/-- results_manager.py:159-165: `num2date(nums, ...)`, in microseconds -/
def num2date (rndL : ℚ → ℚ) (x : ℚ) : ℤ := Verif.Rolling.Fl.nearestEven (rndL (x * day))

/-- results_manager.py:172-176 `_date2num` for a `DatetimeIndex` -/
def dateToNum (rnd : ℚ → ℚ) (ns : List ℤ) : List ℚ := ns.map (fun t => date2num rnd (toPydatetime t))

/-- results_manager.py:155-170 `_num2date`; the result is a `DatetimeIndex` (nanoseconds) -/
def numToDate (rndL : ℚ → ℚ) (xs : List ℚ) : List ℤ := xs.map (fun x => num2date rndL x * 1000)

end Verif.Results.Times
