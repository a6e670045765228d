import Verif.Rounding.Filters
import Mathlib.Data.Rat.Floor

/-!
Model of `moving_average` (`src/pytesmo/time_series/filtering.py:40-85`) for a series with a `DatetimeIndex`, in machine arithmetic.

A time stamp is the number of nanoseconds since 1970-01-01. `julday` stands for `cadati.jd_date.julday`, which is given month, day, year, hour, minute and second, that is, the whole seconds
of the time stamp; it is not part of the repository and a parameter here. `rnd` is the rounding of `double`, `rnd32` that of `float`.
-/

namespace Verif.Rounding.Moving

/-- filtering.py:66-71: the fields given to `julday` determine the whole seconds of the time stamp (`Ser.index.second` has no fraction) -/
def seconds (t : ℤ) : ℤ := t / 1000000000

/-- filtering.py:66-85 `moving_average(Ser, window_size, fillna, min_obs)`, the values of the result (its index is that of `Ser`); -999999 is the default of `nan` (filters.pyx:118) -/
def movingAverage (rnd rnd32 : ℚ → ℚ) (julday : ℤ → ℚ) (ser : List (ℤ × Option ℚ)) (windowSize : ℚ) (fillna : Bool) (minObs : ℤ) : List (Option ℚ) :=
  boxcarFilter rnd rnd32 (ser.map (fun o => (julday (seconds o.1), o.2))) windowSize (-999999) fillna minObs

end Verif.Rounding.Moving
