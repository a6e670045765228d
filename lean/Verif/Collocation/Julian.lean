import Verif.Resample.Model
import Verif.Rolling.Float

/-!
Model of `temporal_collocation(method="mean")` (`src/pytesmo/temporal_matching.py:342-366`) and `resample_mean` (512-568) in the arithmetic of the machine.

A time stamp is the number of nanoseconds since 1970-01-01. `rnd` is the rounding of `double` after every operation. `DatetimeIndex.to_julian_date` of pandas is written out as
in its source; the number of days of the date is exact there (half-integers below 2^23) and taken to be right. `np.nanmean` in numba adds from left to right. One column of
type float64, no flags, time stamps without repetitions; `dropduplicates`, flags and column types are in `Collocation.Model` and `Dtypes`.
-/

namespace Verif.Collocation.Julian

open Verif.Resample (advLower advUpper Err)

/-- nanoseconds of a day. Used for temporal_matching.py:345, 357, temporal_matching.py:344. -/
def dayNs : ℤ := 86400000000000

/-- pandas `to_julian_date`: `hour + minute / 60 + second / 3600 + microsecond / 3600 / 10**6 + nanosecond / 3600 / 10**9` for the nanoseconds since midnight
(used at temporal_matching.py:345, 357) -/
def hours (rnd : ℚ → ℚ) (r : ℤ) : ℚ :=
  let h : ℤ := r / 3600000000000
  let m : ℤ := r / 60000000000 % 60
  let s : ℤ := r / 1000000000 % 60
  let us : ℤ := r / 1000 % 1000000
  let ns : ℤ := r % 1000
  rnd (rnd (rnd (rnd (h + rnd (m / 60)) + rnd (s / 3600)) + rnd (rnd (us / 3600) / 10 ^ 6)) + rnd (rnd (ns / 3600) / 10 ^ 9))

/-- pandas `to_julian_date` (used at temporal_matching.py:345, 357): the days of the date, plus the hours divided by 24 -/
def julian (rnd : ℚ → ℚ) (t : ℤ) : ℚ := rnd (4881175 / 2 + (t / dayNs : ℤ) + rnd (hours rnd (t % dayNs) / 24))

/-- temporal_matching.py:344: `window_days = 2 * window / pd.Timedelta(1, "D")`; pandas divides the nanoseconds, converted to `double` -/
def windowDays (rnd : ℚ → ℚ) (w : ℤ) : ℚ := rnd (rnd (2 * w : ℤ) / dayNs)

/-- `np.nanmean` in numba (568) -/
def nanmean (rnd : ℚ → ℚ) (vs : List (Option ℚ)) : Option ℚ :=
  let ok := vs.filterMap id
  if ok.isEmpty then none else some (rnd (ok.foldl (fun s v => rnd (s + v)) 0 / (ok.length : ℚ)))

/-- temporal_matching.py:547-568, as `Resample.step` -/
def step (rnd : ℚ → ℚ) (times : List ℚ) (values : List (Option ℚ)) (half last : ℚ) (s : ℕ × ℤ) (target : ℚ) : (ℕ × ℤ) × Option ℚ :=
  let lower := advLower (rnd (target - half)) (times.drop s.1) s.1
  let upper :=
    if rnd (target + half) < last then advUpper (rnd (target + half)) (times.drop (max 0 s.2).toNat) (max 0 s.2) s.2
    else (times.length : ℤ) - 1
  let nobs := max (upper - (lower : ℤ) + 1) 0
  let out := if nobs = 0 then none else nanmean rnd ((values.drop lower).take (upper + 1 - (lower : ℤ)).toNat)
  ((lower, upper), out)

/-- temporal_matching.py:547 -/
def loop (rnd : ℚ → ℚ) (times : List ℚ) (values : List (Option ℚ)) (half last : ℚ) : ℕ × ℤ → List ℚ → List (Option ℚ)
  | _, [] => []
  | s, target :: rest =>
    let r := step rnd times values half last s target
    r.2 :: loop rnd times values half last r.1 rest

/-- temporal_matching.py:520-568 `resample_mean(times, values, target_times, window)`; 545: `half_window = window / 2.0` -/
def resampleMean (rnd : ℚ → ℚ) (times : List ℚ) (values : List (Option ℚ)) (targets : List ℚ) (window : ℚ) : Except Err (List (Option ℚ)) :=
  if times.length ≠ values.length then .error .shape
  else match times.getLast? with
    | none => if targets.isEmpty then .ok [] else .error .outOfBounds
    | some last => .ok (loop rnd times values (rnd (window / 2)) last (0, 0) targets)

/-- temporal_matching.py:342-366 for one column: time stamps and values of `other`, time stamps of the reference, half width of the window -/
def meanCollocation (rnd : ℚ → ℚ) (other : List (ℤ × Option ℚ)) (refs : List ℤ) (w : ℤ) : Except Err (List (Option ℚ)) :=
  resampleMean rnd (other.map (fun o => julian rnd o.1)) (other.map Prod.snd) (refs.map (julian rnd)) (windowDays rnd w)

end Verif.Collocation.Julian
