import Mathlib.Algebra.Order.Field.Basic

/-!
Model of `resample_mean`, `src/pytesmo/temporal_matching.py:512-568`.

float64 is modelled by an arbitrary linearly ordered field `K`; `NaN` values are
`none`. `times` and `target_times` are assumed NaN-free (they are Julian dates
of a `DatetimeIndex`).
-/

namespace Verif.Resample

variable {K : Type*} [Field K] [LinearOrder K]

/-- Errors of a call. `shape`: the gufunc signature `(n),(n),(m),()->(m)`
(temporal_matching.py:517) rejects `times`/`values` of different length.
`outOfBounds`: `times[n_orig - 1]` (line 556) for an empty series. -/
inductive Err | shape | outOfBounds
  deriving DecidableEq, Repr

/-- temporal_matching.py:548-554: the loop over `j in range(lower, n_orig + 1)`
that sets `lower = j` and stops at the end or at the first time `>= bound`. The list argument is
`times[j:]`. -/
def advLower (bound : K) : List K → Nat → Nat
  | [], j => j
  | t :: ts, j => if bound ≤ t then j else advLower bound ts (j + 1)

/-- temporal_matching.py:557-560: the loop over `j in range(max(0, upper), n_orig)`
that sets `upper = j - 1` and stops at the first time `> bound`. The list
argument is `times[j:]`, the last one the current `upper` (which may be `-1`). -/
def advUpper (bound : K) : List K → Int → Int → Int
  | [], _, upper => upper
  | t :: ts, j, _ => if bound < t then j - 1 else advUpper bound ts (j + 1) (j - 1)

/-- `np.nanmean` of a slice: mean of the entries that are not NaN, NaN if there is none. Used for temporal_matching.py:547-568. -/
def nanmean (vs : List (Option K)) : Option K :=
  let ok := vs.filterMap id
  if ok.isEmpty then none else some (ok.sum / (ok.length : K))

/-- temporal_matching.py:547-568: one round of the outer loop, for one target
time. State: the carried cursors `(lower, upper)`. `last` is `times[n_orig - 1]`. -/
def step (times : List K) (values : List (Option K)) (half last : K)
    (s : Nat × Int) (target : K) : (Nat × Int) × Option K :=
  let lower := advLower (target - half) (times.drop s.1) s.1
  let upper :=
    if target + half < last then
      advUpper (target + half) (times.drop (max 0 s.2).toNat) (max 0 s.2) s.2
    else (times.length : Int) - 1
  let nobs := max (upper - (lower : Int) + 1) 0
  let out := if nobs = 0 then none
    else nanmean ((values.drop lower).take (upper + 1 - (lower : Int)).toNat)
  ((lower, upper), out)

/-- The outer loop (line 547), carrying the cursors. -/
def loop (times : List K) (values : List (Option K)) (half last : K) :
    Nat × Int → List K → List (Option K)
  | _, [] => []
  | s, target :: rest =>
    let r := step times values half last s target
    r.2 :: loop times values half last r.1 rest

/-- temporal_matching.py:520-568 `resample_mean(times, values, target_times, window)`. -/
def resampleMean (times : List K) (values : List (Option K)) (targets : List K) (window : K) :
    Except Err (List (Option K)) :=
  if times.length ≠ values.length then .error .shape
  else match times.getLast? with
    | none => if targets.isEmpty then .ok [] else .error .outOfBounds
    | some last => .ok (loop times values (window / 2) last (0, 0) targets)

end Verif.Resample
