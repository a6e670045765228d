import Mathlib.Algebra.Order.Field.Basic

/-! Specification of the climatology: circular moving mean, calendar. -/

namespace Verif.Climatology

variable {K : Type} [Field K] [LinearOrder K]

/-- a value that takes part in an average: not NaN and not the no-data value -/
def available (nan : K) (v : Option K) : Option K := v.bind (fun x => if x = nan then none else some x)

/-- The circular moving mean at position `i` of `n` values `c 0, …, c (n-1)`: mean of the available values at the positions
`i - m/2, …, i + m/2` modulo `n`. -/
def circularMean (nan : K) (c : ℕ → Option K) (n m : ℕ) (fillna : Bool) (minObs : Int) (i : ℕ) : Option K :=
  let vs := (List.range (2 * (m / 2) + 1)).filterMap (fun d => available nan (c ((i + n - m / 2 + d) % n)))
  if (c i = none ∨ c i = some nan) ∧ fillna = false then none
  else if (vs.length : Int) < minObs ∨ vs = [] then none
  else some (vs.sum / vs.length)

/-- The moving mean at position `i` of `n` values without wrapping around: mean of the available values at the positions of `0 … n-1`
that are at most `m/2` away from `i`. -/
def flatMean (nan : K) (c : ℕ → Option K) (n m : ℕ) (fillna : Bool) (minObs : Int) (i : ℕ) : Option K :=
  let vs := ((List.range n).filter (fun j => decide (j ≤ i + m / 2 ∧ i ≤ j + m / 2))).filterMap (fun j => available nan (c j))
  if (c i = none ∨ c i = some nan) ∧ fillna = false then none
  else if (vs.length : Int) < minObs ∨ vs = [] then none
  else some (vs.sum / vs.length)

/-- mean of two values, missing if one is missing -/
def mean2 (a b : Option K) : Option K := a.bind (fun x => b.map (fun y => (x + y) / 2))

/-- Interpolation of the leap day: 29 February (day 60 of 366) is the mean of its neighbours; if leap years are respected, day 366 is
the mean of day 365 and day 1. -/
def withLeapday (interpolate respect : Bool) (c : ℕ → Option K) (i : ℕ) : Option K :=
  if interpolate = true ∧ respect = false ∧ i = 59 then mean2 (c 58) (c 60)
  else if interpolate = true ∧ respect = true ∧ i = 365 then mean2 (c 364) (c 0)
  else c i

/-- distance on a circle of `n` positions -/
def circDist (n i j : ℕ) : ℕ := min ((i + n - j) % n) ((j + n - i) % n)

/-- days of a month -/
def monthLength (leap : Bool) (month : ℕ) : ℕ :=
  if month = 2 then (if leap then 29 else 28) else if month = 4 ∨ month = 6 ∨ month = 9 ∨ month = 11 then 30 else 31

/-- day of the year by counting the days of the months before -/
def dayOfYear (leap : Bool) (month day : ℕ) : ℕ := ((List.range (month - 1)).map (fun k => monthLength leap (k + 1))).sum + day

end Verif.Climatology
