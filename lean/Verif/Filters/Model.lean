import Mathlib.Algebra.Order.Field.Basic
import Mathlib.Analysis.SpecialFunctions.Exp

/-!
Model of `src/pytesmo/time_series/filters.pyx`: `exp_filter` (50-110) and `boxcar_filter` (116-176).

An observation is a pair (julian date, value) with `none` for NaN. C arithmetic on `float`/`double` is exact;
`in_jd` is NaN-free; `in_data` and `in_jd` have the same length (the loops run with bounds checks off).
-/

namespace Verif.Filters

section
variable {K : Type} [Field K] [LinearOrder K]

/-- filters.pyx:86, 98, 148, 153, 164: `not ((x == nan) or isnan(x))`, returning the usable value. -/
def usable (nan : K) (x : Option K) : Option K :=
  match x with
  | none => none
  | some v => if v = nan then none else some v

/-- filters.pyx:152-160 (forward, `j = i, i+1, …`) and 162-171 (backward, `j = i-1, …, 0`; the round `j = i` does
nothing): walk along the list, skip unusable values, add usable values in reach and `break` at the first usable value out of
reach. State: (sum, nobs). -/
def accumulate (nan limit t0 : K) : List (K × Option K) → K × Nat → K × Nat
  | [], s => s
  | o :: rest, s =>
    match usable nan o.2 with
    | none => accumulate nan limit t0 rest s
    | some v => if |o.1 - t0| ≤ limit then accumulate nan limit t0 rest (s.1 + v, s.2 + 1) else s

/-- filters.pyx:173-174: the result if there are enough observations (`0/0` is NaN). -/
def average (minObs : Int) (s : K × Nat) : Option K :=
  if minObs ≤ (s.2 : Int) then (if s.2 = 0 then none else some (s.1 / (s.2 : K))) else none

/-- filters.pyx:147-174: the loop over `i`. `before` holds the already visited observations, most recent first. -/
def boxcarLoop (nan limit : K) (fillna : Bool) (minObs : Int) :
    List (K × Option K) → List (K × Option K) → List (Option K)
  | _, [] => []
  | before, o :: after =>
    let out :=
      if (usable nan o.2).isSome || fillna then
        average minObs (accumulate nan limit o.1 before (accumulate nan limit o.1 (o :: after) (0, 0)))
      else none
    out :: boxcarLoop nan limit fillna minObs (o :: before) after

/-- filters.pyx:116-176 `boxcar_filter(in_data, in_jd, window, nan, fillna, min_obs)`. -/
def boxcarFilter (obs : List (K × Option K)) (window nan : K) (fillna : Bool) (minObs : Int) :
    List (Option K) :=
  boxcarLoop nan (window / 2) fillna minObs [] obs

end

section
/-- State of `exp_filter` after the first usable value: `gain`, `last_jd_var`, `last_filtered_var`. Used for filters.pyx:84-108. -/
structure ExpState where
  gain : ℝ
  lastJd : ℝ
  lastFiltered : ℝ

open Real in
/-- filters.pyx:84-108. State `none` until the first usable value was found (84-93). -/
noncomputable def expStep (ctime : ℤ) (nan : ℝ) (s : Option ExpState) (o : ℝ × Option ℝ) :
    Option ExpState × Option ℝ :=
  match usable nan o.2 with
  | none => (s, none)
  | some v =>
    match s with
    | none => (some ⟨1, o.1, v⟩, some v)
    | some s =>
      let ef := exp (-(o.1 - s.lastJd) / (ctime : ℝ))
      let gain := s.gain / (s.gain + ef)
      let f := s.lastFiltered + gain * (v - s.lastFiltered)
      (some ⟨gain, o.1, f⟩, some f)

/-- the loop of `exp_filter`. Used for filters.pyx:50-110. -/
noncomputable def expLoop (ctime : ℤ) (nan : ℝ) : Option ExpState → List (ℝ × Option ℝ) → List (Option ℝ)
  | _, [] => []
  | s, o :: rest =>
    let r := expStep ctime nan s o
    r.2 :: expLoop ctime nan r.1 rest

/-- filters.pyx:50-110 `exp_filter(in_data, in_jd, ctime, nan)`. -/
noncomputable def expFilter (obs : List (ℝ × Option ℝ)) (ctime : ℤ) (nan : ℝ) : List (Option ℝ) :=
  expLoop ctime nan none obs
end

end Verif.Filters
