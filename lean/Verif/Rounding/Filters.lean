import Verif.Filters.Model

/-!
Model of `boxcar_filter` (116-176) and `exp_filter` (50-110) of `src/pytesmo/time_series/filters.pyx` with rounding.

The arrays are `double` (for `float` arrays both functions raise, C98). `rnd` is the rounding of `double`, `rnd32` the rounding of
C `float`: `window` (118), `ef` (72) and `gain` (73) are declared as `float`. `ex` is the `exp` of the C library. Overflow and underflow are
not modelled. As in `Filters.Model` an observation is a pair (julian date, value) with `none` for NaN.
-/

namespace Verif.Rounding

open Verif.Filters

variable {K : Type} [Field K] [LinearOrder K]

/-- filters.pyx:152-160 and 162-171, see `Filters.accumulate` -/
def accumulate (rnd : K → K) (nan limit t0 : K) : List (K × Option K) → K × Nat → K × Nat
  | [], s => s
  | o :: rest, s =>
    match usable nan o.2 with
    | none => accumulate rnd nan limit t0 rest s
    | some v => if |rnd (o.1 - t0)| ≤ limit then accumulate rnd nan limit t0 rest (rnd (s.1 + v), s.2 + 1) else s

/-- filters.pyx:173-174 -/
def average (rnd : K → K) (minObs : Int) (s : K × Nat) : Option K :=
  if minObs ≤ (s.2 : Int) then (if s.2 = 0 then none else some (rnd (s.1 / (s.2 : K)))) else none

/-- filters.pyx:147-174 -/
def boxcarLoop (rnd : K → K) (nan limit : K) (fillna : Bool) (minObs : Int) :
    List (K × Option K) → List (K × Option K) → List (Option K)
  | _, [] => []
  | before, o :: after =>
    let out :=
      if (usable nan o.2).isSome || fillna then
        average rnd minObs (accumulate rnd nan limit o.1 before (accumulate rnd nan limit o.1 (o :: after) (0, 0)))
      else none
    out :: boxcarLoop rnd nan limit fillna minObs (o :: before) after

/-- filters.pyx:116-176 `boxcar_filter(in_data, in_jd, window, nan, fillna, min_obs)`; line 142: `limit = window / 2.0` -/
def boxcarFilter (rnd rnd32 : K → K) (obs : List (K × Option K)) (window nan : K) (fillna : Bool) (minObs : Int) :
    List (Option K) :=
  boxcarLoop rnd nan (rnd (rnd32 window / 2)) fillna minObs [] obs

/-- state of `exp_filter` after the first usable value. Used for filters.pyx:84-108, filters.pyx:97-108. -/
structure ExpState (K : Type) where
  gain : K
  lastJd : K
  lastFiltered : K

/-- filters.pyx:84-108, see `Filters.expStep` -/
def expStep (rnd rnd32 ex : K → K) (ctime : ℤ) (nan : K) (s : Option (ExpState K)) (o : K × Option K) :
    Option (ExpState K) × Option K :=
  match usable nan o.2 with
  | none => (s, none)
  | some v =>
    match s with
    | none => (some ⟨1, o.1, v⟩, some v)
    | some s =>
      let ef := rnd32 (ex (rnd (-(rnd (o.1 - s.lastJd)) / (ctime : K))))
      let gain := rnd32 (s.gain / rnd32 (s.gain + ef))
      let f := rnd (s.lastFiltered + rnd (gain * rnd (v - s.lastFiltered)))
      (some ⟨gain, o.1, f⟩, some f)

/-- filters.pyx:97-108 -/
def expLoop (rnd rnd32 ex : K → K) (ctime : ℤ) (nan : K) : Option (ExpState K) → List (K × Option K) → List (Option K)
  | _, [] => []
  | s, o :: rest =>
    let r := expStep rnd rnd32 ex ctime nan s o
    r.2 :: expLoop rnd rnd32 ex ctime nan r.1 rest

/-- filters.pyx:50-110 `exp_filter(in_data, in_jd, ctime, nan)` -/
def expFilter (rnd rnd32 ex : K → K) (obs : List (K × Option K)) (ctime : ℤ) (nan : K) : List (Option K) :=
  expLoop rnd rnd32 ex ctime nan none obs

end Verif.Rounding
