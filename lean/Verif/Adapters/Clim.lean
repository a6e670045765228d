import Verif.Adapters.Model
import Verif.Climatology.Model
import Verif.Climatology.Spec

/-! Model of `AnomalyClimAdapter` (/repo/src/pytesmo/validation_framework/adapters.py:380-446) together with the functions it calls,
`calc_climatology` and `calc_anomaly` (time_series/anomaly.py), including the column with the climatology (`return_clim=True`).

The keyword arguments that remain after the adapter has taken its own (adapters.py:416-421) are the arguments of `calc_climatology`. -/

set_option linter.unusedSectionVars false

namespace Verif.Adapters

variable {N T K : Type} [DecidableEq N] [Field K] [LinearOrder K]

/-- a time stamp: its julian date and its calendar date. Used for adapters.py:436-439. -/
structure Day (K : Type) where
  jd : K
  year : ℕ
  month : ℕ
  day : ℕ

/-- the observation of a row. Used for adapters.py:436-439. -/
def obsOf (x : Day K × Option K) : Climatology.Obs K := ⟨x.1.jd, x.1.year, x.1.month, x.1.day, x.2⟩

/-- an error of `calc_climatology` passes through the adapter. Used for adapters.py:436-439. -/
def ofClimErr : Climatology.Err → Err
  | .keyError => .keyError
  | .valueError => .valueError

/-- the climatology as a series with the index 1, 2, … (anomaly.py:235-241 and 281-284; the column `climatology`) -/
def climSeries (rows : List (List (Option K))) : List (ℕ × Option K) :=
  (Climatology.index rows.length).zip (rows.map (fun r => r.headD none))

/-- anomaly.py:54-87: the climatology broadcast over the index, with the default `respect_leap_years=True` -/
def climOf (clim : List (ℕ × Option K)) (ser : List (Climatology.Obs K)) : List (Option K) :=
  ser.map (fun o => (clim.lookup (Climatology.doy o.month o.day (some o.year))).getD none)

/-- adapters.py:436-439: climatology and anomalies of one column. `calc_anomaly` gets the climatology and `return_clim` only, so it
uses its default `respect_leap_years=True`. -/
def climAnomaly (A : Climatology.Args K) (s : List (Day K × Option K)) : Except Err (List (Option K) × List (Option K)) :=
  match Climatology.calcClimatology A (s.map obsOf) with
  | .error e => .error (ofClimErr e)
  | .ok rows => .ok (Climatology.anomalyFromClimatology true (climSeries rows) (s.map obsOf), climOf (climSeries rows) (s.map obsOf))

/-- adapters.py:440-444: the columns written for one column -/
def writeClim (climName : N → N) (returnClim : Bool) (c : N) (d : DF N T K) (r : List (Option K) × List (Option K)) : DF N T K :=
  if returnClim then setColumn (setColumn d c r.1) (climName c) r.2 else setColumn d c r.1

/-- adapters.py:436-444: one turn of the loop; `fn` computes anomalies and climatology of a series -/
def climStep (fn : List (T × Option K) → Except Err (List (Option K) × List (Option K))) (climName : N → N) (returnClim : Bool)
    (d : DF N T K) (c : N) : Except Err (DF N T K) :=
  if c ∈ d.cols then
    match fn (d.rows.map (fun r => (r.1, r.2 c))) with
    | .error e => .error e
    | .ok r => .ok (writeClim climName returnClim c d r)
  else .error .keyError

/-- adapters.py:430-446 `AnomalyClimAdapter._adapt`. Iterating over the frame goes through the columns it had at the beginning.
`climName c` is the name `f"{c}_climatology"`. -/
def climAdaptWith (fn : List (T × Option K) → Except Err (List (Option K) × List (Option K))) (climName : N → N) (returnClim : Bool)
    (columns : Option (List N)) (d : Option (DF N T K)) : Except Err (DF N T K) :=
  (columns.getD (basicAdapt d).cols).foldlM (climStep fn climName returnClim) (basicAdapt d)

/-- adapters.py:430-446 `AnomalyClimAdapter._adapt` with `calc_climatology` and `calc_anomaly` as function of a column -/
def climAdapt (A : Climatology.Args K) (climName : N → N) (returnClim : Bool) (columns : Option (List N)) (d : Option (DF N (Day K) K)) :
    Except Err (DF N (Day K) K) :=
  climAdaptWith (climAnomaly A) climName returnClim columns d

/-! ### Specification -/

/-- the values of a column -/
def column (d : DF N T K) (c : N) : List (Option K) := d.rows.map (fun r => r.2 c)

/-- What a user expects of the adapter: the requested columns hold the first result of `fn` for the original column, the added
columns the second, all other columns and the index are as before. -/
structure ClimResult (fn : List (T × Option K) → Except Err (List (Option K) × List (Option K))) (climName : N → N) (returnClim : Bool)
    (cs : List N) (d out : DF N T K) : Prop where
  cols : out.cols = d.cols ++ (if returnClim then cs.map climName else [])
  index : out.rows.map Prod.fst = d.rows.map Prod.fst
  requested : ∀ c ∈ cs, ∃ r, fn (d.rows.map (fun x => (x.1, x.2 c))) = .ok r ∧ column out c = r.1 ∧
    (returnClim = true → column out (climName c) = r.2)
  others : ∀ c ∉ cs, (returnClim = true → c ∉ cs.map climName) → column out c = column d c

/-- a date that exists -/
def RealDate (t : Day K) : Prop :=
  1 ≤ t.month ∧ t.month ≤ 12 ∧ 1 ≤ t.day ∧ t.day ≤ Climatology.monthLength (Climatology.isLeap t.year) t.month

/-- difference of two values, missing if one is missing -/
def diff (a b : Option K) : Option K := a.bind (fun x => b.map (fun y => x - y))

/-- the unit an observation belongs to in a daily climatology: the day of its year, or of a leap year if leap years are not respected -/
def ownDay (respect : Bool) (t : Day K) : ℕ :=
  Climatology.dayOfYear (if respect then Climatology.isLeap t.year else true) t.month t.day

end Verif.Adapters
