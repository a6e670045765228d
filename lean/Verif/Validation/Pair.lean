import Verif.Validation.EndToEnd
import Verif.Scaling.Props
import Verif.Calculators.Pair
import Mathlib.Data.String.Basic

/-!
C87: a validation put together from the models of the parts: default temporal matcher, `DefaultScaler`,
`PairwiseIntercomparisonMetrics`. The parts represent data frames and results differently; `toCalc`, `toScaling`, `fieldOf` convert.

Times and values are real numbers, names are strings.
-/

set_option linter.unusedSectionVars false
set_option synthInstance.maxSize 1000

noncomputable section

namespace Verif.Validation

open DataManager (Col col Admissible)
open Pairwise (Pairs)

/-! ### Conversions -/

/-- a column name of the frame given to scaler and calculator (validation.py:443, 466-471) -/
def labelName : Label String → String
  | .ds a => a
  | .ref => "ref"
  | .k i => "k" ++ toString i

/-- a frame as list of rows; the month of the index is not used by the calculator of pairs. Used for metric_calculators.py:1638-1671. -/
def toCalc (f : Frame String ℝ ℝ) : Calculators.Frame ℝ :=
  ⟨f.columns.map (fun c => (labelName c.1).toList),
   (List.range f.index.length).map (fun i => (0, f.columns.map (fun c => (c.2[i]?).join)))⟩

/-- a key of a result dictionary. Used for metric_calculators.py:1638-1671. -/
def fieldOf : Calculators.Key → Field
  | .name n => .plain (String.ofList n)
  | .pair m d => .tup [String.ofList m, String.ofList d]

/-- metric_calculators.py:1638-1671 `PairwiseIntercomparisonMetrics(min_obs, …).calc_metrics` without metadata template, as a calculator of a
validation. All entries of this calculator are arrays. -/
def pairCalculator (F : Calculators.PairFuncs) (o : Calculators.PairOptions) (minObs : ℕ) (f : Frame String ℝ ℝ)
    (info : Calculators.Info ℝ) : Except Exc (Metrics (Calculators.Val ℝ)) :=
  match (Calculators.pairwiseTemplate o none).bind (fun T => Calculators.pairwiseCalc F o minObs T none (toCalc f) info) with
  | .error _ => .error .other
  | .ok d => .ok (d.map (fun e => (fieldOf e.1, .arr e.2)))

/-- the frame for `scaling.scale`: the columns are named by data set. Used for data_scalers.py:39-78. -/
def toScaling (f : Frame String ℝ ℝ) : Scaling.Frame := f.columns.map (fun c => (labelName c.1, c.2))

/-- data_scalers.py:39-78 `DefaultScaler(method).scale(data, reference_index, gpi_info)` -/
def defaultScaler {Info : Type} (kw : Scaling.Kwargs) (method : String) (f : Frame String ℝ ℝ) (i : ℕ) (_info : Info) :
    Except Exc (Frame String ℝ ℝ) :=
  match Scaling.scale (Scaling.scalingFunction kw method) (toScaling f) i with
  | .error _ => .error .other
  | .ok d => .ok ⟨f.index, d.map (fun c => (.ds c.1, c.2))⟩

/-- the arguments of `Validation`. Used for validation.py:123-186. -/
structure PairJob where
  ds : List (String × List String)
  reference : String
  temporalRef : String
  scalingRef : String
  getData : Calculators.Info ℝ → Except Exc (List (String × DF String ℝ ℝ))
  window : ℝ
  /-- keyword arguments and name of the scaling method, `none`: no scaling -/
  scaling : Option (Scaling.Kwargs × String)
  F : Calculators.PairFuncs
  o : Calculators.PairOptions
  minObs : ℕ
  renameCols : Bool
  onlyWithReference : Bool

/-- validation.py:123-186 with `temporal_matcher=None` (the default matcher), no masking, and one calculator for pairs of all data sets -/
def PairJob.setup (P : PairJob) : Setup String ℝ ℝ (Calculators.Val ℝ) (Calculators.Info ℝ) where
  ds := P.ds
  reference := P.reference
  temporalRef := P.temporalRef
  scalingRef := P.scalingRef
  getData := P.getData
  mask := none
  matcher := basicMatcher P.window
  scale := P.scaling.map (fun s => defaultScaler s.1 s.2)
  calcs := [((P.ds.length, 2), pairCalculator P.F P.o P.minObs)]
  renameCols := P.renameCols
  onlyWithReference := P.onlyWithReference
  ofCode := .int

/-! ### Specification -/

/-- all data sets were read, nothing else; the data sets other than the temporal reference are in temporal order -/
structure AllRead (ds : List (String × List String)) (tref : String) (dfs : List (String × DF String ℝ ℝ)) : Prop where
  nodup : (dfs.map Prod.fst).Nodup
  known : ∀ e ∈ dfs, ∃ cols, (e.1, cols) ∈ ds
  all : ∀ e ∈ ds, ∃ df, (e.1, df) ∈ dfs ∧ ∀ c ∈ e.2, c ∈ df.cols
  sorted : ∀ e ∈ dfs, e.1 ≠ tref → (e.2.rows.map Prod.fst).Pairwise (· ≤ ·)

/-- `times` are the times of the temporal reference at which all columns of `sel` have a value, `val x t` is the value of column `x` at time
`t`: that of the temporal reference at this time, that of the nearest observation in the window for the other data sets. -/
structure Matched (window : ℝ) (dfs : List (String × DF String ℝ ℝ)) (tref : String) (sel : List (Col String)) (times : List ℝ)
    (val : Col String → ℝ → ℝ) : Prop where
  nodup : times.Nodup
  complete : ∀ t, t ∈ times ↔ (∃ df, (tref, df) ∈ dfs ∧ ∃ r ∈ df.rows, r.1 = t) ∧
    ∀ x ∈ sel, ∃ v, SeenAt window dfs tref t (ofLex x).1 (ofLex x).2 (some v)
  values : ∀ t ∈ times, ∀ x ∈ sel, SeenAt window dfs tref t (ofLex x).1 (ofLex x).2 (some (val x t))

/-- the result column `f` of a table has the value `w` at the `n`-th location -/
def EntryIs {W : Type} (tbl : List (Field × List W)) (f : Field) (n : ℕ) (w : W) : Prop :=
  ∃ col, (f, col) ∈ tbl ∧ col[n]? = some w

/-- `v` brought from mean and standard deviation of `s` to those of `r` -/
def standardised (s r : List ℝ) (v : ℝ) : ℝ :=
  (v - Moments.mean s) / Real.sqrt (Moments.pvar s) * Real.sqrt (Moments.pvar r) + Moments.mean r

/-- the scaling reference as column, if there is scaling: the first column of the data set -/
def PairJob.scalingCol (P : PairJob) : Option (Col String) :=
  match P.scaling, P.ds.lookup P.scalingRef with
  | some _, some (c :: _) => some (col P.scalingRef c)
  | _, _ => none

/-- the columns that must have a value: those of the result and the scaling reference -/
def PairJob.needed (P : PairJob) (key : Key String) : List (Col String) :=
  match P.scalingCol with
  | none => key
  | some s => if s ∈ key then key else key ++ [s]

/-- the value that is compared: `val x t` without scaling and for the scaling reference; else the standardised value, none for a
series that is constant -/
def compared (s : Option (Col String)) (times : List ℝ) (val : Col String → ℝ → ℝ) (x : Col String) (t : ℝ) : Option ℝ :=
  match s with
  | none => some (val x t)
  | some s =>
    if x = s then some (val x t)
    else if Moments.pvar (times.map (val x)) = 0 then none
    else some (standardised (times.map (val x)) (times.map (val s)) (val x t))

/-- the pairs of values of two series, times without one of them left out -/
def pairsOf (times : List ℝ) (a b : ℝ → Option ℝ) : Pairs :=
  times.filterMap (fun t => match a t, b t with
    | some v, some w => some (v, w)
    | _, _ => none)

/-- What the theorems assume about the arguments: distinct names, a window, and no scaling or scaling by mean and standard deviation to a data
set with one column. -/
structure PairJob.Sound (P : PairJob) : Prop where
  ds : (P.ds.map Prod.fst).Nodup
  cols : ∀ e ∈ P.ds, e.2.Nodup
  window : 0 ≤ P.window
  temporal : P.temporalRef ∈ P.ds.map Prod.fst
  minObs : 1 ≤ P.minObs
  scaling : P.scaling = none ∨ (∃ kw, P.scaling = some (kw, "mean_std")) ∧ ∃ c, (P.scalingRef, [c]) ∈ P.ds

end Verif.Validation
