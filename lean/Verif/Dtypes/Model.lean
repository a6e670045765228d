import Verif.Calculators.Model
import Verif.Climatology.Model
import Verif.Rolling.Model

/-!
Element types of arrays: the dispatch of the compiled metrics (`src/pytesmo/metrics/_fast_pairwise.pyx`) and filters
(`src/pytesmo/time_series/filters.pyx`) whose arguments have the fused type `floating [:]`, and the functions of
`src/pytesmo/metrics/pairwise.py`, the calculators and `moving_average` that call them.

Simplifications: three element types, `int` is int64; the numbers themselves are exact in all types (rounding to float32 is left out); arrays are
writable and in native byte order.
-/

noncomputable section

namespace Verif.Dtypes

open Verif.Pairwise Verif.Moments

/-- element type of an array. Used for _fast_pairwise.pyx:12, 49, 74, 98, 140, 181, 225, 277, metric_calculators.py:307-311, 350-351. -/
inductive DType
  | f32
  | f64
  | int
  deriving DecidableEq

/-- what is raised: "No matching signature found" or "Buffer dtype mismatch".
Used for _fast_pairwise.pyx:12, 49, 74, 98, 140, 181, 225, 277, _fast_pairwise.pyx:49. -/
inductive Err
  | typeError
  | valueError
  deriving DecidableEq

/-- an array. Used for _fast_pairwise.pyx:49, _fast_pairwise.pyx:74. -/
structure Arr where
  dtype : DType
  vals : List ℝ

/-! ### Compiled functions -/

/-- the specialisation chosen by the dispatcher of a function with a fused type, from the first argument of that type
(_fast_pairwise.pyx:12, 49, 74, 98, 140, 181, 225, 277) -/
def specialise : DType → Except Err DType
  | .f32 => .ok .f32
  | .f64 => .ok .f64
  | .int => .error .typeError

/-- a call `f(x, y)` with two arguments `floating [:]`: the second one must have the type of the specialisation.
Used for _fast_pairwise.pyx:49, _fast_pairwise.pyx:74. -/
def fused {A : Type} (f : Pairs → A) (x y : Arr) : Except Err A := do
  let d ← specialise x.dtype
  if y.dtype = d then .ok (f (x.vals.zip y.vals)) else .error .valueError

/-- _fast_pairwise.pyx:49 `bias` -/
def tBias : Arr → Arr → Except Err ℝ := fused Pairwise.bias
/-- _fast_pairwise.pyx:74 `RSS` -/
def tRSS : Arr → Arr → Except Err ℝ := fused Pairwise.RSS
/-- _fast_pairwise.pyx:98 `mse_corr` -/
def tMseCorr : Arr → Arr → Except Err ℝ := fused Pairwise.mseCorr
/-- _fast_pairwise.pyx:140 `mse_var` -/
def tMseVar : Arr → Arr → Except Err ℝ := fused Pairwise.mseVar
/-- _fast_pairwise.pyx:181 `mse_bias` -/
def tMseBias : Arr → Arr → Except Err ℝ := fused Pairwise.mseBias
/-- _fast_pairwise.pyx:225 `mse_decomposition` -/
def tMseDecomposition : Arr → Arr → Except Err (ℝ × ℝ × ℝ × ℝ) := fused Pairwise.mseDecomposition
/-- _fast_pairwise.pyx:12 `_moments_welford` -/
def tMoments : Arr → Arr → Except Err (Moments ℝ) := fused momentsWelford

/-! ### pairwise.py -/

/-- pairwise.py:135 `aad`: numpy only -/
def tAad (x y : Arr) : Except Err ℝ := .ok (Pairwise.aad (x.vals.zip y.vals))

/-- pairwise.py:193 `msd` -/
def tMsd (x y : Arr) : Except Err ℝ := do
  let s ← tRSS x y
  .ok (s / (x.vals.length : ℝ))

/-- pairwise.py:220-228 `rmsd` -/
def tRmsd (x y : Arr) (ddof : ℤ) : Except Err ℝ :=
  if ddof = 0 then do
    let m ← tMsd x y
    .ok (Real.sqrt m)
  else do
    let s ← tRSS x y
    .ok (Real.sqrt (s / ((x.vals.length : ℝ) - ddof)))

/-- pairwise.py:253 `nrmsd` -/
def tNrmsd (x y : Arr) (ddof : ℤ) : Except Err ℝ := do
  let r ← tRmsd x y ddof
  .ok (r / (maxBoth (x.vals.zip y.vals) - minBoth (x.vals.zip y.vals)))

/-- `x - np.mean(x)`: an array of integers becomes float64 -/
def centred (x : Arr) : Arr :=
  ⟨if x.dtype = .int then .f64 else x.dtype, x.vals.map (· - npMean x.vals)⟩

/-- pairwise.py:286-294 `ubrmsd` -/
def tUbrmsd (x y : Arr) (ddof : ℤ) : Except Err ℝ :=
  if ddof ≠ 0 then do
    let s ← tRSS (centred x) (centred y)
    .ok (Real.sqrt (s / ((x.vals.length : ℝ) - ddof)))
  else fused ubrmsd0 x y

/-! ### Frames -/

/-- common type of two columns (numpy promotion). Used for metric_calculators.py:1357, 1663. -/
def promote (a b : DType) : DType := if a = b then a else .f64

/-- `df.values`: one array of the common type of all columns (df_metrics.py `nwise_apply`, metric_calculators.py:1357, 1663) -/
def values : List Arr → List Arr
  | [] => []
  | x :: l => (x :: l).map (fun y => ⟨(l.map Arr.dtype).foldl promote x.dtype, y.vals⟩)

/-- the functions called by `BasicMetrics.calc_metrics` and `BasicMetricsPlusMSE.calc_metrics` (metric_calculators.py:307-311, 350-351) for columns
of the types `dx` and `dy`: each column keeps its own type. A NaN in the data makes the metric NaN. -/
def lift (f : Arr → Arr → Except Err (List ℝ)) (dx dy : DType) (x y : List (Option ℝ)) : Except Calculators.Err (List (Option ℝ)) :=
  match f ⟨dx, x.map (·.getD 0)⟩ ⟨dy, y.map (·.getD 0)⟩ with
  | .ok r => .ok (r.map (fun v => if x.all Option.isSome && y.all Option.isSome then some v else none))
  | .error .typeError => .error .typeError
  | .error .valueError => .error .valueError

/-- first element of a list of results. Used for metric_calculators.py:307-311, 350-351. -/
def hd (l : List (Option ℝ)) (i : ℕ) : Option ℝ := (l[i]?).join

/-- metric_calculators.py:307-311, 350-351: `metrics.rmsd`, `metrics.bias`, `metrics.mse_decomposition` on typed columns, the correlations of scipy
as they are -/
def basicFuncs (F : Calculators.BasicFuncs ℝ) (dx dy : DType) : Calculators.BasicFuncs ℝ :=
  { F with
    rmsd := fun x y => (lift (fun a b => (tRmsd a b 0).map (fun v => [v])) dx dy x y).map (fun l => hd l 0)
    bias := fun x y => (lift (fun a b => (tBias a b).map (fun v => [v])) dx dy x y).map (fun l => hd l 0)
    mse := fun x y => (lift (fun a b => (tMseDecomposition a b).map (fun v => [v.1, v.2.1, v.2.2.1, v.2.2.2])) dx dy x y).map
      (fun l => (hd l 0, hd l 1, hd l 2, hd l 3)) }

/-- metric_calculators.py:281-324 `BasicMetrics.calc_metrics` for columns of the given types -/
def basicTyped (F : Calculators.BasicFuncs ℝ) (dx dy : DType) (other : Calculators.Name) (calcTau : Bool) (minObs : ℕ)
    (template : Calculators.Dict ℝ) (mt : Option (Calculators.Dict ℝ)) (data : Calculators.Frame ℝ) (info : Calculators.Info ℝ) :
    Except Calculators.Err (Calculators.Dict ℝ) :=
  Calculators.basicCalc (basicFuncs F dx dy) other calcTau minObs template mt data info

/-- metric_calculators.py:341-357 `BasicMetricsPlusMSE.calc_metrics` for columns of the given types -/
def plusTyped (F : Calculators.BasicFuncs ℝ) (dx dy : DType) (other : Calculators.Name) (minObs : ℕ) (template : Calculators.Dict ℝ)
    (mt : Option (Calculators.Dict ℝ)) (data : Calculators.Frame ℝ) (info : Calculators.Info ℝ) : Except Calculators.Err (Calculators.Dict ℝ) :=
  Calculators.mseCalc (basicFuncs F dx dy) other minObs template mt data info

/-! ### Filters -/

/-- filters.pyx:50, 70 and 116, 136: the data decide the specialisation, the dates must have the same type, and the result is allocated by
`np.empty(len(in_data))`, which is float64, and assigned to a buffer of the specialisation -/
def filterTyped {A : Type} (f : List (ℝ × Option ℝ) → A) (data : DType × List (Option ℝ)) (jd : Arr) : Except Err A := do
  let d ← specialise data.1
  if jd.dtype ≠ d then .error .valueError
  else if d ≠ .f64 then .error .valueError
  else .ok (f (jd.vals.zip data.2))

/-- filters.pyx:116 `boxcar_filter` -/
def boxcarTyped (data : DType × List (Option ℝ)) (jd : Arr) (window nan : ℝ) (fillna : Bool) (minObs : ℤ) : Except Err (List (Option ℝ)) :=
  filterTyped (fun obs => Filters.boxcarFilter obs window nan fillna minObs) data jd

/-- filters.pyx:50 `exp_filter` -/
def expTyped (data : DType × List (Option ℝ)) (jd : Arr) (ctime : ℤ) (nan : ℝ) : Except Err (List (Option ℝ)) :=
  filterTyped (fun obs => Filters.expFilter obs ctime nan) data jd

/-- filtering.py:66-85 `moving_average`: data and dates are converted to double -/
def movingAverageTyped (data : DType × List (Option ℝ)) (jd : Arr) (window : ℝ) (fillna : Bool) (minObs : ℤ) : Except Err (List (Option ℝ)) :=
  boxcarTyped (.f64, data.2) ⟨.f64, jd.vals⟩ window Climatology.noData fillna minObs

/-- _fast_pairwise.pyx:347-352 `rolling_pr_rmsd(timestamps, x, y, …)`: the time stamps must be float64 -/
def rollingTyped {A : Type} (f : List ℝ → Pairs → A) (ts x y : Arr) : Except Err A := do
  let d ← specialise x.dtype
  if ts.dtype ≠ .f64 then .error .valueError
  else if y.dtype = d then .ok (f ts.vals (x.vals.zip y.vals)) else .error .valueError

end Verif.Dtypes
