import Mathlib.Algebra.Order.Field.Basic
import Mathlib.Data.List.Sort
import Mathlib.Data.List.Dedup

/-!
Model of `src/pytesmo/cdf_matching.py` (`CDFMatching.fit` 81-137, `predict` 139-158, `_calc_percentiles` 160-181,
`_linear_edge_scaling` 183-206, and the module functions 221-291) and of `src/pytesmo/scaling.py:cdf_match` (258-322).

Numbers are elements of a linearly ordered field; NaN and infinite values are `none`. `x` is a floating point array.
-/

namespace Verif.Cdf

variable {K : Type} [Field K] [LinearOrder K]

/-- exceptions. Used for cdf_matching.py:235-255, cdf_matching.py:258-280. -/
inductive Err
  /-- abscissas of a spline not strictly increasing, `np.min` of an empty array -/
  | valueError
  /-- `data[0]` of an empty array -/
  | indexError
  /-- indexing a Python list with an array -/
  | typeError
  /-- `np.linalg.lstsq` with NaN or arrays of different length -/
  | linAlgError
  deriving DecidableEq

/-! ### Piecewise linear functions -/

/-- the line through two points -/
def line (p q : K × K) (x : K) : K := p.2 + (x - p.1) * ((q.2 - p.2) / (q.1 - p.1))

/-- Piecewise linear interpolation through the knots, linear continuation outside: `InterpolatedUnivariateSpline(…, k=1, ext=0)`
for strictly increasing abscissas. (A single knot gives a constant; this only happens inside `npInterp`.) -/
def pwl : List (K × K) → K → K
  | [], _ => 0
  | [p], _ => p.2
  | p :: q :: rest, x => if rest.isEmpty || decide (x ≤ q.1) then line p q x else pwl (q :: rest) x

/-- abscissas strictly increasing? (checked by scipy). Used for cdf_matching.py:139-158. -/
def increasing : List (K × K) → Bool
  | [] => true
  | [_] => true
  | p :: q :: rest => decide (p.1 < q.1) && increasing (q :: rest)

/-- evaluating `InterpolatedUnivariateSpline(x, y, k=1, ext=0)` -/
def spline (knots : List (K × K)) (xs : List K) : Except Err (List K) :=
  if 2 ≤ knots.length && increasing knots then .ok (xs.map (pwl knots)) else .error .valueError

/-- `np.interp(x, xp, fp, left, right)` at one `x`, for increasing knots. Used for cdf_matching.py:235-255. -/
def npInterp (knots : List (K × K)) (left right : K) (x : K) : K :=
  match knots.head?, knots.getLast? with
  | some a, some b => if x < a.1 then left else if b.1 < x then right else pwl knots x
  | _, _ => 0

/-! ### Percentiles -/

/-- cdf_matching.py:253: the ranks of the sorted data -/
def ranks (data : List K) : List (K × K) :=
  data.zipIdx.map (fun v => (100 * ((v.2 : K) + 1 / 2) / (data.length : K), v.1))

/-- cdf_matching.py:235-255 `_matlab_percentile_values_from_sorted` -/
def matlabPercentiles (data percentiles : List K) : Except Err (List K) :=
  match data.head?, data.getLast? with
  | some a, some b => .ok (percentiles.map (npInterp (ranks data) a b))
  | _, _ => .error .indexError

/-- cdf_matching.py:276 `new_percentiles[-1] = percentiles[-1]` -/
def setLastX (p : K) : List (K × K) → List (K × K)
  | [] => []
  | [a] => [(p, a.2)]
  | a :: b :: l => a :: setLastX p (b :: l)

/-- `np.unique(perc)`: the sorted distinct values. Used for cdf_matching.py:258-280. -/
def npUnique (perc : List K) : List K := perc.dedup.insertionSort (· ≤ ·)

/-- cdf_matching.py:258-280 `_unique_percentile_interpolation`. `isArray` says whether `percentiles` is an array (a Python list
cannot be indexed with an array, line 269). -/
def uniquePercentiles (isArray : Bool) (perc percentiles : List K) : Except Err (List K) :=
  let uniq := npUnique perc
  if uniq.length ≠ percentiles.length ∧ 1 < uniq.length then
    if isArray then
      let knots := uniq.map (fun v => (percentiles.getD (perc.idxOf v) 0, v))
      spline (setLastX (percentiles.getLastD 0) knots) percentiles
    else .error .typeError
  else .ok perc

/-- cdf_matching.py:230-232 `_percentile_values_from_sorted` -/
def percentileValues (isArray : Bool) (data percentiles : List K) : Except Err (List K) := do
  let perc ← matlabPercentiles data percentiles
  uniquePercentiles isArray perc percentiles

/-- cdf_matching.py:221-227 `_resample_ecdf`; for `n = 1` the only percentile is 0/0 = NaN, which ends in the exception of
`lstsq`. -/
def resampleEcdf (x : List K) (n : ℕ) : Except Err (List K) :=
  if n ≤ 1 then .error .linAlgError
  else percentileValues true x ((List.range n).map (fun (i : ℕ) => (i : K) / ((n : K) - 1) * 100))

/-- `np.linalg.lstsq` with one column: the least squares slope through the origin; 0 if all abscissas are 0 (minimum norm).
Used for cdf_matching.py:190-196, cdf_matching.py:198-204. -/
def lstsqSlope (x y : List K) : Except Err K :=
  if x.length = y.length then
    let sxx := (x.map (fun v => v * v)).sum
    .ok (if sxx = 0 then 0 else (List.zipWith (· * ·) x y).sum / sxx)
  else .error .linAlgError

/-- cdf_matching.py:190-196: the slope at the lower edge, given the second percentiles of both data sets -/
def lowerSlope (x y : List K) (x1 y1 : K) : Except Err K := do
  let xlow := (x.filter (fun v => decide (v ≤ x1))).map (· - x1)
  let ylow := (y.filter (fun v => decide (v ≤ y1))).map (· - y1)
  let xlow ← if xlow.length ≠ ylow.length then resampleEcdf xlow ylow.length else .ok xlow
  lstsqSlope xlow ylow

/-- cdf_matching.py:198-204: the slope at the upper edge -/
def upperSlope (x y : List K) (x1 y1 : K) : Except Err K := do
  let xhigh := (x.filter (fun v => decide (x1 ≤ v))).map (· - x1)
  let yhigh := (y.filter (fun v => decide (y1 ≤ v))).map (· - y1)
  let xhigh ← if xhigh.length ≠ yhigh.length then resampleEcdf xhigh yhigh.length else .ok xhigh
  lstsqSlope xhigh yhigh

/-- cdf_matching.py:183-206 `_linear_edge_scaling`. With two percentiles `y_perc[-2]` is the entry 0 that has just been
replaced. -/
def linearEdgeScaling (x y xPerc yPerc : List K) : Except Err (List K) := do
  let a ← lowerSlope x y (xPerc.getD 1 0) (yPerc.getD 1 0)
  let y1 := yPerc.set 0 (yPerc.getD 1 0 + a * (xPerc.getD 0 0 - xPerc.getD 1 0))
  let n := yPerc.length
  let b ← upperSlope x y (xPerc.getD (n - 2) 0) (y1.getD (n - 2) 0)
  .ok (y1.set (n - 1) (y1.getD (n - 2) 0 + b * (xPerc.getD (n - 1) 0 - xPerc.getD (n - 2) 0)))

/-- `np.mean`. Used for cdf_matching.py:283-291. -/
def mean (l : List K) : K := l.sum / (l.length : K)

/-- cdf_matching.py:283-291 `_linreg_percentiles` (the means of empty arrays are NaN: exception of `lstsq`) -/
def linregPercentiles (x y : List K) : Except Err (List K × List K) := do
  if x = [] ∨ y = [] then .error .linAlgError
  else
    let slope ← lstsqSlope (x.map (· - mean x)) (y.map (· - mean y))
    let intercept := mean y - mean x * slope
    .ok ([0, 1], [intercept, intercept + slope])

/-! ### The estimator -/

/-- Constructor arguments (64-79). `percentiles` carries the information whether it is an array. -/
structure Params (K : Type) where
  nbins : ℕ
  percentiles : Option (Bool × List K)
  minobs : Option ℕ
  edge : Bool
  combine : Bool

/-- the percentiles `i / nbins * 100` (163-164, 178) -/
def regularPercentiles (nbins : ℕ) : List K := (List.range (nbins + 1)).map (fun (i : ℕ) => (i : K) / (nbins : K) * 100)

/-- `np.diff`. Used for cdf_matching.py:160-181. -/
def diff : List K → List K
  | [] => []
  | [_] => []
  | a :: b :: l => (b - a) :: diff (b :: l)

/-- cdf_matching.py:160-181 `_calc_percentiles` : whether the percentiles are an array, their values and the number of bins.
Simplification: `minobs=0` with decreasing percentiles, a division by zero in the code, gives one bin here. -/
def calcPercentiles (P : Params K) (nsamples : ℕ) : Except Err (Bool × List K × ℕ) :=
  let (isArray, percentiles) := P.percentiles.getD (true, regularPercentiles P.nbins)
  match diff percentiles with
  | [] => .error .valueError
  | d :: ds =>
    let minbinsize := ds.foldl min d
    match P.minobs with
    | some m =>
      if (nsamples : K) * minbinsize / 100 < (m : K) then
        let n := nsamples / m
        let nbins := if n = 0 then 1 else if n > percentiles.length - 1 then percentiles.length - 1 else n
        .ok (true, regularPercentiles nbins, nbins)
      else .ok (isArray, percentiles, percentiles.length - 1)
    | none => .ok (isArray, percentiles, percentiles.length - 1)

/-- cdf_matching.py:101-111: the valid values of both data sets -/
def validValues (combine : Bool) (x y : List (Option K)) : List K × List K :=
  if x.length = y.length ∧ combine = true then
    let both := (x.zip y).filter (fun p => p.1.isSome && p.2.isSome)
    (both.filterMap (·.1), both.filterMap (·.2))
  else (x.filterMap id, y.filterMap id)

/-- right padding with NaN (127-134) -/
def pad (n : ℕ) (l : List K) : List (Option K) := l.map some ++ List.replicate (n - l.length) none

/-- The fitted attributes `x_perc_`, `y_perc_`. Used for cdf_matching.py:81-137, cdf_matching.py:139-158. -/
structure Fitted (K : Type) where
  xPerc : List (Option K)
  yPerc : List (Option K)
  deriving DecidableEq

/-- cdf_matching.py:113-125: percentiles of both data sets, before padding -/
def fitPercentiles (P : Params K) (x y : List K) : Except Err (List K × List K) := do
  let xs := x.insertionSort (· ≤ ·)
  let ys := y.insertionSort (· ≤ ·)
  let (isArray, percentiles, nbins) ← calcPercentiles P (min x.length y.length)
  if nbins = 1 ∧ P.edge = true then linregPercentiles x y
  else do
    let xPerc ← percentileValues isArray xs percentiles
    let yPerc ← percentileValues isArray ys percentiles
    if P.edge then do
      let yPerc ← linearEdgeScaling xs ys xPerc yPerc
      .ok (xPerc, yPerc)
    else .ok (xPerc, yPerc)

/-- cdf_matching.py:81-137 `fit`; `self.nbins` is `len(percentiles) - 1` if percentiles are given (78-79). -/
def fit (P : Params K) (x y : List (Option K)) : Except Err (Fitted K) := do
  let v := validValues P.combine x y
  let (xPerc, yPerc) ← fitPercentiles P v.1 v.2
  let n := match P.percentiles with
    | some p => p.2.length
    | none => P.nbins + 1
  .ok ⟨pad n xPerc, pad n yPerc⟩

/-- cdf_matching.py:139-158 `predict`; exceptions of the spline are caught, the prediction is NaN then. -/
def predict (F : Fitted K) (x : List (Option K)) : List (Option K) :=
  let xp := F.xPerc.filterMap id
  let yp := F.yPerc.filterMap id
  if xp.length = 0 ∨ yp.length = 0 then x.map (fun _ => none)
  else if xp.length = yp.length ∧ 2 ≤ (xp.zip yp).length ∧ increasing (xp.zip yp) = true then
    x.map (Option.map (pwl (xp.zip yp)))
  else x.map (fun _ => none)

/-- scaling.py:317-322: enforce the upper, then the lower limit -/
def clip (maxVal minVal : Option K) (v : K) : K :=
  let v := match maxVal with
    | some m => if m < v then m else v
    | none => v
  match minVal with
  | some m => if v < m then m else v
  | none => v

/-- scaling.py:258-322 `cdf_match(src, ref, …)` -/
def cdfMatch (P : Params K) (maxVal minVal : Option K) (src ref : List (Option K)) : Except Err (List (Option K)) := do
  let F ← fit P src ref
  .ok ((predict F src).map (Option.map (clip maxVal minVal)))

end Verif.Cdf
