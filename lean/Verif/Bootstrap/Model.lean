import Mathlib.Analysis.SpecialFunctions.Sqrt
import Mathlib.Algebra.Order.Floor.Ring
import Mathlib.Data.List.Sort

/-!
Model of `src/pytesmo/metrics/confidence_intervals.py`: `with_bootstrapped_ci` (75-164),
`tcol_metrics_with_bootstrapped_ci` (167-316), `_jackknife` (319-326), `_percentile_bs_ci` (329-333), `_basic_bs_ci`
(336-340), `_BCa_bs_ci` (343-368), and of the used part of `np.nanquantile`.

Numbers are reals, NaN is `none`. The random draws of `np.random.choice` are a parameter, one list of row numbers per
bootstrap sample, so the theorems hold for every outcome. `ppf` and `cdf` stand for `scipy.stats.norm.ppf` and `.cdf` at
finite arguments.
-/

namespace Verif.Bootstrap

/-- exceptions. Used for confidence_intervals.py:329-333, confidence_intervals.py:336-340. -/
inductive Err
  /-- "Not enough data for bootstrapping", "Quantiles must be in the range [0, 1]" or NaN written into an integer array -/
  | valueError
  /-- `lower` and `upper` were never assigned (unknown method, lines 157-164) -/
  | unboundLocal
  deriving DecidableEq

/-- linear interpolation between the values of a sequence at the virtual index `h` (numpy's `_lerp`) -/
noncomputable def interpAt (a : ℕ → ℝ) (h : ℝ) : ℝ := a ⌊h⌋₊ + (h - ⌊h⌋₊) * (a (⌊h⌋₊ + 1) - a ⌊h⌋₊)

/-- the sorted values without NaN. Used for confidence_intervals.py:329-333, confidence_intervals.py:336-340. -/
noncomputable def sortedValues (vals : List (Option ℝ)) : List ℝ := (vals.filterMap id).insertionSort (· ≤ ·)

/-- `np.nanquantile(vals, q)` (linear method): ValueError for `q` outside [0, 1]; NaN if there is no value -/
noncomputable def nanquantile (vals : List (Option ℝ)) (q : ℝ) : Except Err (Option ℝ) :=
  if 0 ≤ q ∧ q ≤ 1 then
    match sortedValues vals with
    | [] => .ok none
    | a :: l => .ok (some (interpAt (fun i => (a :: l).getD (min i l.length) 0) ((l.length : ℝ) * q)))
  else .error .valueError

/-- A confidence interval. Used for confidence_intervals.py:329-333, confidence_intervals.py:336-340. -/
abbrev Interval := Option ℝ × Option ℝ

/-- confidence_intervals.py:329-333 `_percentile_bs_ci` -/
noncomputable def percentileCi (bs : List (Option ℝ)) (_m : Option ℝ) (alpha : ℝ) : Except Err Interval := do
  let lower ← nanquantile bs (alpha / 2)
  let upper ← nanquantile bs (1 - alpha / 2)
  return (lower, upper)

/-- `2 * m - q` with NaN. Used for confidence_intervals.py:336-340. -/
def reflect : Option ℝ → Option ℝ → Option ℝ
  | some m, some q => some (2 * m - q)
  | _, _ => none

/-- confidence_intervals.py:336-340 `_basic_bs_ci` -/
noncomputable def basicCi (bs : List (Option ℝ)) (m : Option ℝ) (alpha : ℝ) : Except Err Interval := do
  let qu ← nanquantile bs (1 - alpha / 2)
  let ql ← nanquantile bs (alpha / 2)
  return (reflect m qu, reflect m ql)

/-- `v <= m` of numpy: False if one of them is NaN. Used for confidence_intervals.py:343-368. -/
noncomputable def leNan (m v : Option ℝ) : Bool :=
  match m, v with
  | some m, some v => decide (v ≤ m)
  | _, _ => false

/-- confidence_intervals.py:354-357: the acceleration; NaN if a jackknife value is NaN or all are equal (0 / 0).
`(…) ** 1.5` is `… * sqrt …`. -/
noncomputable def acceleration (jk : List (Option ℝ)) : Option ℝ :=
  if jk.all Option.isSome then
    let v := jk.filterMap id
    let mean := v.sum / (v.length : ℝ)
    let s2 := (v.map (fun x => (mean - x) ^ 2)).sum
    let s3 := (v.map (fun x => (mean - x) ^ 3)).sum
    if s2 = 0 then none else some (s3 / (6 * (s2 * Real.sqrt s2)))
  else none

/-- confidence_intervals.py:360-365: an adjusted percentile. The case of a vanishing denominator is not covered by the
theorems. -/
noncomputable def bcaLevel (cdf : ℝ → ℝ) (z0 a z : ℝ) : ℝ := cdf (z0 + (z0 + z) / (1 - a * (z0 + z)))

/-- confidence_intervals.py:343-368 `_BCa_bs_ci`, for `0 < alpha < 1`. If the share of bootstrapped values up to `m` is 0 or 1
(or there are none), `z0` is infinite (NaN), both levels are NaN and `np.nanquantile` raises; the same if the acceleration is
NaN. -/
noncomputable def bcaCi (ppf cdf : ℝ → ℝ) (bs : List (Option ℝ)) (m : Option ℝ) (alpha : ℝ) (jk : List (Option ℝ)) :
    Except Err Interval :=
  let share := ((bs.filter (leNan m)).length : ℝ) / (bs.length : ℝ)
  if 0 < share ∧ share < 1 then
    match acceleration jk with
    | none => .error .valueError
    | some a => do
      let z0 := ppf share
      let lower ← nanquantile bs (bcaLevel cdf z0 a (ppf alpha))
      let upper ← nanquantile bs (bcaLevel cdf z0 a (ppf (1 - alpha)))
      return (lower, upper)
  else .error .valueError

/-- the choices of the argument. Used for confidence_intervals.py:75-164, confidence_intervals.py:270-311. -/
inductive Method | percentile | basic | bca | other
  deriving DecidableEq

/-- `x[idx]`. Used for confidence_intervals.py:75-164. -/
noncomputable def take (l : List ℝ) (idx : List ℕ) : List ℝ := idx.map (fun i => l.getD i 0)

/-- Writing a value into an array of the data type of `x` (320): integer arrays truncate towards zero and reject NaN. -/
noncomputable def store (isInt : Bool) (v : Option ℝ) : Except Err (Option ℝ) :=
  if isInt then
    match v with
    | none => .error .valueError
    | some v => .ok (some (if 0 ≤ v then ((⌊v⌋ : ℤ) : ℝ) else ((⌈v⌉ : ℤ) : ℝ)))
  else .ok v

/-- confidence_intervals.py:319-326 `_jackknife` -/
noncomputable def jackknife (metric : List ℝ → List ℝ → Option ℝ) (isInt : Bool) (x y : List ℝ) :
    Except Err (List (Option ℝ)) :=
  (List.range x.length).mapM (fun i => store isInt (metric (x.eraseIdx i) (y.eraseIdx i)))

/-- confidence_intervals.py:75-164 `with_bootstrapped_ci`; `draws` are the `nsamples` random index arrays, `isInt` says that
`x` is an integer array. -/
noncomputable def withBootstrappedCi (ppf cdf : ℝ → ℝ) (metric : List ℝ → List ℝ → Option ℝ) (isInt : Bool) (x y : List ℝ)
    (alpha : ℝ) (method : Method) (minLen : ℕ) (draws : List (List ℕ)) :
    Except Err (Option ℝ × Option ℝ × Option ℝ) :=
  if x.length < minLen then .error .valueError
  else do
    let orig := metric x y
    let jk ← if method = .bca then jackknife metric isInt x y else .ok []
    let bs := draws.map (fun idx => metric (take x idx) (take y idx))
    let ci ← match method with
      | .percentile => percentileCi bs orig alpha
      | .basic => basicCi bs orig alpha
      | .bca => bcaCi ppf cdf bs orig alpha jk
      | .other => .error .unboundLocal
    return (orig, ci.1, ci.2)

/-! ### Triple collocation -/

/-- One observation of the three data sets. Used for confidence_intervals.py:243-253, confidence_intervals.py:270-311. -/
abbrev Row := Fin 3 → ℝ
/-- SNR, error standard deviation and beta (0, 1, 2) per data set, as returned by `tcol_metrics(x, y, z, ref_ind)`.
Used for confidence_intervals.py:243-253, confidence_intervals.py:270-311. -/
abbrev TcolMetrics := List Row → Fin 3 → Fin 3 → Option ℝ

/-- rows `idx` of the three arrays. Used for confidence_intervals.py:270-311. -/
noncomputable def takeRows (rows : List Row) (idx : List ℕ) : List Row := idx.map (fun i => rows.getD i (fun _ => 0))

/-- confidence_intervals.py:243-253: the jackknife array of quantity `k`, flattened row by row (shape (n, 3)) -/
def tcolJackknife (tc : TcolMetrics) (rows : List Row) (k : Fin 3) : List (Option ℝ) :=
  (List.range rows.length).flatMap (fun r => (List.finRange 3).map (fun i => tc (rows.eraseIdx r) k i))

/-- confidence_intervals.py:270-311: the interval of quantity `k` of data set `i`. The BCa branch passes the whole jackknife
array of the quantity. -/
noncomputable def tcolInterval (ppf cdf : ℝ → ℝ) (tc : TcolMetrics) (rows : List Row) (ref : Fin 3) (alpha : ℝ)
    (method : Method) (draws : List (List ℕ)) (k i : Fin 3) : Except Err Interval :=
  let bs := draws.map (fun idx => tc (takeRows rows idx) k i)
  match method with
  | .percentile => if k = 2 ∧ i = ref then .ok (some 1, some 1) else percentileCi bs (tc rows k i) alpha
  | .basic => if k = 2 ∧ i = ref then .ok (some 1, some 1) else basicCi bs (tc rows k i) alpha
  | .bca => if k = 2 ∧ i = ref then .ok (some 1, some 1)
    else bcaCi ppf cdf bs (tc rows k i) alpha (tcolJackknife tc rows k)
  | .other => .ok (none, none)

/-- confidence_intervals.py:167-316 `tcol_metrics_with_bootstrapped_ci` as function of quantity and data set: estimate and
interval. If computing any interval raises, the whole call raises. With an unknown method the bounds stay uninitialised
(`np.empty`), written as NaN here. -/
noncomputable def tcolWithBootstrappedCi (ppf cdf : ℝ → ℝ) (tc : TcolMetrics) (rows : List Row) (ref : Fin 3) (alpha : ℝ)
    (method : Method) (minLen : ℕ) (draws : List (List ℕ)) : Except Err (List (List (Option ℝ × Interval))) :=
  if rows.length < minLen then .error .valueError
  else (List.finRange 3).mapM (fun k => (List.finRange 3).mapM (fun i => do
    let ci ← tcolInterval ppf cdf tc rows ref alpha method draws k i
    return (tc rows k i, ci)))

end Verif.Bootstrap
