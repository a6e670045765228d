import Mathlib.Analysis.SpecialFunctions.Pow.Real
import Mathlib.Analysis.SpecialFunctions.Log.Basic
import Mathlib.Data.Real.Sqrt
import Mathlib.Data.List.Sort
import Mathlib.Data.List.OfFn

/-!
Model of the gap filling of `src/pytesmo/interpolate/dctpls.py`.

Arrays of one to three dimensions are flattened to functions on `Fin n`. Floating point numbers are real numbers; a cell of the data is
`none` for NaN or infinity. Divisions by zero are modelled by cases as numpy does them. Where a calculation would go on with arrays full
of NaN, the model stops with `Err.nan`. Not modelled: logging and warnings, `debug_mode`, rounding to `float32` (490, 244),
the check of the shapes (482), the number of dimensions (149-160).
External functions are the parameters in `Env`.
-/

namespace Verif.Smoothn

open Classical

/-- exceptions. Used for dctpls.py:480-490, dctpls.py:614-688. -/
inductive Err
  /-- weights below zero (520), an order other than 1 and 2 (216), or `np.max` of no weights (485) -/
  | valueError
  /-- arithmetic with `smooth = None` (700-703, 734) -/
  | typeError
  /-- the calculation goes on with NaN, not modelled -/
  | nan
  deriving DecidableEq, Repr

/-- external functions. Used for dctpls.py:48-122, dctpls.py:569-582. -/
structure Env (n : ℕ) where
  /-- `dctNd(·, inverse=False)` (125-162, `scipy.fftpack.dct`) -/
  dct : (Fin n → ℝ) → (Fin n → ℝ)
  /-- `dctNd(·, inverse=True)` -/
  idct : (Fin n → ℝ) → (Fin n → ℝ)
  /-- the array `Lambda` (537-549), see `Verif.Smoothn.Axis` -/
  lam : Fin n → ℝ
  /-- position of the nearest unmasked element (99-110, `scipy.ndimage.distance_transform_edt`) -/
  near : (Fin n → Bool) → Fin n → Fin n
  /-- the first tenth of the coefficients in each dimension (117-119) -/
  low : Fin n → Bool
  /-- `opt.fminbound(gcv, ...)` (628-632): a minimum of a score -/
  fmin : (ℝ → ℝ) → ℝ

/-- arguments of `smoothn` other than `data` and `return_stats`. Used for dctpls.py:512-515, dctpls.py:480-490. -/
structure Args (n : ℕ) where
  smooth : Option ℝ := none
  weights : Option (Fin n → ℝ) := none
  order : ℕ := 2
  initGuess : Option (Fin n → ℝ) := none
  robust : Bool := true
  maxIter : ℕ := 100
  tolZ : ℝ := 1 / 1000
  /-- `gap_value`, `none` for NaN -/
  gap : Option ℝ := none
  excl : Option (Fin n → Bool) := none

variable {n : ℕ}

/-- `Σ` over all elements. Used for dctpls.py:222-244, dctpls.py:614-688. -/
noncomputable def total (x : Fin n → ℝ) : ℝ := ∑ i, x i

/-- `np.linalg.norm` of the selected elements. Used for dctpls.py:614-688. -/
noncomputable def norm (sel : Fin n → Bool) (x : Fin n → ℝ) : ℝ := Real.sqrt (∑ i, if sel i then x i ^ 2 else 0)

/-- `np.median` of a nonempty list. Used for dctpls.py:323-331. -/
noncomputable def median (l : List ℝ) : ℝ :=
  let s := l.insertionSort (· ≤ ·)
  (s.getD ((s.length - 1) / 2) 0 + s.getD (s.length / 2) 0) / 2

/-- dctpls.py:512-515 `isfinite`. With a number as `gap_value` NaN in the data count as finite. -/
noncomputable def isFinite (a : Args n) (data : Fin n → Option ℝ) (i : Fin n) : Bool :=
  (match a.gap with
    | none => (data i).isSome
    | some g => decide (data i ≠ some g)) && (match a.excl with
    | none => true
    | some m => !m i)

/-- dctpls.py:517 `data[~isfinite] = 0` -/
noncomputable def maskData (fin : Fin n → Bool) (data : Fin n → Option ℝ) (i : Fin n) : Option ℝ := if fin i then data i else some 0

/-- `np.max` of a nonempty array. Used for dctpls.py:480-490. -/
noncomputable def maxOf (x : Fin n → ℝ) : ℝ :=
  match List.ofFn x with
  | [] => 0
  | y :: ys => ys.foldl max y

/-- dctpls.py:480-490 and 519 -/
noncomputable def initWeights (a : Args n) (fin : Fin n → Bool) : Except Err (Fin n → ℝ) :=
  match a.weights with
  | none => .ok (fun i => if fin i then 1 else 0)
  | some w =>
    if maxOf w = 0 then .error .nan
    else .ok (fun i => if fin i then w i / maxOf w else 0)

/-- dctpls.py:48-122 `calc_init_guess(y, mask)` with the default `coeff` -/
noncomputable def calcInitGuess (e : Env n) (y : Fin n → ℝ) (mask : Fin n → Bool) : Fin n → ℝ :=
  let z : Fin n → ℝ := fun i => if mask i then y (e.near mask i) else y i
  let c := e.dct z
  e.idct (fun i => if e.low i then c i else 0)

/-- dctpls.py:569-582 `z0` -/
noncomputable def startValue (e : Env n) (a : Args n) (isweighted : Bool) (fin : Fin n → Bool) (data : Fin n → ℝ) : Fin n → ℝ :=
  match a.initGuess with
  | some g => g
  | none => if isweighted then calcInitGuess e data (fun i => !fin i) else fun _ => 0

/-- dctpls.py:222 `Gamma` -/
noncomputable def gamma (e : Env n) (order : ℕ) (smooth : ℝ) (i : Fin n) : ℝ := 1 / (1 + smooth * e.lam i ^ order)

/-- dctpls.py:222-244, the GCV score for a smoothing parameter, where all values are finite -/
noncomputable def gcvScore (e : Env n) (order : ℕ) (dctDat data : Fin n → ℝ) (w : Option (Fin n → ℝ)) (smooth : ℝ) : ℝ :=
  let g := gamma e order smooth
  let rss := match w with
    | none => ∑ i, (dctDat i * (g i - 1)) ^ 2
    | some w => ∑ i, (Real.sqrt (w i) * (data i - e.idct (fun k => g k * dctDat k) i)) ^ 2
  rss / n / (1 - total g / n) ^ 2

/-- the value of `tol`. Used for dctpls.py:614-688. -/
inductive Tol
  | val (t : ℝ)
  | inf
  | nan

/-- `a / b` as numpy divides. Used for dctpls.py:614-688. -/
noncomputable def quot (x y : ℝ) : Tol := if y = 0 then (if x = 0 then .nan else .inf) else .val (x / y)

/-- `tol > TolZ`. Used for dctpls.py:603-688, dctpls.py:694-696. -/
noncomputable def Tol.exceeds (t : Tol) (tolZ : ℝ) : Bool :=
  match t with
  | .val t => decide (tolZ < t)
  | .inf => true
  | .nan => false

/-- variables of the loops; `count` and `reached` are added: `count` counts the rounds of the inner loop,
`reached` tells for each round of the outer loop whether the inner loop ended because the tolerance was reached.
Used for dctpls.py:625-657, dctpls.py:219. -/
structure State (n : ℕ) where
  z : Fin n → ℝ
  z0 : Fin n → ℝ
  tol : Tol
  pBest : ℝ
  smooth : Option ℝ
  score : Option ℝ
  isweighted : Bool
  wtot : Fin n → ℝ
  exitFlag : ℕ
  count : ℕ
  reached : List Bool

/-- what does not change in the loops. Used for dctpls.py:625-657, dctpls.py:219. -/
structure Fixed (n : ℕ) where
  data : Fin n → ℝ
  fin : Fin n → Bool
  weights : Fin n → ℝ
  autosmooth : Bool
  rf : ℝ

/-- dctpls.py:625-657: the exponent of the smoothing parameter. For `smooth = 0` it is minus infinity, see `smoothOf`. -/
noncomputable def choosePBest (e : Env n) (a : Args n) (f : Fixed n) (j : ℕ) (dctDat : Fin n → ℝ) (w : Option (Fin n → ℝ)) (s : State n) : ℝ :=
  if f.autosmooth then
    if j = 0 ∨ ∃ k, j = 2 ^ k then e.fmin (fun p => gcvScore e a.order dctDat f.data w ((10 : ℝ) ^ p)) else s.pBest
  else Real.log (s.smooth.getD 0) / Real.log 10

/-- dctpls.py:219 `10 ** p` -/
noncomputable def smoothOf (f : Fixed n) (s : State n) (p : ℝ) : ℝ :=
  if !f.autosmooth && decide (s.smooth = some 0) then 0 else (10 : ℝ) ^ p

/-- dctpls.py:614-688, one round of the inner loop -/
noncomputable def innerStep (e : Env n) (a : Args n) (f : Fixed n) (j : ℕ) (s : State n) : Except Err (State n) :=
  let dctDat := e.dct (fun i => s.wtot i * (f.data i - s.z i) + s.z i)
  let w := if 1 ≤ total s.wtot / n then none else some s.wtot
  if ¬ (a.order = 1 ∨ a.order = 2) then .error .valueError
  else if !f.autosmooth && decide (s.smooth.getD 0 < 0) then .error .nan
  else
    let p := choosePBest e a f j dctDat w s
    let smooth := smoothOf f s p
    let z : Fin n → ℝ := fun i => f.rf * e.idct (fun k => gamma e a.order smooth k * dctDat k) i + (1 - f.rf) * s.z i
    .ok { s with
      pBest := p
      smooth := some smooth
      score := some (gcvScore e a.order dctDat f.data w smooth)
      z := z
      tol := quot ((if s.isweighted then 1 else 0) * norm f.fin (fun i => z i - s.z0 i)) (norm f.fin z)
      z0 := z
      count := s.count + 1 }

/-- dctpls.py:603-688 `while (tol > TolZ) and j < MaxIter`, with `k` rounds left -/
noncomputable def innerLoop (e : Env n) (a : Args n) (f : Fixed n) : ℕ → ℕ → State n → Except Err (State n)
  | 0, _, s => .ok s
  | k + 1, j, s => if s.tol.exceeds a.tolZ then (innerStep e a f j s).bind (innerLoop e a f k (j + 1)) else .ok s

/-- dctpls.py:699-703 `h`, where `di` is 1 -/
noncomputable def leverage (order : ℕ) (smooth : ℝ) : ℝ :=
  if order = 1 then 1 / Real.sqrt (1 + 4 * smooth)
  else Real.sqrt (1 + Real.sqrt (1 + 16 * smooth)) / Real.sqrt 2 / Real.sqrt (1 + 16 * smooth)

/-- dctpls.py:323 the residuals that are used -/
def selected (sel : Fin n → Bool) (r : Fin n → ℝ) : List ℝ := ((List.finRange n).filter sel).map r

/-- dctpls.py:323-331 `MAD` -/
noncomputable def mad (l : List ℝ) : ℝ := median (l.map (fun r => |r - median l|))

/-- dctpls.py:277-347 `RobustWeights(residuals, h, mask)` with `method="cauchy"`; without residuals, with `MAD = 0` or `1 - h ≤ 0` the
studentized residuals are NaN or infinite and all weights 0. `mask` is `np.full(shape, True)` by default (320-321). -/
noncomputable def robustWeights (r : Fin n → ℝ) (h : ℝ) (mask : Option (Fin n → Bool)) (i : Fin n) : ℝ :=
  let l := selected (fun k => !(mask.getD (fun _ => true)) k) r
  if l = [] ∨ mad l = 0 ∨ 1 ≤ h then 0
  else 1 / (1 + (|r i / (1.4826 * mad l)| / Real.sqrt (1 - h) / 2.385) ^ 2)

/-- dctpls.py:694-696 -/
noncomputable def setFlag (a : Args n) (i : ℕ) (s : State n) : State n :=
  { s with
    exitFlag := if a.maxIter ≤ i ∧ s.tol.exceeds a.tolZ then 3 else s.exitFlag
    reached := s.reached ++ [!s.tol.exceeds a.tolZ] }

/-- dctpls.py:599-723, the outer loop from its round `i` on, with `k` rounds left -/
noncomputable def outerLoop (e : Env n) (a : Args n) (f : Fixed n) : ℕ → ℕ → State n → Except Err (State n)
  | 0, _, s => .ok s
  | k + 1, i, s =>
    (innerLoop e a f a.maxIter 0 s).bind (fun s =>
      let s := setFlag a i s
      if a.robust then
        match s.smooth with
        | none => .error .typeError
        | some sm =>
          outerLoop e a f k (i + 1) { s with
            wtot := fun i => f.weights i * robustWeights (fun i => f.data i - s.z i) (leverage a.order sm) (some (fun i => !f.fin i)) i
            isweighted := true
            tol := .val 1 }
      else .ok s)

/-- side products asked for in `return_stats`. Used for dctpls.py:350-750. -/
structure Wanted where
  initialGuess : Bool := false
  euclideanDistance : Bool := false
  finalWeights : Bool := false
  gcvScore : Bool := false

/-- the side products. Used for dctpls.py:350-750. -/
structure Stats (n : ℕ) where
  initialGuess : Option (Fin n → ℝ) := none
  euclideanDistance : Option (Fin n → ℝ) := none
  finalWeights : Option (Fin n → ℝ) := none
  gcvScore : Option ℝ := none

/-- what `smoothn` returns, the caller's array `data` after the call, the number of rounds and which inner loops reached the tolerance.
Used for dctpls.py:350-750. -/
structure Result (n : ℕ) where
  z : Option (Fin n → Option ℝ)
  smooth : Option ℝ
  exitFlag : ℕ
  stats : Stats n
  data : Fin n → Option ℝ
  count : ℕ
  reached : List Bool

/-- dctpls.py:744-745 `z[exclusion_mask] = gap_value` -/
def applyExclusion (a : Args n) (z : Fin n → ℝ) (i : Fin n) : Option ℝ :=
  match a.excl with
  | none => some (z i)
  | some m => if m i then a.gap else some (z i)

/-- dctpls.py:350-750 `smoothn` -/
noncomputable def smoothn (e : Env n) (a : Args n) (want : Wanted) (data : Fin n → Option ℝ) : Except Err (Result n) :=
  if n = 0 ∧ a.weights.isSome then .error .valueError
  else if n < 2 then .ok ⟨none, a.smooth, 2, {}, data, 0, []⟩
  else
    let fin := isFinite a data
    let masked := maskData fin data
    (initWeights a fin).bind fun weights =>
    if ∃ i, weights i < 0 then .error .valueError
    else if ∃ i, masked i = none then .error .nan
    else
      let y : Fin n → ℝ := fun i => (masked i).getD 0
      let isweighted := decide (∃ i, weights i ≠ 1)
      let z0 := startValue e a isweighted fin y
      let f : Fixed n := ⟨y, fin, weights, a.smooth.isNone, if isweighted then 1 + 0.75 else 1⟩
      (outerLoop e a f 3 0 ⟨z0, z0, .val 1, 0, a.smooth, none, isweighted, weights, 1, 0, []⟩).bind fun s =>
      if a.smooth.isNone && s.smooth.isNone then .error .typeError
      else .ok ⟨some (applyExclusion a s.z), s.smooth, s.exitFlag,
        { initialGuess := if want.initialGuess then some z0 else none
          finalWeights := if want.finalWeights then some s.wtot else none
          gcvScore := if want.gcvScore then s.score else none }, masked, s.count, s.reached⟩

end Verif.Smoothn
