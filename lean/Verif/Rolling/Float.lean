import Verif.Rolling.Model
import Mathlib.Algebra.Order.Field.Rat

/-!
Model of `rolling_pr_rmsd` (`src/pytesmo/metrics/_fast_pairwise.pyx:347-489`), `_pearsonr_from_moments` (323-341) and `_moments_welford` (12-44) with the
arithmetic of the machine: every result is rounded and values may be NaN (`none`).

Only the version for `double` is modelled. Infinite values and overflow are not modelled here (but in `Rolling/Infinite.lean`). Counts (`rolling_nobs`) are exact, which is true below 2^53.
The compiler is assumed to round after every operation (no fused operations). How `min` and `max` treat NaN was read in the generated file
`src/pytesmo/metrics/_fast_pairwise.c:36657-36680`.
-/

namespace Verif.Rolling.Fl

open Verif.Rolling (scan rangeAB)

variable {K : Type} [Field K] [LinearOrder K]

/-- rounding, square root and `scipy.special.betainc` of the machine (lines 331, 340) -/
structure Arith (K : Type) where
  rnd : K → K
  sqrt : K → K
  betainc : K → K → K → K

/-- an operation of the machine: NaN if an argument is NaN, rounded otherwise. Used for _fast_pairwise.pyx:37-43, _fast_pairwise.pyx:465-473. -/
def op (rnd : K → K) (f : K → K → K) : Option K → Option K → Option K
  | some a, some b => some (rnd (f a b))
  | _, _ => none

/-- division by a number of observations (at least 1 in every round of the loops, `states_correct`).
Used for _fast_pairwise.pyx:37-43, _fast_pairwise.pyx:465-473. -/
def divN (rnd : K → K) (a : Option K) (n : ℕ) : Option K := if n = 0 then none else a.map (fun a => rnd (a / n))

/-- `(a - b)**2` (457, 471) -/
def sqDiff (rnd : K → K) (a b : Option K) : Option K := (op rnd (· - ·) a b).map (fun v => rnd (v * v))

/-- local variables of the routines. Used for _fast_pairwise.pyx:33-34, 400, 403, _fast_pairwise.pyx:37-43. -/
structure Sums (K : Type) where
  nobs : ℕ
  mx : Option K
  my : Option K
  M2x : Option K
  M2y : Option K
  C : Option K
  msd : Option K
  deriving DecidableEq

/-- _fast_pairwise.pyx:33-34, 400, 403 -/
def zero : Sums K := ⟨0, some 0, some 0, some 0, some 0, some 0, some 0⟩

/-- _fast_pairwise.pyx:37-43 and 451-459 -/
def add (rnd : K → K) (s : Sums K) (p : Option K × Option K) : Sums K :=
  let n := s.nobs + 1
  let mx := op rnd (· + ·) s.mx (divN rnd (op rnd (· - ·) p.1 s.mx) n)
  let my := op rnd (· + ·) s.my (divN rnd (op rnd (· - ·) p.2 s.my) n)
  { nobs := n, mx := mx, my := my
    M2x := op rnd (· + ·) s.M2x (op rnd (· * ·) (op rnd (· - ·) p.1 mx) (op rnd (· - ·) p.1 s.mx))
    M2y := op rnd (· + ·) s.M2y (op rnd (· * ·) (op rnd (· - ·) p.2 my) (op rnd (· - ·) p.2 s.my))
    C := op rnd (· + ·) s.C (op rnd (· * ·) (op rnd (· - ·) p.1 mx) (op rnd (· - ·) p.2 s.my))
    msd := op rnd (· + ·) s.msd (divN rnd (op rnd (· - ·) (sqDiff rnd p.1 p.2) s.msd) n) }

/-- _fast_pairwise.pyx:465-473 -/
def remove (rnd : K → K) (s : Sums K) (p : Option K × Option K) : Sums K :=
  let n := s.nobs - 1
  let mx := op rnd (· - ·) s.mx (divN rnd (op rnd (· - ·) p.1 s.mx) n)
  let my := op rnd (· - ·) s.my (divN rnd (op rnd (· - ·) p.2 s.my) n)
  { nobs := n, mx := mx, my := my
    M2x := op rnd (· - ·) s.M2x (op rnd (· * ·) (op rnd (· - ·) p.1 s.mx) (op rnd (· - ·) p.1 mx))
    M2y := op rnd (· - ·) s.M2y (op rnd (· * ·) (op rnd (· - ·) p.2 s.my) (op rnd (· - ·) p.2 my))
    C := op rnd (· - ·) s.C (op rnd (· * ·) (op rnd (· - ·) p.1 s.mx) (op rnd (· - ·) p.2 my))
    msd := op rnd (· - ·) s.msd (divN rnd (op rnd (· - ·) (sqDiff rnd p.1 p.2) s.msd) n) }

/-- lines 410-442, as `Verif.Rolling.bounds`, with rounded sums of time and window -/
def bounds (rnd : K → K) (ts : ℕ → K) (n : ℕ) (w : K) (center : Bool) (i lower hi : ℕ) : ℕ × ℕ :=
  if center then
    let lower' := scan (fun j => ts j ≥ rnd (ts i - w)) lower (rangeAB lower n)
    let hi' :=
      if ts (n - 1) > rnd (ts i + w) then
        let upper := if i = 0 then 1 else hi - 1
        scan (fun j => ts j > rnd (ts i + w)) (upper + 1) (rangeAB upper n)
      else n
    (lower', hi')
  else
    (scan (fun j => ts j > rnd (ts i - w)) lower (rangeAB lower n), i + 1)

/-- variables that live across the rounds (lines 398-403) -/
structure State (K : Type) where
  lower : ℕ
  hi : ℕ
  sums : Sums K
  deriving DecidableEq

/-- lines 404-473: one round up to the sums -/
def round (rnd : K → K) (ts : ℕ → K) (d : ℕ → Option K × Option K) (n : ℕ) (w : K) (center : Bool) (s : State K) (i : ℕ) : State K :=
  let b := bounds rnd ts n w center i s.lower s.hi
  let a := ((rangeAB s.hi b.2).map d).foldl (add rnd) s.sums
  ⟨b.1, b.2, ((rangeAB s.lower b.1).map d).foldl (remove rnd) a⟩

/-- lines 404-473: the state at the end of each round -/
def states (rnd : K → K) (ts : ℕ → K) (d : ℕ → Option K × Option K) (n : ℕ) (w : K) (center : Bool) : State K → List ℕ → List (State K)
  | _, [] => []
  | s, i :: is =>
    let r := round rnd ts d n w center s i
    r :: states rnd ts d n w center r is

/-- the square root of the machine (lines 331, 487): NaN for negative numbers -/
def fsqrt (A : Arith K) (a : Option K) : Option K := a.bind (fun v => if v < 0 then none else some (A.sqrt v))

/-- `max(-1, min(v, 1))` (lines 330-331) for a number -/
def clip (v : K) : K := let m := if 1 < v then 1 else v; if m > -1 then m else -1

/-- lines 330-331: `max(-1, min(cov / sqrt(varx * vary), 1))`. With NaN both comparisons are false and the result is -1; division by zero gives an infinite
number or NaN. -/
def coeff (A : Arith K) (varx vary cov : Option K) : K :=
  match cov, fsqrt A (op A.rnd (· * ·) varx vary) with
  | some c, some s => if s = 0 then (if 0 < c then 1 else -1) else clip (A.rnd (c / s))
  | _, _ => -1

/-- lines 337-340: the p-value of R, for `|R| ≠ 1` -/
def pval (A : Arith K) (r : K) (n : ℤ) : Option K :=
  let df : K := (n : K) - 2
  let t2 := op A.rnd (· * ·) (some (A.rnd (r * r)))
    (let den := A.rnd (A.rnd (1 - r) * A.rnd (1 + r)); if den = 0 then none else some (A.rnd (df / den)))
  t2.bind (fun t2 =>
    let den := A.rnd (df + t2)
    if den = 0 then none
    else
      let q := A.rnd (df / den)
      some (A.betainc (df / 2) (1 / 2) (if 1 < q then 1 else q)))

/-- lines 323-341 `_pearsonr_from_moments`: R and its p-value -/
def pearsonr (A : Arith K) (varx vary cov : Option K) (n : ℤ) : Option K × Option K :=
  if varx = some 0 ∨ vary = some 0 then (none, none)
  else
    let r := coeff A varx vary cov
    if |r| = 1 then (some r, some 0) else (some r, pval A r n)

/-- one row of the two arrays that are returned (lines 475-489) -/
structure Out (K : Type) where
  R : Option K
  p : Option K
  rmsd : Option K
  deriving DecidableEq

/-- lines 475-487 -/
def out (A : Arith K) (minPeriods : ℤ) (s : State K) : Out K :=
  let numObs : ℤ := (s.hi : ℤ) - (s.lower : ℤ)
  if numObs = 0 ∨ numObs < minPeriods then ⟨none, none, none⟩
  else
    let pr := pearsonr A s.sums.M2x s.sums.M2y s.sums.C numObs
    ⟨pr.1, pr.2, fsqrt A s.sums.msd⟩

/-- lines 347-489 `rolling_pr_rmsd(timestamps, x, y, window_size, center, min_periods)` -/
def rollingPrRmsd (A : Arith K) (ts : ℕ → K) (d : ℕ → Option K × Option K) (n : ℕ) (w : K) (center : Bool) (minPeriods : ℤ) : List (Out K) :=
  (states A.rnd ts d n w center ⟨0, 0, zero⟩ (List.range n)).map (out A minPeriods)

/-- lines 12-44 `_moments_welford(x, y)`: `varx, vary, cov` (the mean square difference is not part of it) -/
def momentsWelford (rnd : K → K) (l : List (Option K × Option K)) : Option K × Option K × Option K :=
  let s := l.foldl (add rnd) zero
  (divN rnd s.M2x l.length, divN rnd s.M2y l.length, divN rnd s.C l.length)

/-! ## The rounding of `double` -/

/-- `m / 2^e` -/
def scale2 (x : ℚ) (e : ℤ) : ℚ := if 0 ≤ e then x / 2 ^ e.toNat else x * 2 ^ (-e).toNat

/-- the nearest integer, ties to even -/
def nearestEven (q : ℚ) : ℤ :=
  let f := q.floor
  let r := q - f
  if r < 1 / 2 then f else if 1 / 2 < r then f + 1 else if f % 2 = 0 then f else f + 1

/-- rounding to 53 binary digits, to nearest, ties to even (IEEE 754 without limits for the exponent) -/
def rnd64 (x : ℚ) : ℚ :=
  if x = 0 then 0
  else
    let e0 : ℤ := (Nat.log2 x.num.natAbs : ℤ) - (Nat.log2 x.den : ℤ) - 52
    let e := if scale2 |x| e0 < 2 ^ 52 then e0 - 1 else e0
    scale2 (nearestEven (scale2 x e) : ℚ) (-e)

end Verif.Rolling.Fl
