import Mathlib.Algebra.Field.Basic

/-!
Model of the one-pass moment routines:
`src/pytesmo/metrics/_fast_pairwise.pyx:_moments_welford` (12-44) and `src/pytesmo/metrics/_fast.pyx:_moments_welford_nd`
(12-63). Arithmetic is exact (a field of characteristic 0), the inputs are NaN-free.
-/

namespace Verif.Moments

variable {K : Type} [Field K]

/-- Local variables of `_moments_welford` (29-34). -/
structure State (K : Type) where
  nobs : K
  mx : K
  my : K
  M2x : K
  M2y : K
  C : K

/-- _fast_pairwise.pyx:33-34. -/
def init : State K := ⟨0, 0, 0, 0, 0, 0⟩

/-- _fast_pairwise.pyx:36-43: one round of the loop with `x[i] = p.1`, `y[i] = p.2`. -/
def step (s : State K) (p : K × K) : State K :=
  let nobs := s.nobs + 1
  let mxold := s.mx
  let myold := s.my
  let mx := s.mx + (p.1 - s.mx) / nobs
  let my := s.my + (p.2 - s.my) / nobs
  { nobs := nobs, mx := mx, my := my
    M2x := s.M2x + (p.1 - mx) * (p.1 - mxold)
    M2y := s.M2y + (p.2 - my) * (p.2 - myold)
    C := s.C + (p.1 - mx) * (p.2 - myold) }

/-- Result of `_moments_welford`. Used for _fast_pairwise.pyx:12-44. -/
structure Moments (K : Type) where
  mx : K
  my : K
  varx : K
  vary : K
  cov : K
deriving DecidableEq

/-- _fast_pairwise.pyx:12-44. `x` and `y` (of equal length) are given as the list of their pairs. For `n = 0` the code
returns NaN for the last three values; the model gives `0` there and no theorem speaks about this case. -/
def momentsWelford (l : List (K × K)) : Moments K :=
  let s := l.foldl step init
  let n : K := (l.length : K)
  ⟨s.mx, s.my, s.M2x / n, s.M2y / n, s.C / n⟩

/-! ### The n-dimensional version -/

/-- `mean` and the upper triangle of `C` as functions of the column numbers (_fast.pyx:42-44); `oldmean` is written but never
read. -/
structure NdState (K : Type) where
  nobs : K
  mean : Nat → K
  C : Nat → Nat → K

/-- _fast.pyx:52-53: inner loop over `k = j, …, d-1` (all `k` at once: round `k` only writes `C[j,k]`). -/
def ndInner (d j : Nat) (row : Nat → K) (s : NdState K) : NdState K :=
  { s with C := fun a b =>
      if a = j ∧ j ≤ b ∧ b < d then s.C a b + (row j - s.mean j) * (row b - s.mean b) else s.C a b }

/-- _fast.pyx:49-53: one round of the loop over `j`. -/
def ndColumn (d : Nat) (row : Nat → K) (s : NdState K) (j : Nat) : NdState K :=
  ndInner d j row { s with mean := fun a => if a = j then s.mean j + (row j - s.mean j) / s.nobs else s.mean a }

/-- _fast.pyx:48-53: one row of the data. -/
def ndStep (d : Nat) (s : NdState K) (row : Nat → K) : NdState K :=
  (List.range d).foldl (ndColumn d row) { s with nobs := s.nobs + 1 }

/-- _fast.pyx:12-63 `_moments_welford_nd`: `d` columns, rows as functions of the column number. Lines 55-61 divide the upper
triangle and mirror it. -/
def momentsNd (d : Nat) (rows : List (Nat → K)) : (Nat → K) × (Nat → Nat → K) :=
  let s := rows.foldl (ndStep d) ⟨0, fun _ => 0, fun _ _ => 0⟩
  (s.mean, fun j k => if j ≤ k then s.C j k / s.nobs else s.C k j / s.nobs)

end Verif.Moments
