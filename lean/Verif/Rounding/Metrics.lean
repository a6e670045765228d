import Verif.Rounding.Basic
import Mathlib.Analysis.SpecialFunctions.Sqrt

/-!
Model of the difference metrics with rounding: `bias` and `RSS` of `src/pytesmo/metrics/_fast_pairwise.pyx` (49-95),
`aad`, `msd` and `rmsd` of `src/pytesmo/metrics/pairwise.py` (118-228).

`rnd` is the rounding after every operation of the type of the arrays (`double` or `float`); `**2` is a multiplication
followed by a rounding. Overflow and underflow are not modelled. The two arrays (equal length, NaN-free) are the list of
their pairs; as in `Pairwise.Model` nothing is said about empty arrays.
-/

namespace Verif.Rounding

section
variable {K : Type} [Field K]

/-- _fast_pairwise.pyx:67-71: `b += x[i] - y[i]`, `b / n` -/
def bias (rnd : K → K) (l : List (K × K)) : K :=
  rnd (l.foldl (fun b p => rnd (b + rnd (p.1 - p.2))) 0 / (l.length : K))

/-- _fast_pairwise.pyx:90-95: `sum += (x[i] - y[i])**2` -/
def RSS (rnd : K → K) (l : List (K × K)) : K :=
  l.foldl (fun s p => rnd (s + rnd (rnd (p.1 - p.2) * rnd (p.1 - p.2)))) 0

/-- pairwise.py:193: `RSS(x, y) / len(x)` -/
def msd (rnd : K → K) (l : List (K × K)) : K := rnd (RSS rnd l / (l.length : K))

/-- pairwise.py:135: `np.mean(np.abs(x - y))`. numpy adds the numbers in an order of its own: `order` gives the tree of
additions for the array of the absolute differences. -/
def aad [LinearOrder K] (rnd : K → K) (order : List K → Tree K) (l : List (K × K)) : K :=
  rnd ((order (l.map (fun p => |rnd (p.1 - p.2)|))).sum rnd / (l.length : K))

end

/-- pairwise.py:220-221 (`ddof == 0`): `np.sqrt(msd(x, y))`, with a correctly rounded square root -/
noncomputable def rmsd (rnd : ℝ → ℝ) (l : List (ℝ × ℝ)) : ℝ := rnd (Real.sqrt (msd rnd l))

end Verif.Rounding
