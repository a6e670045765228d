import Verif.Tcol.Model

/-!
C116: `src/pytesmo/metrics/tcol.py`: `tcol_metrics` (17-104) and `_tcol_metrics_from_cov` (107-146) with infinities and NaN, for all data: the model
of C13 excludes division by zero and roots and logarithms of negative numbers. Finite values are real numbers (no rounding); a zero is `+0.0`.
-/

noncomputable section

namespace Verif.Tcol

/-- a floating point number without rounding. Used for tcol.py:103, tcol.py:116-126. -/
inductive Fl
  | fin (x : ℝ)
  | inf (negative : Bool)
  | nan

namespace Fl

open Classical

/-- `a * b`. Used for tcol.py:116-126, tcol.py:127-134. -/
def mul : Fl → Fl → Fl
  | .fin a, .fin b => .fin (a * b)
  | .fin a, .inf s => if a = 0 then .nan else .inf (xor s (decide (a < 0)))
  | .inf s, .fin b => if b = 0 then .nan else .inf (xor s (decide (b < 0)))
  | .inf s, .inf t => .inf (xor s t)
  | .nan, _ => .nan
  | _, .nan => .nan

/-- `a / b`. Used for tcol.py:116-126, tcol.py:127-134. -/
def div : Fl → Fl → Fl
  | .fin a, .fin b => if b = 0 then (if a = 0 then .nan else .inf (decide (a < 0))) else .fin (a / b)
  | .fin _, .inf _ => .fin 0
  | .inf s, .fin b => .inf (xor s (decide (b < 0)))
  | .inf _, .inf _ => .nan
  | .nan, _ => .nan
  | _, .nan => .nan

/-- `a - b`. Used for tcol.py:116-126, tcol.py:127-134. -/
def sub : Fl → Fl → Fl
  | .fin a, .fin b => .fin (a - b)
  | .fin _, .inf s => .inf (!s)
  | .inf s, .fin _ => .inf s
  | .inf s, .inf t => if s = t then .nan else .inf s
  | .nan, _ => .nan
  | _, .nan => .nan

/-- `np.abs`. Used for tcol.py:116-126. -/
def abs : Fl → Fl
  | .fin a => .fin |a|
  | .inf _ => .inf false
  | .nan => .nan

/-- `np.log10` -/
def log10 : Fl → Fl
  | .fin a => if a < 0 then .nan else if a = 0 then .inf true else .fin (Real.logb 10 a)
  | .inf s => if s then .nan else .inf false
  | .nan => .nan

/-- `np.sqrt`. Used for tcol.py:17-104. -/
def sqrt : Fl → Fl
  | .fin a => if a < 0 then .nan else .fin (Real.sqrt a)
  | .inf s => if s then .nan else .inf false
  | .nan => .nan

end Fl

/-- tcol.py:103 `np.cov(np.vstack((x, y, z)))`; with fewer than two observations all covariances are NaN -/
def npCovFl (rows : List Row) (i j : Fin 3) : Fl := if rows.length < 2 then .nan else .fin (npCov rows i j)

/-- results of one data set. Used for tcol.py:17-104. -/
structure OneResult where
  snr : Fl
  errStd : Fl
  beta : Fl

/-- tcol.py:116-126: the signal-to-noise ratio of the data set `i` -/
def snrFl (cov : Fin 3 → Fin 3 → Fl) (i : Fin 3) : Fl :=
  .mul (.fin 10) (.log10 (.div (.fin 1) (.abs (.sub (.abs (.div (.mul (cov i i) (cov (i + 1) (i + 2))) (.mul (cov i (i + 1)) (cov i (i + 2))))) (.fin 1)))))

/-- tcol.py:127-134: the variance of the error of the data set `i` -/
def errVarFl (cov : Fin 3 → Fin 3 → Fl) (i : Fin 3) : Fl :=
  .sub (cov i i) (.div (.mul (cov i (i + 1)) (cov i (i + 2))) (cov (i + 1) (i + 2)))

/-- tcol.py:136-144: the scaling coefficient of the data set `i` -/
def betaFl (cov : Fin 3 → Fin 3 → Fl) (ref i : Fin 3) : Fl :=
  if i ≠ ref then .div (cov ref (otherInd ref i)) (cov i (otherInd ref i)) else .fin 1

/-- tcol.py:17-104 `tcol_metrics(x, y, z, ref_ind)`: the results of the data set `i` -/
def tcolFl (rows : List Row) (ref i : Fin 3) : OneResult :=
  { snr := snrFl (npCovFl rows) i
    errStd := .mul (.sqrt (errVarFl (npCovFl rows) i)) (betaFl (npCovFl rows) ref i)
    beta := betaFl (npCovFl rows) ref i }

/-! ### Specification -/

/-- the variance of the signal in the data set `i` that the covariances `c` imply (docs of `tcol_metrics`) -/
def signalVar (c : Fin 3 → Fin 3 → ℝ) (i : Fin 3) : ℝ := c i (i + 1) * c i (i + 2) / c (i + 1) (i + 2)

/-- the variance of the error: what the signal leaves of the variance -/
def errorVar (c : Fin 3 → Fin 3 → ℝ) (i : Fin 3) : ℝ := c i i - signalVar c i

/-- two of the three data sets are correlated, for each two -/
def Correlated (c : Fin 3 → Fin 3 → ℝ) : Prop := ∀ i j, i ≠ j → c i j ≠ 0

end Verif.Tcol
