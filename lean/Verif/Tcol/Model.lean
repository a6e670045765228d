import Mathlib.Analysis.SpecialFunctions.Log.Base
import Mathlib.Analysis.SpecialFunctions.Sqrt
import Mathlib.Data.Fin.Basic

/-!
Model of triple collocation: `src/pytesmo/metrics/tcol.py:tcol_metrics` (17-104), `_tcol_metrics_from_cov` (107-146) and
`src/pytesmo/metrics/deprecated.py:tcol_error` (17-67), `tcol_snr` (70-195). Arithmetic is over ℝ. Division by zero and the logarithm or root of
negative numbers give inf/NaN in numpy; the theorems exclude these cases by hypotheses.
-/

namespace Verif.Tcol

/-- One collocated observation of the three data sets (x, y, z). Used for tcol.py:103, tcol.py:17-104. -/
abbrev Row := Fin 3 → ℝ

/-- `np.mean` of a derived quantity. Used for tcol.py:103, deprecated.py:17-67. -/
noncomputable def avg (rows : List Row) (f : Row → ℝ) : ℝ := (rows.map f).sum / (rows.length : ℝ)

/-- tcol.py:103 `np.cov(np.vstack((x, y, z)))` (normalisation n - 1) -/
noncomputable def npCov (rows : List Row) (i j : Fin 3) : ℝ :=
  (rows.map (fun r => (r i - avg rows (fun r => r i)) * (r j - avg rows (fun r => r j)))).sum /
    ((rows.length : ℝ) - 1)

/-- Results of `tcol_metrics`. Used for tcol.py:107-146, tcol.py:17-104. -/
structure TcolResult where
  snr : Fin 3 → ℝ
  errStd : Fin 3 → ℝ
  beta : Fin 3 → ℝ

/-- tcol.py:112, 138 `no_ref_ind[no_ref_ind != i][0]`: the first index different from `ref` and `i` -/
def otherInd (ref i : Fin 3) : Fin 3 := ((List.finRange 3).filter (fun k => k ≠ ref && k ≠ i)).headD 0

/-- tcol.py:107-146 `_tcol_metrics_from_cov`; `ind[i + 1]`, `ind[i + 2]` are `i + 1`, `i + 2` modulo 3. -/
noncomputable def tcolMetricsFromCov (cov : Fin 3 → Fin 3 → ℝ) (ref : Fin 3) : TcolResult :=
  let snr := fun i : Fin 3 =>
    10 * Real.logb 10 (|(|(cov i i * cov (i + 1) (i + 2)) / (cov i (i + 1) * cov i (i + 2))| - 1)|⁻¹)
  let errVar := fun i : Fin 3 => cov i i - (cov i (i + 1) * cov i (i + 2)) / cov (i + 1) (i + 2)
  let beta := fun i : Fin 3 => if i ≠ ref then cov ref (otherInd ref i) / cov i (otherInd ref i) else 1
  { snr := snr, errStd := fun i => Real.sqrt (errVar i) * beta i, beta := beta }

/-- tcol.py:17-104 `tcol_metrics(x, y, z, ref_ind)` -/
noncomputable def tcolMetrics (rows : List Row) (ref : Fin 3) : TcolResult := tcolMetricsFromCov (npCov rows) ref

/-- deprecated.py:70-195 `tcol_snr`: as `tcol_metrics` without the absolute values in the SNR -/
noncomputable def tcolSnr (rows : List Row) (ref : Fin 3) : TcolResult :=
  let cov := npCov rows
  { tcolMetricsFromCov cov ref with
    snr := fun i => 10 * Real.logb 10 ((cov i i * cov (i + 1) (i + 2)) / (cov i (i + 1) * cov i (i + 2)) - 1)⁻¹ }

/-- deprecated.py:17-67 `tcol_error` for already scaled data: entry `i` is `e_x`, `e_y`, `e_z`. -/
noncomputable def tcolError (rows : List Row) (i : Fin 3) : ℝ :=
  Real.sqrt |avg rows (fun r => (r i - r (i + 1)) * (r i - r (i + 2)))|

end Verif.Tcol
