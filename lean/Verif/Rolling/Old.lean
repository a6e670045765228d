import Verif.Rolling.Model
import Verif.Pairwise.Deprecated

/-!
C82: the deprecated `rolling_pr_rmsd` (`src/pytesmo/metrics/deprecated.py`, 439-507), kept for testing the fast version.

`ts j` is `timestamps[j]`, `d j` is `data[j]` (both columns), `n` time stamps. The conversion of the results to single precision is left
out. `np.empty` gives arrays with arbitrary contents (`garbage`).
-/

namespace Verif.Rolling

open Verif.Moments Verif.Pairwise

open Classical in
/-- deprecated.py:469-477: the positions inside the window of `i` -/
noncomputable def insideIdx (ts : ℕ → ℝ) (n : ℕ) (w : ℝ) (center : Bool) (i : ℕ) : List ℕ :=
  (List.range n).filter (fun j =>
    if center then |ts j - ts i| ≤ w else ts j - ts i ≤ 0 ∧ ts j - ts i > -w)

/-- `data[idx[0]: idx[-1] + 1]` (482-483) -/
def sliceOf (d : ℕ → ℝ × ℝ) (idx : List ℕ) : List (ℝ × ℝ) :=
  match idx.head?, idx.getLast? with
  | some a, some b => (rangeAB a (b + 1)).map d
  | _, _ => []

/-- `np.cov` of two arrays, one entry of the matrix: sums of products of deviations over n - 1. Used for deprecated.py:439-507. -/
noncomputable def npCov (l : List (ℝ × ℝ)) : ℝ :=
  (l.map (fun p => (p.1 - npMean (l.map Prod.fst)) * (p.2 - npMean (l.map Prod.snd)))).sum / ((l.length : ℝ) - 1)

open Classical in
/-- `np.corrcoef(sub1, sub2)[0, 1]` (486): NaN for one observation or a constant array, clipped to [-1, 1] -/
noncomputable def corrcoef (l : List (ℝ × ℝ)) : Option ℝ :=
  let vx := npCov (l.map (fun p => (p.1, p.1)))
  let vy := npCov (l.map (fun p => (p.2, p.2)))
  if l.length ≤ 1 ∨ vx = 0 ∨ vy = 0 then none
  else some (max (-1) (min (npCov l / Real.sqrt vx / Real.sqrt vy) 1))

open Classical in
/-- lines 488-500: the p-value; `nObs` is the number of positions inside the window -/
noncomputable def oldPvalue (betainc : ℝ → ℝ → ℝ → ℝ) (r nObs : ℝ) : ℝ :=
  if |r| = 1 then 0
  else
    let df := nObs - 2
    let t2 := r * r * (df / ((1 - r) * (1 + r)))
    let x := df / (df + t2)
    betainc (df / 2) (1 / 2) (if x < 1 then x else 1)

/-- lines 469-507: the results of position `i`; `rmsd_arr[i]` is only set if there are enough observations -/
noncomputable def oldRound (betainc : ℝ → ℝ → ℝ → ℝ) (garbage : ℕ → Option ℝ) (ts : ℕ → ℝ) (d : ℕ → ℝ × ℝ) (n : ℕ) (w : ℝ)
    (center : Bool) (minPeriods : ℤ) (i : ℕ) : Out :=
  let idx := insideIdx ts n w center i
  let nObs := idx.length
  if nObs = 0 ∨ (nObs : ℤ) < minPeriods then ⟨none, garbage i⟩
  else
    let sub := sliceOf d idx
    ⟨(corrcoef sub).map (fun r => (r, oldPvalue betainc r (nObs : ℝ))),
     some (Real.sqrt ((sub.map (fun p => (p.1 - p.2) ^ 2)).sum / ((sub.length : ℝ) - 0)))⟩

/-- deprecated.py:439-507 `rolling_pr_rmsd` -/
noncomputable def oldRollingPrRmsd (betainc : ℝ → ℝ → ℝ → ℝ) (garbage : ℕ → Option ℝ) (ts : ℕ → ℝ) (d : ℕ → ℝ × ℝ) (n : ℕ) (w : ℝ)
    (center : Bool) (minPeriods : ℤ) : List Out :=
  (List.range n).map (oldRound betainc garbage ts d n w center minPeriods)

end Verif.Rolling
