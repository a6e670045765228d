import Verif.Pairwise.Spec

/-! Specification of the rolling metrics: everything computed from scratch on the observations of the window. -/

namespace Verif.Rolling

open Verif.Moments Verif.Pairwise

open Classical in
/-- Observations of the window of `i`: `|t_j - t_i| ≤ w` if centred, `t_i - w < t_j ≤ t_i` otherwise. -/
noncomputable def window (ts : ℕ → ℝ) (d : ℕ → ℝ × ℝ) (n : ℕ) (w : ℝ) (center : Bool) (i : ℕ) : List (ℝ × ℝ) :=
  ((List.range n).filter (fun j =>
    if center then |ts j - ts i| ≤ w else ts i - w < ts j ∧ ts j ≤ ts i)).map d

open Classical in
/-- two-sided p-value of a correlation coefficient `r` of `n` observations -/
noncomputable def pvalue (betainc : ℝ → ℝ → ℝ → ℝ) (r n : ℝ) : ℝ :=
  if |r| = 1 then 0
  else betainc ((n - 2) / 2) (1 / 2) (min ((n - 2) / (n - 2 + r * r * ((n - 2) / ((1 - r) * (1 + r))))) 1)

/-- Expected (R, p) for the observations of a window -/
noncomputable def expectedPr (betainc : ℝ → ℝ → ℝ → ℝ) (minPeriods : ℤ) (l : List (ℝ × ℝ)) : Option (ℝ × ℝ) :=
  if (l.length : ℤ) < minPeriods then none
  else (pearson l).map (fun r => (r, pvalue betainc r (l.length : ℝ)))

/-- Expected RMSD for the observations of a window -/
noncomputable def expectedRmsd (minPeriods : ℤ) (l : List (ℝ × ℝ)) : Option ℝ :=
  if (l.length : ℤ) < minPeriods then none else some (Real.sqrt (meanSqDiff l))

end Verif.Rolling
