import Mathlib.Analysis.SpecialFunctions.Sqrt
import Verif.Moments.Spec

/-! Textbook definitions used to state the pairwise metric properties. -/

namespace Verif.Pairwise

open Verif.Moments

/-- mean squared difference -/
noncomputable def meanSqDiff (l : List (ℝ × ℝ)) : ℝ := mean (l.map (fun p => (p.1 - p.2) ^ 2))

/-- Pearson's correlation coefficient, defined when both series vary. -/
noncomputable def pearson (l : List (ℝ × ℝ)) : Option ℝ :=
  if pvar (l.map Prod.fst) = 0 ∨ pvar (l.map Prod.snd) = 0 then none
  else some (pcov l / (Real.sqrt (pvar (l.map Prod.fst)) * Real.sqrt (pvar (l.map Prod.snd))))

/-- the two series exchanged -/
def swapped (l : List (ℝ × ℝ)) : List (ℝ × ℝ) := l.map Prod.swap

end Verif.Pairwise
