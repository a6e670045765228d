import Verif.Rolling.Float
import Verif.Collocation.Julian

/-!
Model of `RollingMetrics.calc_metrics` (`src/pytesmo/validation_framework/metric_calculators.py:1322-1377`) from the time stamps of the data frame to the rolling metrics, with Julian
dates and windows in the arithmetic of the machine (`rt`) and the sums in an arithmetic of their own (`A`). The frame has two columns without missing time stamps; the meta data of the
result are in `Calculators`.
-/

namespace Verif.Rolling.Fl.Jd

open Verif.Rolling (rangeAB)
open Verif.Collocation.Julian (dayNs julian)

/-- metric_calculators.py:1358-1360: `pd.Timedelta(window_size).to_numpy() / np.timedelta64(1, "D")`; numpy divides the nanoseconds, converted to `double` -/
def windowJd (rt : ℚ → ℚ) (w : ℤ) : ℚ := rt (rt (w : ℚ) / dayNs)

variable {K : Type} [Field K] [LinearOrder K]

/-- _fast_pairwise.pyx:404-473: one round, `bd` gives the new bounds (404-442) -/
def round (bd : ℕ → ℕ → ℕ → ℕ × ℕ) (rnd : K → K) (d : ℕ → Option K × Option K) (s : State K) (i : ℕ) : State K :=
  let b := bd i s.lower s.hi
  let a := ((rangeAB s.hi b.2).map d).foldl (add rnd) s.sums
  ⟨b.1, b.2, ((rangeAB s.lower b.1).map d).foldl (remove rnd) a⟩

/-- _fast_pairwise.pyx:404-487: the state at the end of each round -/
def states (bd : ℕ → ℕ → ℕ → ℕ × ℕ) (rnd : K → K) (d : ℕ → Option K × Option K) : State K → List ℕ → List (State K)
  | _, [] => []
  | s, i :: is =>
    let r := round bd rnd d s i
    r :: states bd rnd d r is

/-- metric_calculators.py:1352-1373: the rows of the results for the time stamps `index` and the two columns `d`, `none` with status INSUFFICIENT_DATA -/
def rollingMetrics (rt : ℚ → ℚ) (A : Arith K) (minObs : ℕ) (index : ℕ → ℤ) (d : ℕ → Option K × Option K) (n : ℕ) (w : ℤ) (center : Bool) (minPeriods : ℤ) :
    Option (List (Out K)) :=
  if n < minObs then none
  else some ((states (bounds rt (fun j => julian rt (index j)) n (windowJd rt w) center) A.rnd d ⟨0, 0, zero⟩ (List.range n)).map (out A minPeriods))

end Verif.Rolling.Fl.Jd
