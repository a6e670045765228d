import Mathlib.Algebra.Order.Field.Basic
import Mathlib.Analysis.SpecialFunctions.Exp

/-! Specification of the two smoothing filters, independent of the model. -/

namespace Verif.Filters

/-- The usable observations: neither NaN nor the no-data value. -/
def validObs {K : Type} [DecidableEq K] (nan : K) (obs : List (K × Option K)) : List (K × K) :=
  obs.filterMap (fun o => o.2.bind (fun v => if v = nan then none else some (o.1, v)))

/-- Values of the usable observations within half a window of `t`. -/
def inReach {K : Type} [Field K] [LinearOrder K] (nan window t : K) (obs : List (K × Option K)) : List K :=
  ((validObs nan obs).filter (fun o => |o.1 - t| ≤ window / 2)).map Prod.snd

/-- Expected boxcar result at observation `o` of the series `obs`. -/
def boxcarSpec {K : Type} [Field K] [LinearOrder K] (obs : List (K × Option K)) (window nan : K) (fillna : Bool)
    (minObs : Int) (o : K × Option K) : Option K :=
  let vs := inReach nan window o.1 obs
  if (o.2 = none ∨ o.2 = some nan) ∧ fillna = false then none
  else if (vs.length : Int) < minObs ∨ vs = [] then none
  else some (vs.sum / vs.length)

open Real in
/-- Weight of an observation at time `tk` seen from time `t`. -/
noncomputable def expWeight (ctime : ℤ) (t tk : ℝ) : ℝ := exp (-((t - tk) / (ctime : ℝ)))

/-- Expected exponential filter result at observation `o`, where `past` are all observations up to and including `o`:
the exponentially weighted mean of the usable ones. -/
noncomputable def expSpec (ctime : ℤ) (nan : ℝ) (past : List (ℝ × Option ℝ)) (o : ℝ × Option ℝ) : Option ℝ :=
  if o.2 = none ∨ o.2 = some nan then none
  else some (((validObs nan past).map (fun p => expWeight ctime o.1 p.1 * p.2)).sum /
    ((validObs nan past).map (fun p => expWeight ctime o.1 p.1)).sum)

end Verif.Filters
