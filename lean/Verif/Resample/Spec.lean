import Mathlib.Algebra.Order.Field.Basic
import Mathlib.Algebra.Order.Group.Abs

/-! Specification of window averaging, independent of the model. -/

namespace Verif.Resample

variable {K : Type*} [Field K] [LinearOrder K]

/-- The non-missing values observed within half a window of `target`. -/
def windowValues (obs : List (K × Option K)) (window target : K) : List K :=
  (obs.filter (fun o => |o.1 - target| ≤ window / 2)).filterMap Prod.snd

/-- What a user expects at `target`. -/
def windowMean (obs : List (K × Option K)) (window target : K) : Option K :=
  match windowValues obs window target with
  | [] => none
  | v :: vs => some ((v :: vs).sum / ((v :: vs).length : K))

end Verif.Resample
