import Mathlib.Algebra.Field.Basic

/-! Textbook mean, population variance and population covariance. -/

namespace Verif.Moments

variable {K : Type} [Field K]

/-- arithmetic mean -/
def mean (l : List K) : K := l.sum / (l.length : K)

/-- mean squared deviation from the mean -/
def pvar (l : List K) : K := mean (l.map (fun a => (a - mean l) ^ 2))

/-- mean product of the deviations from the means -/
def pcov (l : List (K × K)) : K :=
  mean (l.map (fun p => (p.1 - mean (l.map Prod.fst)) * (p.2 - mean (l.map Prod.snd))))

end Verif.Moments
