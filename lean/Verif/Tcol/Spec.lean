import Mathlib.Data.Real.Basic
import Mathlib.Data.Fin.Basic

/-! The affine signal-plus-error model of triple collocation. -/

namespace Verif.Tcol

/-- Covariance matrix of three data sets with gains `b`, common signal variance `s` and independent errors of variance `e`. -/
structure ErrorModel where
  b : Fin 3 → ℝ
  s : ℝ
  e : Fin 3 → ℝ
  b_ne : ∀ i, b i ≠ 0
  s_pos : 0 < s
  e_pos : ∀ i, 0 < e i

/-- covariances implied by the model -/
def ErrorModel.cov (m : ErrorModel) (i j : Fin 3) : ℝ := m.b i * m.b j * m.s + (if i = j then m.e i else 0)

/-- A sample of the truth and of the three errors at one time. -/
structure Truth where
  signal : ℝ
  err : Fin 3 → ℝ

/-- what the data sets observe: `a_i + b_i * signal + err_i` -/
def observe (a b : Fin 3 → ℝ) (t : Truth) : Fin 3 → ℝ := fun i => a i + b i * t.signal + t.err i

/-- mean of a quantity over the samples -/
noncomputable def sampleMean (ts : List Truth) (f : Truth → ℝ) : ℝ := (ts.map f).sum / (ts.length : ℝ)

/-- sample covariance (normalisation n - 1) -/
noncomputable def sampleCov (ts : List Truth) (f g : Truth → ℝ) : ℝ :=
  (ts.map (fun t => (f t - sampleMean ts f) * (g t - sampleMean ts g))).sum / ((ts.length : ℝ) - 1)

end Verif.Tcol
