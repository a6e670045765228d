import Mathlib.Data.Real.Basic
import Mathlib.Data.Fin.Basic

/-! Specification of extended collocation: the error model and when its parameters can be identified. -/

namespace Verif.Ecol

/-- the errors of `a` and `b` are declared to be correlated -/
def Declared {n : ℕ} (correlated : List (Fin n × Fin n)) (a b : Fin n) : Prop :=
  (a, b) ∈ correlated ∨ (b, a) ∈ correlated

/-- "Each data set must be a member of at least one triplet that fulfils the classical triple collocation assumptions", and
each declared pair can be bridged by two further data sets. -/
structure Identifiable {n : ℕ} (correlated : List (Fin n × Fin n)) : Prop where
  triplet : ∀ a, ∃ c d, c ≠ a ∧ d ≠ a ∧ c ≠ d ∧
    ¬ Declared correlated a c ∧ ¬ Declared correlated a d ∧ ¬ Declared correlated c d
  bridge : ∀ a b, (a, b) ∈ correlated → ∃ c d, c ≠ a ∧ c ≠ b ∧ d ≠ a ∧ d ≠ b ∧ c ≠ d ∧
    ¬ Declared correlated a c ∧ ¬ Declared correlated b d ∧ ¬ Declared correlated c d

/-- A sample of the truth and of the errors of all data sets at one time. -/
structure Truth (n : ℕ) where
  signal : ℝ
  err : Fin n → ℝ

/-- what the data sets observe -/
def observe {n : ℕ} (a b : Fin n → ℝ) (t : Truth n) : Fin n → Option ℝ := fun i => some (a i + b i * t.signal + t.err i)

noncomputable def sampleMean {n : ℕ} (ts : List (Truth n)) (f : Truth n → ℝ) : ℝ := (ts.map f).sum / (ts.length : ℝ)

/-- sample covariance (normalisation by sample size - 1) -/
noncomputable def sampleCov {n : ℕ} (ts : List (Truth n)) (f g : Truth n → ℝ) : ℝ :=
  (ts.map (fun t => (f t - sampleMean ts f) * (g t - sampleMean ts g))).sum / ((ts.length : ℝ) - 1)

/-- the error covariance given a priori for the (unordered) pair `{p, q}`, 0 for other pairs -/
noncomputable def known {n : ℕ} : Option (Fin n × Fin n × ℝ) → Fin n → Fin n → ℝ
  | none, _, _ => 0
  | some (p, q, v), i, j => if (i = p ∧ j = q) ∨ (i = q ∧ j = p) then v else 0

end Verif.Ecol
