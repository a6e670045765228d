import Verif.Smoothn.Model

/-! What a user expects of `smoothn`, without the loops. -/

namespace Verif.Smoothn
variable {n : ℕ}

/-- the element is a gap or excluded -/
def Unused (a : Args n) (data : Fin n → Option ℝ) (i : Fin n) : Prop :=
  data i = a.gap ∨ ∃ m, a.excl = some m ∧ m i = true

/-- what is assumed of the cosine transform: an orthonormal change of basis, and of the eigenvalues: they are
not negative, and zero for the part of constant arrays -/
structure IsDct (e : Env n) : Prop where
  add : ∀ x y, e.dct (fun i => x i + y i) = fun i => e.dct x i + e.dct y i
  inner : ∀ x y, ∑ i, e.dct x i * e.dct y i = ∑ i, x i * y i
  left : ∀ x, e.idct (e.dct x) = x
  right : ∀ x, e.dct (e.idct x) = x
  nonneg : ∀ i, 0 ≤ e.lam i
  const : ∀ c i, e.lam i ≠ 0 → e.dct (fun _ => c) i = 0

/-- the objective of penalised least squares: weighted squared deviations from the data plus the roughness times `s` -/
noncomputable def objective (e : Env n) (order : ℕ) (w y : Fin n → ℝ) (s : ℝ) (x : Fin n → ℝ) : ℝ :=
  ∑ i, w i * (y i - x i) ^ 2 + s * ∑ i, e.lam i ^ order * e.dct x i ^ 2

/-- `z` has the smallest value of the objective -/
def IsBest (e : Env n) (order : ℕ) (w y : Fin n → ℝ) (s : ℝ) (z : Fin n → ℝ) : Prop :=
  ∀ x, objective e order w y s z ≤ objective e order w y s x

/-- `z` is the only array with the smallest value of the objective -/
def IsOnlyBest (e : Env n) (order : ℕ) (w y : Fin n → ℝ) (s : ℝ) (z : Fin n → ℝ) : Prop :=
  ∀ x, x ≠ z → objective e order w y s z < objective e order w y s x

end Verif.Smoothn
