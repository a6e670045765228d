import Verif.Smoothn.Spec
import Verif.Smoothn.Axis
import Mathlib.LinearAlgebra.Matrix.Kronecker
import Mathlib.LinearAlgebra.Matrix.NonsingularInverse
import Mathlib.Logic.Equiv.Fin.Basic
import Mathlib.Tactic.FieldSimp
import Mathlib.Tactic.Positivity

/-!
# C88: the cosine transform and the roughness that is penalised

Model of `src/pytesmo/interpolate/dctpls.py:125-162` (`dctNd`) and of the environment it gives the model of `smoothn`, for arrays of one, two
and three dimensions of any size. `scipy.fftpack.dct` and `idct` are modelled by the formulas of their documentation (type 2, `norm='ortho'`).
-/

set_option linter.unusedSectionVars false

noncomputable section

namespace Verif.Smoothn

open Matrix Real

/-! ### Model -/

/-- `scipy.fftpack.dct(x, type=2, norm='ortho')`: `y[k] = 2 Σ x[m] cos(π k (2 m + 1) / (2 n))`, scaled by `sqrt(1/(4 n))` for `k = 0`, else by
`sqrt(1/(2 n))`. Used for dctpls.py:144. -/
def dct1 {n : ℕ} (x : Fin n → ℝ) (k : Fin n) : ℝ :=
  (if k.val = 0 then √(1 / (4 * n)) else √(1 / (2 * n))) * (2 * ∑ m, x m * cos (π * k * (2 * m + 1) / (2 * n)))

/-- `scipy.fftpack.idct(x, type=2, norm='ortho')`, the transform of type 3: `y[k] = x[0] / sqrt(n) + sqrt(2/n) Σ_{m > 0} x[m] cos(π (k + 1/2) m / n)`.
Used for dctpls.py:144. -/
def idct1 {n : ℕ} (x : Fin n → ℝ) (k : Fin n) : ℝ :=
  ∑ m : Fin n, if m.val = 0 then x m / √n else √(2 / n) * (x m * cos (π * (k + 1 / 2) * m / n))

/-- `dct` or `idct` (dctpls.py:144) -/
def func1 (inverse : Bool) {n : ℕ} (x : Fin n → ℝ) : Fin n → ℝ := if inverse then idct1 x else dct1 x

/-- an array; only whether there are more than three dimensions matters for the others. Used for dctpls.py:125-162. -/
inductive Arr
  | one {n : ℕ} (x : Fin n → ℝ)
  | two {a b : ℕ} (x : Fin a → Fin b → ℝ)
  | three {a b c : ℕ} (x : Fin a → Fin b → Fin c → ℝ)
  | more

/-- a function applied along the first axis of two. Used for dctpls.py:151-152. -/
def along0 {a b : ℕ} (f : (Fin a → ℝ) → Fin a → ℝ) (x : Fin a → Fin b → ℝ) : Fin a → Fin b → ℝ := fun i j => f (fun i' => x i' j) i

/-- a function applied along the second axis of two. Used for dctpls.py:151-152. -/
def along1 {a b : ℕ} (f : (Fin b → ℝ) → Fin b → ℝ) (x : Fin a → Fin b → ℝ) : Fin a → Fin b → ℝ := fun i j => f (fun j' => x i j') j

/-- a function applied along the first axis of three. Used for dctpls.py:153-157. -/
def along0' {a b c : ℕ} (f : (Fin a → ℝ) → Fin a → ℝ) (x : Fin a → Fin b → Fin c → ℝ) : Fin a → Fin b → Fin c → ℝ :=
  fun i j k => f (fun i' => x i' j k) i

/-- a function applied along the second axis of three. Used for dctpls.py:153-157. -/
def along1' {a b c : ℕ} (f : (Fin b → ℝ) → Fin b → ℝ) (x : Fin a → Fin b → Fin c → ℝ) : Fin a → Fin b → Fin c → ℝ :=
  fun i j k => f (fun j' => x i j' k) j

/-- a function applied along the third axis of three. Used for dctpls.py:153-157. -/
def along2' {a b c : ℕ} (f : (Fin c → ℝ) → Fin c → ℝ) (x : Fin a → Fin b → Fin c → ℝ) : Fin a → Fin b → Fin c → ℝ :=
  fun i j k => f (fun k' => x i j k') k

/-- dctpls.py:149-150 -/
def dctNd1 (inverse : Bool) {n : ℕ} (x : Fin n → ℝ) : Fin n → ℝ := func1 inverse x

/-- dctpls.py:151-152 -/
def dctNd2 (inverse : Bool) {a b : ℕ} (x : Fin a → Fin b → ℝ) : Fin a → Fin b → ℝ :=
  along1 (func1 inverse) (along0 (func1 inverse) x)

/-- dctpls.py:153-157 -/
def dctNd3 (inverse : Bool) {a b c : ℕ} (x : Fin a → Fin b → Fin c → ℝ) : Fin a → Fin b → Fin c → ℝ :=
  along2' (func1 inverse) (along1' (func1 inverse) (along0' (func1 inverse) x))

/-- dctpls.py:125-162 `dctNd` with the defaults for `type` and `norm`; `none`: ValueError (158-160) -/
def dctNd (inverse : Bool) : Arr → Option Arr
  | .one x => some (.one (dctNd1 inverse x))
  | .two x => some (.two (dctNd2 inverse x))
  | .three x => some (.three (dctNd3 inverse x))
  | .more => none

/-- dctpls.py:117: `ceil(n * 0.1)`, the number of coefficients kept along an axis; rounding left out -/
def kept (n : ℕ) : ℕ := (n + 9) / 10

/-- position in memory of the element of a two-dimensional array -/
def flat2 {a b : ℕ} (x : Fin a → Fin b → ℝ) : Fin (a * b) → ℝ := fun p => x (finProdFinEquiv.symm p).1 (finProdFinEquiv.symm p).2

/-- the two-dimensional array with these elements in memory -/
def arr2 {a b : ℕ} (x : Fin (a * b) → ℝ) : Fin a → Fin b → ℝ := fun i j => x (finProdFinEquiv (i, j))

/-- position in memory of the element of a three-dimensional array -/
def flat3 {a b c : ℕ} (x : Fin a → Fin b → Fin c → ℝ) : Fin (a * (b * c)) → ℝ :=
  fun p => x (finProdFinEquiv.symm p).1 (finProdFinEquiv.symm (finProdFinEquiv.symm p).2).1 (finProdFinEquiv.symm (finProdFinEquiv.symm p).2).2

/-- the three-dimensional array with these elements in memory -/
def arr3 {a b c : ℕ} (x : Fin (a * (b * c)) → ℝ) : Fin a → Fin b → Fin c → ℝ := fun i j k => x (finProdFinEquiv (i, finProdFinEquiv (j, k)))

/-- what `smoothn` uses for an array of one dimension: `dctNd` (125-162), `Lambda` (537-549), the coefficients of the first guess (115-119);
the search for near elements and for the minimum of a score are external -/
def env1 (n : ℕ) (near : (Fin n → Bool) → Fin n → Fin n) (fmin : (ℝ → ℝ) → ℝ) : Env n where
  dct := dctNd1 false
  idct := dctNd1 true
  lam k := Axis.eigenvalue n k
  near := near
  low k := decide (k.val < kept n)
  fmin := fmin

/-- the same (dctpls.py:115-119, 125-162, 537-549) for an array of two dimensions -/
def env2 (a b : ℕ) (near : (Fin (a * b) → Bool) → Fin (a * b) → Fin (a * b)) (fmin : (ℝ → ℝ) → ℝ) : Env (a * b) where
  dct x := flat2 (dctNd2 false (arr2 x))
  idct x := flat2 (dctNd2 true (arr2 x))
  lam := flat2 (fun i j => Axis.eigenvalue a i + Axis.eigenvalue b j)
  near := near
  low p := decide ((finProdFinEquiv.symm p).1.val < kept a) && decide ((finProdFinEquiv.symm p).2.val < kept b)
  fmin := fmin

/-- the same (dctpls.py:115-119, 125-162, 537-549) for an array of three dimensions -/
def env3 (a b c : ℕ) (near : (Fin (a * (b * c)) → Bool) → Fin (a * (b * c)) → Fin (a * (b * c))) (fmin : (ℝ → ℝ) → ℝ) :
    Env (a * (b * c)) where
  dct x := flat3 (dctNd3 false (arr3 x))
  idct x := flat3 (dctNd3 true (arr3 x))
  lam := flat3 (fun i j k => Axis.eigenvalue a i + Axis.eigenvalue b j + Axis.eigenvalue c k)
  near := near
  low p := decide ((finProdFinEquiv.symm p).1.val < kept a) &&
    (decide ((finProdFinEquiv.symm (finProdFinEquiv.symm p).2).1.val < kept b) && decide ((finProdFinEquiv.symm (finProdFinEquiv.symm p).2).2.val < kept c))
  fmin := fmin

/-! ### Specification -/

/-- the element before, at the border the element itself -/
def before {n : ℕ} (m : Fin n) : Fin n := ⟨m.val - 1, by have := m.isLt; omega⟩

/-- the element after, at the border the element itself -/
def after {n : ℕ} (m : Fin n) : Fin n := if h : m.val + 1 < n then ⟨m.val + 1, h⟩ else m

/-- second difference with reflecting borders (the sign does not matter) -/
def second {n : ℕ} (x : Fin n → ℝ) (m : Fin n) : ℝ := (x m - x (before m)) + (x m - x (after m))

end Verif.Smoothn
