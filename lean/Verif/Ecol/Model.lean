import Mathlib.Analysis.SpecialFunctions.Log.Base
import Mathlib.Analysis.SpecialFunctions.Sqrt
import Mathlib.LinearAlgebra.Matrix.NonsingularInverse
import Mathlib.Data.Fin.Basic

/-!
Model of extended collocation, `src/pytesmo/metrics/tcol.py:check_if_biased` (149-161) and `ecol` (164-391).

Columns are numbered by `Fin n` (their names are distinct), the entries of `correlated` by `Fin k`; `correlated=None` is the
empty list. Arithmetic is over ℝ, the matrix inverse is exact and singular matrices are recognised exactly (`np.matrix.I`
raises `LinAlgError`). The chained assignments 250-251 are assumed to write into `cov` (they do without pandas'
copy-on-write). Result tags are represented by the fields of `Result`.
-/

namespace Verif.Ecol

variable {n : ℕ}

/-- tcol.py:149-161 `check_if_biased(combs, correlated)` -/
def checkIfBiased (combs correlated : List (Fin n × Fin n)) : Bool :=
  correlated.any (fun corr => combs.any (fun comb => decide (comb = corr) || decide (comb = corr.swap)))

/-- `itertools.combinations(l, 2)`. Used for tcol.py:285-304. -/
def combinations2 {α : Type} : List α → List (α × α)
  | [] => []
  | a :: l => l.map (fun b => (a, b)) ++ combinations2 l

/-- `itertools.permutations(l, 2)` for a list without repetitions. Used for tcol.py:310-338. -/
def permutations2 {α : Type} [DecidableEq α] (l : List α) : List (α × α) :=
  l.flatMap (fun a => (l.filter (fun b => b ≠ a)).map (fun b => (a, b)))

/-- Entries of the parameter vector `x` (256-269): signal variances and cross-biased signal variances, then error variances
and error covariances. -/
abbrev Param (n k : ℕ) := (Fin n ⊕ Fin k) ⊕ (Fin n ⊕ Fin k)

/-- One row of the design matrix `A` and the entry of `y`. Used for tcol.py:259, 270, 274-279, tcol.py:285-304. -/
abbrev Eqn (n k : ℕ) := (Param n k → ℝ) × ℝ

/-- `A_line` with a single 1 (297-298, 328-329) -/
def unitRow {k : ℕ} (p : Param n k) : Param n k → ℝ := fun q => if q = p then 1 else 0

/-- tcol.py:259, 270, 274-279: the rows `[I I]` -/
def totalRows (cov : Fin n → Fin n → ℝ) (correlated : List (Fin n × Fin n)) : List (Eqn n correlated.length) :=
  (List.finRange n).map (fun i => (fun q => if q = .inl (.inl i) ∨ q = .inr (.inl i) then 1 else 0, cov i i)) ++
  (List.finRange correlated.length).map
    (fun i => (fun q => if q = .inl (.inr i) ∨ q = .inr (.inr i) then 1 else 0, cov (correlated.get i).1 (correlated.get i).2))

/-- tcol.py:285-304: classical triple collocation estimators -/
noncomputable def signalRows (cov : Fin n → Fin n → ℝ) (correlated : List (Fin n × Fin n)) : List (Eqn n correlated.length) :=
  (List.finRange n).flatMap (fun col =>
    ((combinations2 ((List.finRange n).filter (fun c => c ≠ col))).filter
      (fun comb => !checkIfBiased [(col, comb.1), (col, comb.2), (comb.1, comb.2)] correlated)).map
      (fun comb => (unitRow (.inl (.inl col)), cov col comb.1 * cov col comb.2 / cov comb.1 comb.2)))

/-- tcol.py:310-338: cross-biased estimators -/
noncomputable def crossRows (cov : Fin n → Fin n → ℝ) (correlated : List (Fin n × Fin n)) : List (Eqn n correlated.length) :=
  (List.finRange correlated.length).flatMap (fun i =>
    ((permutations2 ((List.finRange n).filter
        (fun c => c ≠ (correlated.get i).1 ∧ c ≠ (correlated.get i).2))).filter
      (fun comb => !checkIfBiased
        [((correlated.get i).1, comb.1), ((correlated.get i).2, comb.2), comb] correlated)).map
      (fun comb => (unitRow (.inl (.inr i)),
        cov (correlated.get i).1 comb.1 * cov (correlated.get i).2 comb.2 / cov comb.1 comb.2)))

/-- all rows of `A` and `y`. Used for tcol.py:247-391. -/
noncomputable def equations (cov : Fin n → Fin n → ℝ) (correlated : List (Fin n × Fin n)) : List (Eqn n correlated.length) :=
  totalRows cov correlated ++ signalRows cov correlated ++ crossRows cov correlated

/-- the matrix `A`. Used for tcol.py:344. -/
def designMatrix {k : ℕ} (eqs : List (Eqn n k)) : Matrix (Fin eqs.length) (Param n k) ℝ := fun r p => (eqs.get r).1 p
/-- the vector `y` (340) -/
def obsVector {k : ℕ} (eqs : List (Eqn n k)) : Fin eqs.length → ℝ := fun r => (eqs.get r).2

/-- exceptions. Used for tcol.py:344, tcol.py:247-391. -/
inductive Err | singular
  deriving DecidableEq

open Matrix in
open Classical in
/-- tcol.py:344 `(A.T * A).I * A.T * y` -/
noncomputable def solve {k : ℕ} (eqs : List (Eqn n k)) : Except Err (Param n k → ℝ) :=
  let A := designMatrix eqs
  if (Aᵀ * A).det = 0 then .error .singular
  else .ok (((Aᵀ * A)⁻¹ * Aᵀ) *ᵥ obsVector eqs)

/-- The returned dictionary: entries `sig_*`, `err_*`, `snr_*`, `err_cov_*`, `err_corr_*`. Used for tcol.py:349-391, tcol.py:247-391. -/
structure Result (n k : ℕ) where
  sig : Fin n → ℝ
  err : Fin n → ℝ
  snr : Fin n → ℝ
  errCov : Fin k → ℝ
  errCorr : Fin k → ℝ

/-- tcol.py:349-391: the result dictionary from the parameter vector -/
noncomputable def buildResult (correlated : List (Fin n × Fin n)) (absEst : Bool)
    (x : Param n correlated.length → ℝ) : Result n correlated.length :=
  let sig0 := fun i => x (.inl (.inl i))
  let err0 := fun i => x (.inr (.inl i))
  let errCov := fun i => x (.inr (.inr i))
  let errCorr := fun i => errCov i / Real.sqrt (err0 (correlated.get i).1 * err0 (correlated.get i).2)
  let sig := fun i => if absEst then |sig0 i| else sig0 i
  let err := fun i => if absEst then |err0 i| else err0 i
  { sig := sig, err := err, snr := fun i => 10 * Real.logb 10 (sig i / err i), errCov := errCov, errCorr := errCorr }

/-- tcol.py:248-251: subtract a known error covariance from both entries -/
def subtractKnown (cov : Fin n → Fin n → ℝ) : Option (Fin n × Fin n × ℝ) → Fin n → Fin n → ℝ
  | none => cov
  | some (p, q, v) =>
    let c1 : Fin n → Fin n → ℝ := fun i j => if i = p ∧ j = q then cov i j - v else cov i j
    fun i j => if i = q ∧ j = p then c1 i j - v else c1 i j

/-- tcol.py:247-391 from the covariance matrix on -/
noncomputable def ecolFromCov (cov : Fin n → Fin n → ℝ) (correlated : List (Fin n × Fin n))
    (errCov : Option (Fin n × Fin n × ℝ)) (absEst : Bool) : Except Err (Result n correlated.length) :=
  match solve (equations (subtractKnown cov errCov) correlated) with
  | .error e => .error e
  | .ok x => .ok (buildResult correlated absEst x)

/-- A `DataFrame` as list of rows; `none` is NaN. Used for tcol.py:243, tcol.py:246. -/
abbrev Frame (n : ℕ) := List (Fin n → Option ℝ)

/-- tcol.py:243 `data.dropna(inplace=True)` -/
def dropna (data : Frame n) : Frame n := data.filter (fun r => (List.finRange n).all (fun i => (r i).isSome))

/-- values of a complete row. Used for tcol.py:246. -/
def value (r : Fin n → Option ℝ) (i : Fin n) : ℝ := (r i).getD 0

/-- tcol.py:246 `data.cov()` (normalisation by number of rows - 1) of a frame without NaN -/
noncomputable def dataCov (data : Frame n) (i j : Fin n) : ℝ :=
  let m := fun i => (data.map (fun r => value r i)).sum / (data.length : ℝ)
  (data.map (fun r => (value r i - m i) * (value r j - m j))).sum / ((data.length : ℝ) - 1)

/-- tcol.py:164-391 `ecol(data, correlated, err_cov, abs_est)`. First component: the caller's frame after the call. -/
noncomputable def ecol (data : Frame n) (correlated : List (Fin n × Fin n)) (errCov : Option (Fin n × Fin n × ℝ))
    (absEst : Bool) : Frame n × Except Err (Result n correlated.length) :=
  let data' := dropna data
  (data', ecolFromCov (dataCov data') correlated errCov absEst)

end Verif.Ecol
