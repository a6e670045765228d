import Verif.DfMetrics.Model

/-! Specification: what applying a metric to combinations of columns means. -/

namespace Verif.DfMetrics

variable {V R : Type}

/-- the rows in which all columns of the combination are finite -/
def completeRows (fin : V → Bool) (mat : ℕ → ℕ → V) (N : ℕ) (comb : List ℕ) : List ℕ :=
  (List.range N).filter (fun r => comb.all (fun i => fin (mat i r)))

/-- the columns of the combination restricted to their complete rows -/
def restricted (fin : V → Bool) (mat : ℕ → ℕ → V) (N : ℕ) (comb : List ℕ) : List (List V) :=
  comb.map (fun i => (completeRows fin mat N comb).map (mat i))

/-- value of one combination: the metric of the restricted columns, NaN (`none`) if there is no complete row -/
def evaluate (fin : V → Bool) (method : List (List V) → Except Err (List R)) (mat : ℕ → ℕ → V) (N : ℕ)
    (comb : List ℕ) : Except Err (List ℕ × Option (List R)) :=
  if completeRows fin mat N comb = [] then .ok (comb, none)
  else match method (restricted fin mat N comb) with
    | .error e => .error e
    | .ok c => .ok (comb, some c)

/-- evaluate one combination after the other, stopping at the first exception -/
def evaluateAll (fin : V → Bool) (method : List (List V) → Except Err (List R)) (mat : ℕ → ℕ → V) (N : ℕ) :
    List (List ℕ) → Except Err (List (List ℕ × Option (List R)))
  | [] => .ok []
  | comb :: combs =>
    match evaluate fin method mat N comb with
    | .error e => .error e
    | .ok x =>
      match evaluateAll fin method mat N combs with
      | .error e => .error e
      | .ok xs => .ok (x :: xs)

/-- the pairwise value at `(a, b)` -/
def pairValue (fin : V → Bool) (method : List V → List V → R) (mat : ℕ → ℕ → V) (N : ℕ) (a b : ℕ) : Option R :=
  if a = b ∨ completeRows fin mat N [a, b] = [] then none
  else some (method ((completeRows fin mat N [a, b]).map (mat a)) ((completeRows fin mat N [a, b]).map (mat b)))

/-- the collocated observations of the columns `a`, `b`, `c` (rows that are complete in all three) -/
noncomputable def triple (mat : ℕ → ℕ → Option ℝ) (N : ℕ) (a b c : ℕ) : List Verif.Tcol.Row :=
  (completeRows Option.isSome mat N [a, b, c]).map
    (fun r => ![(mat a r).getD 0, (mat b r).getD 0, (mat c r).getD 0])

/-- Triples of columns, in increasing order, of `K` columns -/
def IsTriple (K : ℕ) (c : List ℕ) : Prop := c.length = 3 ∧ c.Pairwise (· < ·) ∧ ∀ x ∈ c, x < K

end Verif.DfMetrics
