import Verif.Collocation.Model

/-! Specification of nearest-neighbour matching, independent of the lookup code. Only the data types
`Row`, `Frame`, `OutRow` of the model are used. -/

namespace Verif.Collocation

variable {K V : Type} [Field K] [LinearOrder K]

/-- `m` is the observation that has to be reported for reference time `t`:
an observation in the window with minimal distance; among equally distant ones the
later, among simultaneous ones the first listed; `none` iff nothing lies in the window. -/
def IsNearest (obs : List (Row K V)) (window t : K) : Option (Row K V) → Prop
  | some r => |r.time - t| ≤ window ∧
      obs.find? (fun x => decide (x.time = r.time)) = some r ∧
      ∀ x ∈ obs, |r.time - t| ≤ |x.time - t| ∧ (|x.time - t| = |r.time - t| → x.time ≤ r.time)
  | none => ∀ x ∈ obs, window < |x.time - t|

/-- The cells shown for a matched / unmatched observation of a frame with `width` columns. -/
def shown (width : Nat) : Option (Row K V) → List (Option V)
  | some r => r.cells
  | none => List.replicate width none

/-- `l'` lists the elements of `l` without repetition, in order of first appearance. -/
def IsDistinctOf (l' l : List K) : Prop :=
  l'.Nodup ∧ l'.Sublist l ∧ ∀ x, x ∈ l ↔ x ∈ l'

/-- The index of a frame is non-decreasing or non-increasing once repeated times are ignored. -/
def Monotone (rows : List (Row K V)) : Prop :=
  rows.Pairwise (fun a b => a.time ≤ b.time) ∨ rows.Pairwise (fun a b => b.time ≤ a.time)

/-- The observations whose flag is not set / set. -/
def unflagged (rows : List (Row K V)) (flag : List Bool) : List (Row K V) :=
  ((rows.zip flag).filter (fun x => !x.2)).map Prod.fst
def flaggedRows (rows : List (Row K V)) (flag : List Bool) : List (Row K V) :=
  ((rows.zip flag).filter (fun x => x.2)).map Prod.fst

/-- Cell `j` of a match, NaN for a missing match. -/
def cell (m : Option (Row K V)) (j : Nat) : Option V :=
  match m with
  | none => none
  | some r => (r.cells[j]?).join

end Verif.Collocation
