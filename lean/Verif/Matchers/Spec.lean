import Verif.Collocation.Spec
import Verif.Matchers.Model

/-! What a join of a reference frame with other frames is. Only the data types of the model are used. -/

namespace Verif.Matchers

open Verif.Collocation (Row IsNearest shown)

variable {α K : Type} [Field K] [LinearOrder K]

/-- the cells at reference time `t`: those of the (first) reference row at `t`, and for each other frame those of its nearest row in
the window, NaN if there is none -/
def RowAt (window : K) (ref : DF α K) (others : List (DF α K)) (t : K) (cells : List (Option K)) : Prop :=
  ∃ r0, ref.rows.find? (fun x => decide (x.time = t)) = some r0 ∧
    ∃ parts : List (List (Option K)),
      List.Forall₂ (fun (f : DF α K) c => ∃ m, IsNearest f.rows window t m ∧ c = shown f.columns.length m) others parts ∧
      cells = r0.cells ++ parts.flatten

/-- `rows` has exactly one row for every reference time whose cells satisfy `keep` -/
def IsJoin (keep : List (Option K) → Prop) (window : K) (ref : DF α K) (others : List (DF α K)) (rows : List (Row K K)) : Prop :=
  (rows.map Row.time).Nodup ∧ ∀ t cells, (⟨t, cells⟩ : Row K K) ∈ rows ↔ RowAt window ref others t cells ∧ keep cells

/-- at least one value -/
def SomeValue (cells : List (Option K)) : Prop := ∃ c ∈ cells, c ≠ none
/-- no value missing -/
def AllValues (cells : List (Option K)) : Prop := ∀ c ∈ cells, c ≠ none

/-- every row has as many cells as there are columns -/
def WellFormed (f : DF α K) : Prop := ∀ r ∈ f.rows, r.cells.length = f.columns.length

/-- the names of the columns of a join -/
def joinColumns (ref : α × DF α K) (others : List (α × DF α K)) : List (α × α) :=
  (ref :: others).flatMap (fun e => e.2.columns.map (fun c => (e.1, c)))

end Verif.Matchers
