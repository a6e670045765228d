import Mathlib.Data.List.Lex
import Mathlib.Data.List.Sort
import Mathlib.Data.List.Dedup
import Mathlib.Data.Prod.Lex
import Verif.DfMetrics.Model

/-!
Model of `src/pytesmo/validation_framework/data_manager.py` (153-454) and of `read_ds` in
`src/pytesmo/validation_framework/upscaling.py` (43-115).

Data set and column names are elements of a linear order `α`. Readers and grids are parameters.
-/

namespace Verif.DataManager

open DfMetrics (combinations)

/-- exceptions. Used for data_manager.py:390-454, data_manager.py:361-387. -/
inductive Err
  | keyError
  | indexError
  | typeError
  | valueError
  | runtimeError
  | attributeError
  | other
  deriving DecidableEq

/-! ### Result names -/

variable {α : Type} [LinearOrder α]

/-- `(dataset, column)`, with the order of Python tuples. Used for data_manager.py:390-454, data_manager.py:361-387. -/
abbrev Col (α : Type) := α ×ₗ α

/-- the column `c` of data set `d`. Used for data_manager.py:390-454. -/
def col (d c : α) : Col α := toLex (d, c)

/-- `itertools.product(ref_columns, itertools.combinations(other_columns, n - 1))`, each element flattened (`flatten`, 349-358) to
`[ref, column, other, column, ...]` -/
def flatRow (r : Col α) (os : List (Col α)) : List α := (r :: os).flatMap (fun p => [(ofLex p).1, (ofLex p).2])

/-- `l[pos: pos + k] for pos in range(0, len(l), k)` (438-441); the number of chunks bounds the recursion -/
def chunks (k : ℕ) : ℕ → List α → List (List α)
  | 0, _ => []
  | fuel + 1, l => if l = [] then [] else l.take k :: chunks k fuel (l.drop k)

/-- `chunk[::2]`, `chunk[1::2]` zipped (443-451); a single last element has no partner -/
def pairUp : List α → List (Col α)
  | a :: b :: l => col a b :: pairUp l
  | _ => []

/-- `chunk[::2]` -/
def evens : List α → List α
  | a :: _ :: l => a :: evens l
  | [a] => [a]
  | [] => []

/-- data_manager.py:390-454 `get_result_names`. `ds` is the dictionary of columns in insertion order. `n = 0` raises in
`itertools.combinations`. -/
def getResultNames (ds : List (α × List α)) (refkey : α) (n : ℕ) : Except Err (List (List (Col α))) :=
  match ds.lookup refkey with
  | none => .error .keyError
  | some cols =>
    if n = 0 then .error .valueError
    else
      let refColumns := cols.map (col refkey)
      let otherNames := ((ds.map Prod.fst).erase refkey).insertionSort (· ≤ ·)
      let otherColumns := otherNames.flatMap (fun o => ((ds.lookup o).getD []).map (col o))
      let rows := refColumns.flatMap (fun r => (combinations (n - 1) otherColumns).map (flatRow r))
      let flat := rows.flatten
      .ok (((chunks (n * 2) flat.length flat).filter (fun ch => decide ((evens ch).dedup.length = n))).map
        (fun ch => (pairUp ch).insertionSort (· ≤ ·)))

/-- data_manager.py:361-387 `get_result_combinations` -/
def getResultCombinations (ds : List (α × List α)) (n : ℕ) : Except Err (List (List (Col α))) := do
  let all ← (ds.map Prod.fst).mapM (fun k => getResultNames ds k n)
  .ok (all.flatten.dedup.insertionSort (· ≤ ·))

/-! ### Reading -/

/-- what the reader of a data set may do. Used for upscaling.py:43-115. -/
inductive Outcome (T V : Type)
  | ioError
  | runtimeError (msg : Option String)
  | otherError
  | noneValue
  | notFrame (len : ℕ)
  | frame (rows : List (T × V))

/-- upscaling.py:43-115 `read_ds`, given the outcome of the reader. `period` selects by slicing a sorted index, both ends
included. -/
def readDs {T V : Type} [LinearOrder T] (period : Option (T × T)) (o : Outcome T V) : Except Err (Option (List (T × V))) :=
  match o with
  | .ioError => .ok none
  | .runtimeError none => .error .indexError
  | .runtimeError (some m) => if m = "No such file or directory" then .ok none else .error .runtimeError
  | .otherError => .error .other
  | .noneValue => .error .typeError
  | .notFrame _ => .ok none
  | .frame rows =>
    if rows = [] then .ok none
    else
      let rows' := match period with
        | none => rows
        | some (a, b) => rows.filter (fun r => decide (a ≤ r.1) && decide (r.1 ≤ b))
      if rows' = [] then .ok none else .ok (some rows')

/-- How a data set is found in space: `grids_compatible`, the look-up table (if `use_lut`) and the nearest neighbour search of its
grid within `max_dist` (`none`: infinite distance; AttributeError if the reader has no grid).
Used for data_manager.py:315-345, data_manager.py:292-346. -/
structure Source (P : Type) where
  compatible : Bool
  lut : Option (List Int)
  nearest : P → Except Err (ℕ × Option ℚ)

/-- A data manager: sources of the other data sets in order, reader of each data set at a grid point, optional upscaling.
Used for data_manager.py:315-345, data_manager.py:292-346. -/
structure Manager (α P F : Type) where
  ref : α
  others : List (α × Source P)
  read : α → ℕ → Except Err (Option F)
  upscaled : Option (α → ℕ → Except Err (Option F))

variable {P F : Type}

/-- data_manager.py:315-345: one other data set; `none` leaves it out -/
def fetch (M : Manager α P F) (gpi : ℕ) (p : P) (o : α × Source P) : Except Err (Option F) :=
  if o.2.compatible then M.read o.1 gpi
  else match M.upscaled with
    | some up => up o.1 gpi
    | none =>
      match o.2.lut with
      | some l =>
        match l[gpi]? with
        | none => .error .indexError
        | some g => if g = -1 then .ok none else M.read o.1 g.toNat
      | none =>
        match o.2.nearest p with
        | .error e => .error e
        | .ok (_, none) => .ok none
        | .ok (g, some _) => M.read o.1 g

/-- data_manager.py:292-346 `get_other_data` -/
def getOtherData (M : Manager α P F) (gpi : ℕ) (p : P) : List (α × Source P) → Except Err (List (α × F))
  | [] => .ok []
  | o :: os => do
    let f ← fetch M gpi p o
    let rest ← getOtherData M gpi p os
    .ok (match f with
      | none => rest
      | some x => (o.1, x) :: rest)

/-- data_manager.py:253-290 `get_data` -/
def getData (M : Manager α P F) (gpi : ℕ) (p : P) : Except Err (List (α × F)) := do
  let r ← M.read M.ref gpi
  match r with
  | none => .ok []
  | some x =>
    let os ← getOtherData M gpi p M.others
    if os = [] then .ok [] else .ok (os ++ [(M.ref, x)])

end Verif.DataManager
