import Verif.Collocation.Model
import Mathlib.Data.List.Sort
import Mathlib.Data.List.Dedup

/-!
Model of the deprecated functions `df_match` and `matching`, `src/pytesmo/temporal_matching.py:14-181`.

Time stamps and windows are numbers of days in a linearly ordered field. The nearest neighbour search (`KDTree.query`) is a parameter: for a
list of times and a time it returns a position. A frame is given by its rows; cells are `Option V` with `none` for NaN.
`warnings.warn` is not modelled.
-/

namespace Verif.DfMatch

open Verif.Collocation (Row)

/-- exceptions. Used for temporal_matching.py:75-92, temporal_matching.py:103-122. -/
inductive Err
  /-- `reference.index.values[0]` of an empty reference (65), or `values[i]` of an empty frame (82); for the latter the search
  itself may raise another exception -/
  | indexError
  /-- `invalid_dist` is not assigned for an unknown value of `asym_window` (122) -/
  | unboundLocal
  deriving DecidableEq, Repr

/-- the argument `asym_window`. Used for temporal_matching.py:103-121, temporal_matching.py:122. -/
inductive Asym
  | none | le | ge | other
  deriving DecidableEq, Repr

/-- what is known about the match of one reference time: the columns `merge_key`, `distance`, `index` and those of the frame.
Used for temporal_matching.py:130-131. -/
structure Match (K V : Type) where
  key : ℕ
  distance : K
  index : K
  cells : List (Option V)
  deriving DecidableEq, Repr

/-- a row of `arg_matched`: index label, and the columns unless all of them are NaN.
Used for temporal_matching.py:75-92, temporal_matching.py:122. -/
abbrev MRow (K V : Type) := K × Option (Match K V)

section
variable {K V : Type} [Field K] [LinearOrder K]

/-- temporal_matching.py:75-92: the nearest row of each reference time, in the order of the reference -/
def nearestRows (query : List K → K → ℕ) (ref : List K) (rows : List (Row K V)) : Except Err (List (MRow K V)) :=
  ref.mapM (fun t =>
    match rows[query (rows.map Row.time) t]? with
    | none => .error .indexError
    | some r => .ok (t, some ⟨query (rows.map Row.time) t, r.time - t, r.time, r.cells⟩))

/-- temporal_matching.py:103-121 `~invalid_dist`, for a known `asym_window` -/
def validDist (asym : Asym) (window d : K) : Bool :=
  match asym with
  | .none => !decide (window < |d|)
  | .le => (decide (0 ≤ d) && decide (d ≤ window)) || (decide (d ≤ 0) && decide (-window < d))
  | .ge => (decide (0 ≤ d) && decide (d < window)) || (decide (d ≤ 0) && decide (-window ≤ d))
  | .other => false

/-- temporal_matching.py:122 `arg_matched.loc[invalid_dist] = np.nan` -/
def maskRow (asym : Asym) (window : K) (r : MRow K V) : MRow K V :=
  (r.1, r.2.bind (fun m => if validDist asym window m.distance then some m else none))

/-- temporal_matching.py:103-122 -/
def applyWindow (window : Option K) (asym : Asym) (rows : List (MRow K V)) : Except Err (List (MRow K V)) :=
  match window with
  | none => .ok rows
  | some w => if asym = .other then .error .unboundLocal else .ok (rows.map (maskRow asym w))

/-- `idxmin` (130) of the absolute distances of the rows of one group: the label of the first smallest one -/
def idxmin : List (K × Match K V) → Option K
  | [] => none
  | r :: rs =>
    (rs.foldl (fun (b : K × Match K V) x => if |x.2.distance| < |b.2.distance| then x else b) r).1

/-- rows that are not completely NaN (124-125 and 128) -/
def validRows (rows : List (MRow K V)) : List (K × Match K V) := rows.filterMap (fun r => r.2.map (fun m => (r.1, m)))

/-- temporal_matching.py:130-131 for one group: the rows with the label of the smallest distance; `loc` selects all rows with the label -/
def dropDupPart (valid : List (K × Match K V)) (k : ℕ) : List (MRow K V) :=
  match idxmin (valid.filter (fun r => decide (r.2.key = k))) with
  | none => []
  | some t => (valid.filter (fun r => decide (r.1 = t))).map (fun r => (r.1, some r.2))

/-- temporal_matching.py:127-131: one label per matched row of the frame, in the order of `merge_key` -/
def dropDup (rows : List (MRow K V)) : List (MRow K V) :=
  ((((validRows rows).map (fun r => r.2.key)).dedup).insertionSort (· ≤ ·)).flatMap (dropDupPart (validRows rows))

/-- temporal_matching.py:67-134, the loop for one frame. `sort_index` (101) is modelled as a stable sort. -/
def matchOne (query : List K → K → ℕ) (window : Option K) (asym : Asym) (dropna dropdup : Bool) (ref : List K)
    (rows : List (Row K V)) : Except Err (List (MRow K V)) := do
  let matched ← nearestRows query ref rows
  let sorted := matched.insertionSort (fun a b => a.1 ≤ b.1)
  let windowed ← applyWindow window asym sorted
  let dropped := if dropna then windowed.filter (fun r => r.2.isSome) else windowed
  pure (if dropdup then dropDup dropped else dropped)

/-- temporal_matching.py:14-139 `df_match(reference, *args, window, dropna, dropduplicates, asym_window)`; always a list -/
def dfMatch (query : List K → K → ℕ) (window : Option K) (asym : Asym) (dropna dropdup : Bool) (ref : List K)
    (args : List (List (Row K V))) : Except Err (List (List (MRow K V))) :=
  if ref = [] then .error .indexError else args.mapM (matchOne query window asym dropna dropdup ref)

/-- `matched_data.join(match)` (179) for a match with different labels: the cells with the label `t`, NaN if there are none -/
def joinCells (width : ℕ) (m : List (MRow K V)) (t : K) : List (Option V) :=
  match m.find? (fun r => decide (r.1 = t)) with
  | some (_, some x) => x.cells
  | _ => List.replicate width none

/-- temporal_matching.py:142-181 `matching(reference, *args, window)`: `reference` with its data, `args` with their number of
columns. The column names must differ. The join is modelled for references with different labels. -/
def matching (query : List K → K → ℕ) (window : Option K) (asym : Asym) (ref : List (Row K V)) (args : List (ℕ × List (Row K V))) :
    Except Err (List (Row K V)) :=
  (dfMatch query window asym true true (ref.map Row.time) (args.map Prod.snd)).bind (fun ms =>
    .ok ((ref.map (fun r => (⟨r.time, r.cells ++ ((args.map Prod.fst).zip ms).flatMap (fun p => joinCells p.1 p.2 r.time)⟩ : Row K V))).filter
      (fun r => r.cells.all Option.isSome)))

end
end Verif.DfMatch
