import Verif.Resample.Model

/-!
Model of `temporal_collocation` and `combined_temporal_collocation`,
`src/pytesmo/temporal_matching.py:184-509`.

Simplifications (all of them):
* time stamps are elements of a linearly ordered field `K` (think: days), so the
  conversions between `Timedelta`, `DatetimeIndex` and Julian dates are exact;
* all indices carry the same time zone (lines 285-305 and 479-502 are the identity then; `Verif.Collocation.Tz` has the other cases);
* columns are positional, cells are `Option V` with `none` for NaN;
* warnings are not modelled (`checkna` only emits a warning).
-/

namespace Verif.Collocation

open Verif.Resample (resampleMean)

/-- One row of a `DataFrame` with a `DatetimeIndex`. Used for temporal_matching.py:308, temporal_matching.py:327-328. -/
structure Row (K V : Type) where
  time : K
  cells : List (Option V)
  deriving DecidableEq, Repr

/-- A `DataFrame`: number of columns and rows in order. Used for temporal_matching.py:184-380, temporal_matching.py:504. -/
structure Frame (K V : Type) where
  width : Nat
  rows : List (Row K V)
  deriving DecidableEq, Repr

/-- Exceptions that leave the modelled functions. Used for temporal_matching.py:327-328, temporal_matching.py:273-281. -/
inductive Err
  /-- line 277 -/
  | flagLength
  /-- boolean mask of wrong length, `other[~flagged]` (331, 333) or `values[mask]` (359) -/
  | maskLength
  /-- pandas: "index must be monotonic increasing or decreasing" (328) -/
  | notMonotonic
  /-- numpy/numba: operands of different length in `resample_mean` (360) -/
  | shape
  /-- numba: read of `times[-1]` of an empty series (556) -/
  | outOfBounds
  /-- pandas: "Reindexing only valid with uniquely valued Index objects" (504) -/
  | duplicateIndex
  /-- pandas: "No objects to concatenate" (504) -/
  | noObjects
  deriving DecidableEq, Repr

section
variable {K V : Type} [Field K] [LinearOrder K]

/-- `other[~other.index.duplicated(keep="first")]` (temporal_matching.py:308). -/
def dedupe : List (Row K V) → List (Row K V)
  | [] => []
  | r :: rs => r :: (dedupe rs).filter (fun x => x.time ≠ r.time)

/-- `ref_dr[~ref_dr.duplicated(keep="first")]` (temporal_matching.py:313). -/
def dedupeTimes : List K → List K
  | [] => []
  | t :: ts => t :: (dedupeTimes ts).filter (fun x => x ≠ t)

/-- pandas "pad" neighbour: the row with the largest time `≤ t`. Used for temporal_matching.py:327-328. -/
def padRow (rows : List (Row K V)) (t : K) : Option (Row K V) :=
  rows.foldl (fun best x =>
    if x.time ≤ t then
      match best with
      | none => some x
      | some b => if b.time < x.time then some x else some b
    else best) none

/-- pandas "backfill" neighbour: the row with the smallest time `≥ t`. Used for temporal_matching.py:327-328. -/
def backfillRow (rows : List (Row K V)) (t : K) : Option (Row K V) :=
  rows.foldl (fun best x =>
    if t ≤ x.time then
      match best with
      | none => some x
      | some b => if x.time < b.time then some x else some b
    else best) none

/-- pandas `get_indexer(..., method="nearest", tolerance=tol)` for one target:
the closer one of the pad and backfill neighbours, the later one on ties, and
nothing if it is farther than `tol`. Used for temporal_matching.py:327-328. -/
def nearestRow (rows : List (Row K V)) (tol t : K) : Option (Row K V) :=
  let cand :=
    match padRow rows t, backfillRow rows t with
    | none, b => b
    | some a, none => some a
    | some a, some b => if |a.time - t| < |b.time - t| then some a else some b
  match cand with
  | none => none
  | some r => if |r.time - t| ≤ tol then some r else none

/-- pandas monotonicity test of the (duplicate free) index. Used for temporal_matching.py:327-328. -/
def isMonotonic (ts : List K) : Bool :=
  decide (ts.Pairwise (· ≤ ·)) || decide (ts.Pairwise (· ≥ ·))

/-- `df.reindex(ref_dr, method="nearest", tolerance=window)` (temporal_matching.py:327-328).
pandas returns the frame itself if the indices are equal and raises for a
non-monotonic index if there is something to look up. -/
def reindexNearest (rows : List (Row K V)) (tol : K) (ref : List K) :
    Except Err (List (K × Option (Row K V))) :=
  if rows.map Row.time = ref then .ok (rows.map (fun r => (r.time, some r)))
  else if ref.isEmpty then .ok []
  else if isMonotonic (rows.map Row.time) then .ok (ref.map (fun t => (t, nearestRow rows tol t)))
  else .error .notMonotonic

/-- A row of the collocated frame. `index` and `distance` are the optional columns
`index_other` and `distance_other`. Used for temporal_matching.py:334, temporal_matching.py:317-340. -/
structure OutRow (K V : Type) where
  time : K
  cells : List (Option V)
  index : Option K
  distance : Option K
  deriving DecidableEq, Repr

/-- A looked-up row as row of the result: NaN cells if nothing was found. Used for temporal_matching.py:317-340. -/
def ofLookup (width : Nat) (x : K × Option (Row K V)) : OutRow K V :=
  match x.2 with
  | none => ⟨x.1, List.replicate width none, none, none⟩
  | some r => ⟨x.1, r.cells, some r.time, none⟩

/-- `collocated.combine_first(invalid)` (temporal_matching.py:334): cell by cell,
the first non-NaN. Both frames have the same index. -/
def combineFirst (a b : OutRow K V) : OutRow K V :=
  { time := a.time
    cells := List.zipWith (fun x y => x.orElse (fun _ => y)) a.cells b.cells
    index := a.index.orElse (fun _ => b.index)
    distance := none }

/-- Keyword arguments of `temporal_collocation` (temporal_matching.py:188-195). -/
structure Opts where
  mean : Bool := false
  returnIndex : Bool := false
  returnDistance : Bool := false
  dropduplicates : Bool := false
  dropna : Bool := false
  flag : Option (List Bool) := none
  useInvalid : Bool := false

/-- `other[mask]` with a boolean array. Used for temporal_matching.py:317-340. -/
def select (mask : List Bool) (rows : List (Row K V)) : Except Err (List (Row K V)) :=
  if mask.length = rows.length then .ok ((rows.zip mask).filterMap (fun x => if x.2 then some x.1 else none))
  else .error .maskLength

/-- temporal_matching.py:273-281: flag validation; `[]` stands for `has_invalid = False`. -/
def checkFlag (flag : Option (List Bool)) (nref : Nat) : Except Err (Option (List Bool)) :=
  match flag with
  | none => .ok none
  | some f => if f.length ≠ nref then .error .flagLength
      else if f.any id then .ok (some f) else .ok none

/-- temporal_matching.py:317-340, `method="nearest"`, after duplicates were dropped. -/
def nearestBranch (o : Opts) (window : K) (width : Nat) (rows : List (Row K V)) (ref : List K)
    (flagged : Option (List Bool)) : Except Err (List (OutRow K V)) := do
  let col ← match flagged with
    | none => do
        let c ← reindexNearest rows window ref
        pure (c.map (ofLookup width))
    | some f => do
        let valid ← select (f.map (!·)) rows
        let c ← reindexNearest valid window ref
        let c := c.map (ofLookup width)
        if o.useInvalid then
          let bad ← select f rows
          let d ← reindexNearest bad window ref
          pure (List.zipWith combineFirst c (d.map (ofLookup width)))
        else pure c
  let withIndex := o.returnIndex || o.returnDistance
  pure (col.map (fun r =>
    { r with
      index := if withIndex then r.index else none
      distance := if o.returnDistance then r.index.map (· - r.time) else none }))

/-- temporal_matching.py:377-378 `dropna(how="all")`: all columns of the row are NaN. -/
def allNaN (r : OutRow K V) : Bool :=
  r.cells.all Option.isNone && r.index.isNone && r.distance.isNone

/-- Transpose the per-column results of the mean method into rows
(`pd.DataFrame(data.T, index=ref_dr)`, temporal_matching.py:363). -/
def rowsOfColumns (ref : List K) (cols : List (List (Option V))) : List (OutRow K V) :=
  ref.zipIdx.map (fun x => ⟨x.1, cols.map (fun c => (c[x.2]?).join), none, none⟩)

end

section
variable {K : Type} [Field K] [LinearOrder K]

/-- Lift the errors of `resample_mean`. Used for temporal_matching.py:342-366. -/
def liftErr : Except Resample.Err (List (Option K)) → Except Err (List (Option K))
  | .ok x => .ok x
  | .error .shape => .error .shape
  | .error .outOfBounds => .error .outOfBounds

/-- temporal_matching.py:342-366, `method="mean"`. `other_times` is *not* masked (345),
only the data are (359). -/
def meanBranch (o : Opts) (window : K) (width : Nat) (rows : List (Row K K)) (ref : List K)
    (flagged : Option (List Bool)) : Except Err (List (OutRow K K)) := do
  let mask := match flagged with
    | none => rows.map (fun _ => true)
    | some f => if o.useInvalid then rows.map (fun _ => true) else f.map (!·)
  let cols ← (List.range width).mapM (fun i =>
    if mask.length ≠ rows.length then (.error .maskLength : Except Err (List (Option K)))
    else
      let vals := (rows.zip mask).filterMap (fun x => if x.2 then some ((x.1.cells[i]?).join) else none)
      liftErr (resampleMean (rows.map Row.time) vals ref (2 * window)))
  pure (rowsOfColumns ref cols)

/-- temporal_matching.py:184-380 `temporal_collocation(reference, other, window, ...)`;
`ref` is the index of the reference. -/
def temporalCollocation (o : Opts) (ref : List K) (other : Frame K K) (window : K) :
    Except Err (List (OutRow K K)) := do
  let flagged ← checkFlag o.flag ref.length
  let drop := o.dropduplicates || !o.mean
  let rows := if drop then dedupe other.rows else other.rows
  let ref' := if drop then dedupeTimes ref else ref
  let col ← if o.mean then meanBranch o window other.width rows ref' flagged
    else nearestBranch o window other.width rows ref' flagged
  pure (if o.dropna then col.filter (fun r => !allNaN r) else col)

/-- `combined_dropna` (temporal_matching.py:429-435). -/
inductive Combined | no | any | all
  deriving DecidableEq, Repr

/-- pandas label lookup in a frame with unique index: the cells at time `t`, NaN if absent. Used for temporal_matching.py:504. -/
def cellsAt (width : Nat) (rows : List (Row K K)) (t : K) : List (Option K) :=
  match rows.find? (fun r => r.time = t) with
  | some r => r.cells
  | none => List.replicate width none

/-- The cells of row number `i` (used when all indices agree). Used for temporal_matching.py:504. -/
def cellsNth (width : Nat) (rows : List (Row K K)) (i : Nat) : List (Option K) :=
  match rows[i]? with
  | some r => r.cells
  | none => List.replicate width none

/-- Index of `pd.concat(frames, axis=1)`: union of the indices. The order of the union is
modelled as order of first appearance (pandas may sort it if the indices differ; no claim is
made about the order in that case). Used for temporal_matching.py:504. -/
def unionTimes (frames : List (Frame K K)) : List K :=
  dedupeTimes (frames.flatMap (fun f => f.rows.map Row.time))

/-- `pd.concat(frames, axis=1)` (temporal_matching.py:504). -/
def concatColumns (frames : List (Frame K K)) : Except Err (List (Row K K)) :=
  let idx := frames.map (fun f => f.rows.map Row.time)
  match idx with
  | [] => .error .noObjects
  | i :: is =>
    if is.all (fun j => decide (j = i)) then
      .ok (i.zipIdx.map (fun x => ⟨x.1, frames.flatMap (fun f => cellsNth f.width f.rows x.2)⟩))
    else if idx.all (fun j => decide j.Nodup) then
      .ok ((unionTimes frames).map (fun t => ⟨t, frames.flatMap (fun f => cellsAt f.width f.rows t)⟩))
    else .error .duplicateIndex

/-- temporal_matching.py:505-508. -/
def combinedDropna (c : Combined) (rows : List (Row K K)) : List (Row K K) :=
  match c with
  | .no => rows
  | .any => rows.filter (fun r => r.cells.all Option.isSome)
  | .all => rows.filter (fun r => r.cells.any Option.isSome)

/-- temporal_matching.py:458-470: one entry of the list comprehension. -/
def collocateOne (o : Opts) (ref : List K) (window : K) (f : Frame K K) : Except Err (Frame K K) :=
  match temporalCollocation { o with returnIndex := false, returnDistance := false } ref f window with
  | .error e => .error e
  | .ok c => .ok ⟨f.width, c.map (fun r => ⟨r.time, r.cells⟩)⟩

/-- temporal_matching.py:383-509 `combined_temporal_collocation`. `reference` is a frame; the
data are added only with `add_ref_data`. -/
def combinedCollocation (o : Opts) (comb : Combined) (addRef : Bool) (reference : Frame K K)
    (others : List (Frame K K)) (window : K) : Except Err (List (Row K K)) := do
  let ref := reference.rows.map Row.time
  let dfs ← others.mapM (collocateOne o ref window)
  let dfs := if addRef then
      Frame.mk reference.width (if o.dropduplicates then dedupe reference.rows else reference.rows) :: dfs
    else dfs
  let merged ← concatColumns dfs
  pure (combinedDropna comb merged)

end

end Verif.Collocation
