import Mathlib.Algebra.Order.Floor.Ring
import Mathlib.Algebra.Order.Field.Basic
import Mathlib.Data.Rat.Floor
import Verif.Common.ListAux

/-! Model of /repo/src/pytesmo/validation_framework/adapters.py.

A data frame has column names and rows `(index, values by column name)`; a missing value (NaN, NaT) is `none`. -/

set_option linter.unusedSectionVars false

namespace Verif.Adapters

/-- exceptions. Used for adapters.py:173-193, adapters.py:233-251. -/
inductive Err
  | keyError
  | valueError
  | typeError
  /-- the outcome of the code is not modelled -/
  | notModelled
  deriving DecidableEq

variable {N T K : Type} [DecidableEq N] [LinearOrder K]

/-- a data frame. Used for adapters.py:106-109, adapters.py:173-193. -/
structure DF (N T K : Type) where
  cols : List N
  rows : List (T × (N → Option K))

/-- an operator: one of the strings of `_op_lookup` (adapters.py:40-47), a callable, any other string -/
inductive Op (K : Type)
  | lt | le | eq | ne | ge | gt
  | fn (f : Option K → K → Bool)
  | unknown

/-- adapters.py:40-47, elementwise on a column: comparisons with NaN are false, except `!=` -/
def Op.apply : Op K → Option K → K → Bool
  | .fn f, x, t => f x t
  | .ne, none, _ => true
  | _, none, _ => false
  | .lt, some x, t => decide (x < t)
  | .le, some x, t => decide (x ≤ t)
  | .eq, some x, t => decide (x = t)
  | .ne, some x, t => decide (x ≠ t)
  | .ge, some x, t => decide (x ≥ t)
  | .gt, some x, t => decide (x > t)
  | .unknown, _, _ => false

/-- `callable(op)` or `op in _op_lookup`. Used for adapters.py:173-193, adapters.py:233-251. -/
def Op.valid : Op K → Bool
  | .unknown => false
  | _ => true

/-- adapters.py:106-109 `BasicAdapter._adapt`: `None` becomes an empty frame without columns. (The extraction of the frame from an
object and the conversion of a time zone to UTC, which does not change the instants, are not modelled.) -/
def basicAdapt (d : Option (DF N T K)) : DF N T K := d.getD ⟨[], []⟩

/-- adapters.py:173-193 `MaskingAdapter`: a boolean frame; `column = none`: all columns. The operator is checked at construction. -/
def maskingAdapt (op : Op K) (threshold : K) (column : Option N) (d : Option (DF N T K)) :
    Except Err (List N × List (T × (N → Bool))) :=
  if op.valid then
    let data := basicAdapt d
    match column with
    | none => .ok (data.cols, data.rows.map (fun r => (r.1, fun c => op.apply (r.2 c) threshold)))
    | some c =>
      if c ∈ data.cols then .ok ([c], data.rows.map (fun r => (r.1, fun c => op.apply (r.2 c) threshold)))
      else .error .keyError
  else .error .valueError

/-- `data[mask]` for a boolean series. Used for adapters.py:233-251, adapters.py:305-327. -/
def applyMask {A : Type} (rows : List A) (mask : List Bool) : List A := ((rows.zip mask).filter (fun r => r.2)).map Prod.fst

/-- adapters.py:233-251 `SelfMaskingAdapter` -/
def selfMaskingAdapt (op : Op K) (threshold : K) (column : N) (d : Option (DF N T K)) : Except Err (DF N T K) :=
  if op.valid then
    let data := basicAdapt d
    if column ∈ data.cols then .ok ⟨data.cols, applyMask data.rows (data.rows.map (fun r => op.apply (r.2 column) threshold))⟩
    else .error .keyError
  else .error .valueError

/-- `mask & new_mask`. Used for adapters.py:307-325. -/
def andMask (a b : List Bool) : List Bool := a.zipWith (· && ·) b

/-- adapters.py:307-325: the loop over the filters -/
def maskLoop (ignoreNans : Bool) (data : DF N T K) : List (N × Op K × K) → Option (List Bool) → Except Err (Option (List Bool))
  | [], mask => .ok mask
  | (column, op, threshold) :: fs, mask =>
    if op.valid then
      if column ∈ data.cols then
        let new := data.rows.map (fun r => op.apply (r.2 column) threshold || (ignoreNans && (r.2 column).isNone))
        match mask with
        | none => maskLoop ignoreNans data fs (some new)
        | some m => maskLoop ignoreNans data fs (some (andMask m new))
      else .error .keyError
    else .error .valueError

/-- `dropna(how="all")`. Used for adapters.py:305-327. -/
def dropnaAll (d : DF N T K) : DF N T K := ⟨d.cols, d.rows.filter (fun r => d.cols.any (fun c => (r.2 c).isSome))⟩

/-- adapters.py:305-327 `AdvancedMaskingAdapter._adapt`. Without filters `data[None]` raises KeyError. -/
def advancedMaskingAdapt (filters : List (N × Op K × K)) (ignoreNans : Bool) (d : Option (DF N T K)) : Except Err (DF N T K) :=
  let data := basicAdapt d
  match maskLoop ignoreNans data filters none with
  | .error e => .error e
  | .ok none => .error .keyError
  | .ok (some mask) => .ok (dropnaAll ⟨data.cols, applyMask data.rows mask⟩)

/-- assignment of a column: new names are appended. Used for adapters.py:511-522, adapters.py:369-378. -/
def setColumn (d : DF N T K) (c : N) (values : List (Option K)) : DF N T K :=
  ⟨if c ∈ d.cols then d.cols else d.cols ++ [c],
    (d.rows.zip values).map (fun r => (r.1.1, fun c' => if c' = c then r.2 else r.1.2 c'))⟩

/-- adapters.py:511-522 `ColumnCombineAdapter._adapt`; `func` is applied to the values of the columns in every row -/
def combineAdapt (func : List (Option K) → Option K) (columns : Option (List N)) (newName : N) (d : Option (DF N T K)) :
    Except Err (DF N T K) :=
  let data := basicAdapt d
  if data.rows = [] ∨ data.cols = [] then .ok (setColumn data newName (data.rows.map (fun _ => none)))
  else
    let cs := columns.getD data.cols
    if cs.all (fun c => decide (c ∈ data.cols)) then .ok (setColumn data newName (data.rows.map (fun r => func (cs.map r.2))))
    else .error .keyError

/-- adapters.py:369-378 `AnomalyAdapter._adapt`, 430-446 `AnomalyClimAdapter._adapt` without `return_clim`: every column is replaced by
its anomalies; `anom` maps the series of a column to its anomalies at the same times -/
def anomalyAdapt (anom : List (T × Option K) → List (Option K)) (columns : Option (List N)) (d : Option (DF N T K)) :
    Except Err (DF N T K) :=
  let data := basicAdapt d
  (columns.getD data.cols).foldlM (fun d c =>
    if c ∈ d.cols then .ok (setColumn d c (anom (d.rows.map (fun r => (r.1, r.2 c))))) else .error .keyError) data

/-- A reader that returns the same frame object at every call, behind an adapter that modifies the frame it gets in place
(`AnomalyAdapter`, `AnomalyClimAdapter`, `ColumnCombineAdapter`): result and content of the reader's frame after `n` calls
of the reading methods (adapters.py:111-123). -/
def readInPlace (adapt : DF N T K → Except Err (DF N T K)) : ℕ → DF N T K → Except Err (DF N T K)
  | 0, d => .ok d
  | n + 1, d => do
    let d' ← adapt d
    readInPlace adapt n d'

/-! ### TimestampAdapter -/

/-- a cell: a number or a time in ns. Used for adapters.py:664-667, adapters.py:633-641. -/
inductive Cell (K : Type)
  | num (x : K)
  | time (t : ℤ)
  deriving DecidableEq

/-- a row: index and values. Used for adapters.py:664-667, adapters.py:643-653. -/
structure TRow (N K : Type) where
  index : Option (Cell K)
  fields : N → Option (Cell K)

/-- a row of the result: index, original values, value of the output field. Used for adapters.py:655-709. -/
structure ORow (N K : Type) where
  index : Option (Cell K)
  fields : N → Option (Cell K)
  exact : Option ℤ

/-- the parameters (adapters.py:588-631): units are lengths in ns -/
structure Stamp (N : Type) where
  offsetFields : Option (List N)
  units : List ℤ
  baseField : Option N
  baseReference : Option ℤ
  baseUnit : ℤ
  replaceIndex : Bool
  outputField : Option N
  dropOriginal : Bool

section Stamp
variable [Field K] [FloorRing K]

/-- `int(x)`. Used for adapters.py:633-641. -/
def trunc (x : K) : ℤ := if 0 ≤ x then ⌊x⌋ else ⌈x⌉

/-- adapters.py:664-667: the base time of a row -/
def baseCell (A : Stamp N) (r : TRow N K) : Option (Cell K) :=
  match A.baseField with
  | none => r.index
  | some f => r.fields f

/-- adapters.py:633-641 `convert_generic` and 682-684. Not modelled: numbers without a reference date and times with one (the code
then stores the numbers as index, or takes the nanoseconds of the time as a count of units). -/
def baseTime (A : Stamp N) : Cell K → Except Err ℤ
  | .num x =>
    match A.baseReference with
    | none => .error .notModelled
    | some ref => .ok (ref + trunc x * A.baseUnit)
  | .time t =>
    match A.baseReference with
    | none => .ok t
    | some _ => .error .notModelled

/-- value of one offset in ns (649-651) -/
def offsetValue (unit : ℤ) : Option (Cell K) → Except Err ℤ
  | none => .ok 0
  | some (.num x) => .ok (trunc x * unit)
  | some (.time _) => .error .typeError

/-- adapters.py:643-653 `add_offset_cumulative` for one row: the running total has the unit second, adding in place converts the sum
(in ns) back to whole seconds (rounding down) -/
def offsetSeconds (r : TRow N K) : List (N × ℤ) → ℤ → Except Err ℤ
  | [], total => .ok total
  | (field, unit) :: l, total => do
    let v ← offsetValue unit (r.fields field)
    offsetSeconds r l ((total * 1000000000 + v) / 1000000000)

/-- adapters.py:686-692: exact time of a row whose base time is not missing -/
def exactTime (A : Stamp N) (r : TRow N K) (base : Cell K) : Except Err ℤ := do
  let b ← baseTime A base
  match A.offsetFields with
  | none => .ok b
  | some fields => do
    let o ← offsetSeconds r (fields.zip A.units) 0
    .ok (b + o * 1000000000)

/-- `data.loc[data.index.dropna()]`: for every label in turn all rows with this label. Used for adapters.py:655-709. -/
def locLabels [DecidableEq K] (rows : List (ORow N K)) : List (ORow N K) :=
  (rows.filterMap (fun r => r.index)).flatMap (fun t => rows.filter (fun r => decide (r.index = some t)))

/-- adapters.py:664-667: the column of the base time exists (the index always does) -/
def baseKnown (A : Stamp N) (cols : List N) : Bool :=
  match A.baseField with
  | none => true
  | some f => decide (f ∈ cols)

/-- adapters.py:655-709 `TimestampAdapter._adapt`; the output field is assumed not to be a column already -/
def timestampAdapt [DecidableEq K] (A : Stamp N) (cols : List N) (rows : List (TRow N K)) :
    Except Err (List N × List (ORow N K)) :=
  if baseKnown A cols = false then .error .keyError
  else
    let valid := rows.filterMap (fun r => (baseCell A r).map (fun b => (r, b)))
    if valid = [] ∨ cols = [] then .ok (cols, rows.map (fun r => ⟨r.index, r.fields, none⟩))
    else if ((A.offsetFields.getD []).zip A.units).any (fun f => !decide (f.1 ∈ cols)) then .error .keyError
    else do
      let times ← valid.mapM (fun r => exactTime A r.1 r.2)
      let new := (valid.zip times).map (fun r =>
        (if A.replaceIndex then ⟨some (.time r.2), r.1.1.fields, none⟩ else ⟨r.1.1.index, r.1.1.fields, some r.2⟩ : ORow N K))
      if A.dropOriginal && (A.offsetFields.getD []).any (fun f => !decide (f ∈ cols)) then .error .keyError
      else .ok ((if A.replaceIndex then cols else cols ++ A.outputField.toList).filter (fun c =>
        !(A.dropOriginal && (decide (c ∈ A.offsetFields.getD []) || decide (some c = A.baseField)))), locLabels new)

end Stamp

end Verif.Adapters
