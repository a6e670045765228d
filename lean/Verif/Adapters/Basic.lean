import Mathlib.Data.List.Basic
import Mathlib.Data.Int.Notation
import Mathlib.Order.Basic

/-! Model of `BasicAdapter` (/repo/src/pytesmo/validation_framework/adapters.py:50-130), the base class of all adapters: which methods an
adapted reader has, what they call, and what happens to the frame before the adapter proper sees it. Adapters can be stacked: the reader of
an adapter may be an adapter. -/

namespace Verif.Adapters.Basic

/-- exceptions. Used for adapters.py:98-104, adapters.py:106-109. -/
inductive Err
  | attributeError
  | other
  deriving DecidableEq

/-- a string. Used for adapters.py:90-96, adapters.py:106-109. -/
abbrev Name := List Char

/-- The index of a frame: without a time zone, or with one. A time stamp with a time zone is shown as local time and has an offset from UTC;
both in ns. (pandas `DatetimeIndex`; an index that is not a time index has no time zone.) Used for adapters.py:98-104, adapters.py:106-109. -/
inductive Index
  | naive (stamps : List ℤ)
  | aware (stamps : List (ℤ × ℤ))
  deriving DecidableEq

/-- a frame: index and the rest. Used for adapters.py:98-104, adapters.py:106-109. -/
structure Frame (B : Type) where
  index : Index
  body : B
  deriving DecidableEq

/-- an attribute of an object returned by a reader. Used for adapters.py:90-96, adapters.py:98-104. -/
inductive Attr (B : Type)
  | frame (f : Frame B)
  | something

/-- what a reading method returns: `None`, a frame, another object given by its attributes (assumed to have no attribute `index`).
Used for adapters.py:90-96, adapters.py:98-104. -/
inductive Value (B : Type)
  | none
  | frame (f : Frame B)
  | object (attrs : Name → Option (Attr B))

/-- adapters.py:90-96 `__get_dataframe` -/
def getDataframe {B : Type} (prop : Name) (v : Value B) : Value B :=
  match v with
  | .object attrs =>
    match attrs prop with
    | some (.frame f) => .frame f
    | _ => v
  | _ => v

/-- `tz_convert(None)` (pandas): local time in UTC, without time zone. Used for adapters.py:98-104. -/
def toUtc : Index → Index
  | .naive s => .naive s
  | .aware s => .naive (s.map (fun x => x.1 - x.2))

/-- adapters.py:98-104 `__drop_tz_info`: the new index is assigned to the frame -/
def dropTz {B : Type} (v : Value B) : Except Err (Frame B) :=
  match v with
  | .frame f =>
    match f.index with
    | .naive _ => .ok f
    | .aware _ => .ok ⟨toUtc f.index, f.body⟩
  | _ => .error .attributeError

/-- adapters.py:106-109 `_adapt`: `None` stands for a frame without columns and rows (`empty`) -/
def basicAdapt {B : Type} (empty : B) (prop : Name) (v : Value B) : Except Err (Frame B) :=
  match v with
  | .none => .ok ⟨.naive [], empty⟩
  | _ => dropTz (getDataframe prop v)

/-- One adapter of a stack: the arguments of the constructor (adapters.py:61-88) and what the subclass does with the frame of the base
class. A `read_name` that is the name of another attribute of the adapter (`cls`, `grid`, `_adapt`, …) is not modelled. -/
structure Layer (B : Type) where
  prop : Name
  readName : Option Name
  process : Frame B → Except Err (Frame B)

/-- A reader: its methods as functions of the arguments, and its grid. Used for adapters.py:111-123, adapters.py:125-130. -/
structure Reader (A G B : Type) where
  methods : Name → Option (A → Except Err (Value B))
  grid : Option G

/-- `_adapt` of a subclass: the base class, then its own processing. Used for adapters.py:111-123. -/
def layerAdapt {B : Type} (empty : B) (L : Layer B) (v : Value B) : Except Err (Value B) :=
  match basicAdapt empty L.prop v with
  | .error e => .error e
  | .ok f =>
    match L.process f with
    | .error e => .error e
    | .ok g => .ok (.frame g)

/-- adapters.py:87-88 and 111-123: the method `m` of an adapter. `setattr` makes the custom method shadow `read` and `read_ts`; an empty
`read_name` counts as none. -/
def hasMethod {B : Type} (L : Layer B) (m : Name) : Bool :=
  (match L.readName with
    | none => false
    | some r => decide (r ≠ []) && decide (r = m)) || decide (m = "read".toList) || decide (m = "read_ts".toList)

/-- adapters.py:111-123 `_adapt_custom`, `read_ts`, `read`: calling method `m` of a stack of adapters, the outermost first -/
def call {A G B : Type} (empty : B) (R : Reader A G B) : List (Layer B) → Name → A → Except Err (Value B)
  | [], m, args =>
    match R.methods m with
    | none => .error .attributeError
    | some f => f args
  | L :: Ls, m, args =>
    if hasMethod L m then
      match call empty R Ls m args with
      | .error e => .error e
      | .ok v => layerAdapt empty L v
    else .error .attributeError

/-- adapters.py:125-130 `grid` -/
def grid {A G B : Type} (R : Reader A G B) : List (Layer B) → Option G
  | [] => R.grid
  | _ :: Ls => grid R Ls

/-- A reader that keeps a frame and hands out that frame at every call: one call through `BasicAdapter` returns the frame and leaves the
kept frame with the new index (the same object, adapters.py:103). -/
def readCached {B : Type} (empty : B) (prop : Name) (kept : Frame B) : Except Err (Frame B × Frame B) :=
  match basicAdapt empty prop (.frame kept) with
  | .error e => .error e
  | .ok f => .ok (f, f)

/-! ### Specification -/

/-- the instants in time of an index (an index without time zone is taken to be UTC) -/
def instants : Index → List ℤ
  | .naive s => s
  | .aware s => s.map (fun x => x.1 - x.2)

/-- the time stamps as shown to the user -/
def shown : Index → List ℤ
  | .naive s => s
  | .aware s => s.map Prod.fst

/-- no time zone -/
def isNaive : Index → Prop
  | .naive _ => True
  | .aware _ => False

/-- the frame in what a reader returned: the value itself or the attribute with the agreed name -/
inductive Holds {B : Type} (prop : Name) : Value B → Frame B → Prop
  | direct (f : Frame B) : Holds prop (.frame f) f
  | attr (attrs : Name → Option (Attr B)) (f : Frame B) (h : attrs prop = some (.frame f)) : Holds prop (.object attrs) f

end Verif.Adapters.Basic
