import Mathlib.Algebra.Order.Field.Basic
import Mathlib.Data.List.Dedup
import Mathlib.Data.List.Sort

/-! Model of the helper functions of `src/pytesmo/utils.py`. -/

namespace Verif.Utils

/-- exceptions. Used for utils.py:113-124, utils.py:88-126. -/
inductive Err
  | indexError
  | keyError
  | typeError
  deriving DecidableEq, Repr

section interp
variable {K : Type} [Field K] [LinearOrder K]

/-- utils.py:114 `np.where(src == v)[0]` -/
def positions (src : List K) (v : K) : List ℕ :=
  (List.range src.length).filter (fun i => decide (src[i]? = some v))

/-- utils.py:105-106 and 124, `np.unique(src, return_index=True)[1]`: for the different values in ascending order the position of
the first occurrence. NaN is not modelled. -/
def uniqInd (src : List K) : List ℕ :=
  (src.dedup.insertionSort (· ≤ ·)).map (fun v => src.idxOf v)

/-- `src[i - 1]`, where position -1 is the last one. Used for utils.py:115-123. -/
def before (src : List K) (i : ℕ) : K := src.getD (if i = 0 then src.length - 1 else i - 1) 0

/-- utils.py:115-123, the replacement for the positions `pos` of one value. `store` is the conversion of a floating point number to
the type of the array (the identity for floating point arrays). -/
def update (store : K → K) (src : List K) (pos : List ℕ) : List K :=
  if 1 < pos.length then
    if pos.getD 0 0 = 0 ∧ pos.getD (pos.length - 1) 0 < src.length - 1 then
      src.set (pos.getD (pos.length - 1) 0)
        (store ((src.getD (pos.getD (pos.length - 2) 0) 0 + src.getD (pos.getD (pos.length - 1) 0 + 1) 0) / 2))
    else if pos.getD (pos.length - 1) 0 = src.length - 1 then
      src.set (pos.getD 0 0) (store ((src.getD (pos.getD 1 0) 0 + before src (pos.getD 0 0)) / 2))
    else
      let src' := src.set (pos.getD 0 0) (store ((src.getD (pos.getD 1 0) 0 + before src (pos.getD 0 0)) / 2))
      src'.set (pos.getD 1 0) (store ((src'.getD (pos.getD 0 0) 0 + src'.getD (pos.getD 1 0 + 1) 0) / 2))
  else src

/-- utils.py:113-124, one round of the `for` loop. `uniq_ind` is always the one of the current array. -/
def forStep (store : K → K) (src : List K) (i : ℕ) : Except Err (List K) :=
  match (uniqInd src)[i]? with
  | none => .error .indexError
  | some k => .ok (update store src (positions src (src.getD k 0)))

/-- utils.py:113-124, the `for` loop, whose range is fixed when it starts -/
def forLoop (store : K → K) (src : List K) : Except Err (List K) :=
  (List.range (uniqInd src).length).foldlM (forStep store) src

/-- utils.py:88-126 `interp_uniq(src)`, with at most `fuel` rounds of the `while` loop: `none` if it has not ended by then -/
def interpUniq (store : K → K) : ℕ → List K → Except Err (Option (List K))
  | fuel, src =>
    if (uniqInd src).length = src.length then .ok (some src)
    else match fuel with
      | 0 => .ok none
      | fuel + 1 => (forLoop store src).bind (interpUniq store fuel)

end interp

/-- what `el[0]` does for a python object. Used for utils.py:129-150, utils.py:153-173. -/
inductive Obj (α : Type)
  /-- a string -/
  | str (s : List Char)
  /-- an object without `__getitem__`, as a number or None -/
  | scalar (a : α)
  /-- a list, tuple or array -/
  | seq (l : List α)
  /-- a dictionary, of which only whether it has a key 0 matters -/
  | dict (hasZero : Bool) (a : α)

/-- a result of `ensure_iterable`. Used for utils.py:153-173. -/
inductive Iter (α : Type)
  /-- the list `[el]` -/
  | single (el : Obj α)
  /-- the object itself -/
  | same (el : Obj α)

/-- utils.py:129-150 `element_iterable(el)`; the KeyError of a dictionary is not handled -/
def elementIterable {α : Type} : Obj α → Except Err Bool
  | .str [] => .ok false
  | .str (_ :: _) => .ok true
  | .scalar _ => .ok false
  | .seq [] => .ok false
  | .seq (_ :: _) => .ok true
  | .dict true _ => .ok true
  | .dict false _ => .error .keyError

/-- utils.py:153-173 `ensure_iterable(el)` -/
def ensureIterable {α : Type} (el : Obj α) : Except Err (Iter α) :=
  match el with
  | .str _ => .ok (.single el)
  | _ => (elementIterable el).bind (fun b => if b then .ok (.same el) else .ok (.single el))

end Verif.Utils
