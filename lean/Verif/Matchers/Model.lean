import Verif.Collocation.Model
import Verif.DfMetrics.Model
import Mathlib.Data.List.Sort

/-! Model of `src/pytesmo/validation_framework/temporal_matchers.py`. Time stamps and windows are numbers of days as in
`Verif.Collocation.Model`, whose simplifications apply. -/

namespace Verif.Matchers

open Verif.Collocation (Row Frame Opts Combined combinedCollocation)
open Verif.DfMetrics (combinations)

/-- a `DataFrame` with named columns. Used for temporal_matchers.py:214-224, temporal_matchers.py:55-70. -/
structure DF (α K : Type) where
  columns : List α
  rows : List (Row K K)
  deriving DecidableEq, Repr

/-- the frame as the collocation functions see it. Used for temporal_matchers.py:55-70, temporal_matchers.py:126-177. -/
def DF.frame {α K : Type} (f : DF α K) : Frame K K := ⟨f.columns.length, f.rows⟩

/-- exceptions. Used for temporal_matchers.py:55-70, temporal_matchers.py:108-121. -/
inductive Err
  /-- `keys.index(refkey)` (104) or `itertools.combinations` with a negative number (108) -/
  | valueError
  /-- `dfs[refname]` (166) -/
  | keyError
  /-- exceptions of the collocation functions -/
  | collocation (e : Collocation.Err)
  deriving DecidableEq, Repr

section
variable {α K : Type} [LinearOrder α] [Field K] [LinearOrder K]

/-- temporal_matchers.py:214-224 `df_name_multiindex(df, name)` -/
def nameMultiindex (df : DF α K) (name : α) : DF (α × α) K := ⟨df.columns.map (fun c => (name, c)), df.rows⟩

/-- `combined_temporal_collocation(ref, others, window, add_ref_data=True, dropna=True, dropduplicates=True,
combined_dropna=...)` for frames with named columns. Used for temporal_matchers.py:55-70, temporal_matchers.py:126-177. -/
def collocate (comb : Combined) (window : K) (ref : DF (α × α) K) (others : List (DF (α × α) K)) :
    Except Err (DF (α × α) K) :=
  match combinedCollocation { dropna := true, dropduplicates := true } comb true ref.frame (others.map DF.frame) window with
  | .error e => .error (.collocation e)
  | .ok rows => .ok ⟨ref.columns ++ others.flatMap DF.columns, rows⟩

/-- temporal_matchers.py:55-70 `BasicTemporalMatching.match` -/
def basicMatch (window : K) (ref : DF (α × α) K) (others : List (DF (α × α) K)) : Except Err (DF (α × α) K) :=
  collocate .all window ref others

/-- `matched[key] = joined`. Used for temporal_matchers.py:108-121. -/
def put (d : List (List α × DF (α × α) K)) (k : List α) (v : DF (α × α) K) : List (List α × DF (α × α) K) :=
  if k ∈ d.map Prod.fst then d.map (fun e => if e.1 = k then (k, v) else e) else d ++ [(k, v)]

/-- temporal_matchers.py:108-121, the loop over the combinations -/
def combLoop (window : K) (refkey : α) (ref : DF (α × α) K) :
    List (List (α × DF α K)) → List (List α × DF (α × α) K) → Except Err (List (List α × DF (α × α) K))
  | [], d => .ok d
  | S :: Ss, d =>
    (basicMatch window ref (S.map (fun e => nameMultiindex e.2 e.1))).bind (fun joined =>
      combLoop window refkey ref Ss
        (if joined.rows.length ≠ 0 then put d (refkey :: (S.map Prod.fst).insertionSort (· ≤ ·)) joined else d))

/-- temporal_matchers.py:72-123 `combinatory_matcher(df_dict, refkey, n)`. The dictionary is a list of entries with different keys;
the combinations are taken of the entries instead of the keys. -/
def combinatoryMatcher (window : K) (dict : List (α × DF α K)) (refkey : α) (n : ℕ) :
    Except Err (List (List α × DF (α × α) K)) :=
  match dict.lookup refkey with
  | none => .error .valueError
  | some ref =>
    if n = 0 then .error .valueError
    else combLoop window refkey (nameMultiindex ref refkey)
      (combinations (n - 1) (dict.filter (fun e => decide (e.1 ≠ refkey)))) []

/-- temporal_matchers.py:126-177 `dfdict_combined_temporal_collocation` as called by 197-211
`make_combined_temporal_matcher(window)` (`dropna=True, combined_dropna="any", dropduplicates=True`); `hour` is one hour. The argument
`k` is not used by the code. -/
def combinedMatcher (hour : K) (window : Option K) (dict : List (α × DF α K)) (refname : α) (n : Option ℕ) :
    Except Err (List (List α × DF (α × α) K)) :=
  if n.any (fun n => decide (dict.length ≠ n)) then .ok []
  else
    match dict.lookup refname with
    | none => .error .keyError
    | some ref =>
      let others := dict.filter (fun e => decide (e.1 ≠ refname))
      (collocate .any (window.getD hour) (nameMultiindex ref refname) (others.map (fun e => nameMultiindex e.2 e.1))).bind
        (fun m => .ok [(refname :: others.map Prod.fst, m)])

end
end Verif.Matchers
