import Mathlib.Data.List.Basic
import Mathlib.Data.List.Range
import Verif.Common.ListAux

/-! Model of /repo/src/pytesmo/validation_framework/results_manager.py.

A netCDF file is modelled by its variables. A variable along an unlimited dimension is the list of the values written so far, `none` for
positions never written (netCDF fill value, read as masked); positions beyond the list are read as `none`. All numbers have one type
`V`; times are stored as numbers. The integer variables `idx` and `_row_size` are separate fields. Attributes, compression and data
types are not modelled. -/

set_option linter.unusedSectionVars false

namespace Verif.Results

/-- the dimension of a variable. Used for results_manager.py:224-233, 279-286. -/
inductive Dim
  | loc
  | obs
  deriving DecidableEq

/-- the file: `idx`, `_row_size` and the other variables (with `lon`, `lat`, `time`).
Used for results_manager.py:81-140, results_manager.py:235-288. -/
structure File (V : Type) where
  idx : List ℕ
  rowSize : List ℕ
  vars : List (String × Dim × List (Option V))

variable {V : Type}

/-- results_manager.py:81-140: a new file -/
def newFile (V : Type) : File V := ⟨[], [], [("lon", .loc, []), ("lat", .loc, []), ("time", .obs, [])]⟩

/-- netCDF4: `var[s:] = data` along an unlimited dimension. Used for results_manager.py:224-233, 279-286. -/
def writeAt (l : List (Option V)) (s : ℕ) (data : List V) : List (Option V) :=
  (l ++ List.replicate (s - l.length) none).take s ++ data.map some ++ l.drop (s + data.length)

/-- `self[name][s:] = data` for the variable with this name. Used for results_manager.py:224-233, 279-286, results_manager.py:235-288. -/
def setVar (vars : List (String × Dim × List (Option V))) (name : String) (s : ℕ) (data : List V) :
    List (String × Dim × List (Option V)) :=
  vars.map (fun v => if v.1 = name then (v.1, v.2.1, writeAt v.2.2 s data) else v)

/-- results_manager.py:224-233, 279-286: one variable. A new variable is created by `write_var`, which writes from position 0. -/
def putVar (dim : Dim) (s : ℕ) (vars : List (String × Dim × List (Option V))) (e : String × List V) :
    List (String × Dim × List (Option V)) :=
  if e.1 ∈ vars.map Prod.fst then setVar vars e.1 s e.2 else vars ++ [(e.1, dim, writeAt [] 0 e.2)]

/-- a name of a metric: a string or a tuple of strings. Used for results_manager.py:280-281, results_manager.py:235-288. -/
inductive Name
  | plain (s : String)
  | tup (l : List String)
  deriving DecidableEq

/-- results_manager.py:280-281 -/
def varName : Name → String
  | .plain s => s
  | .tup l => "__".intercalate l

/-- the exceptions. Used for results_manager.py:235-288, results_manager.py:290-341. -/
inductive Err
  | valueError
  | assertion
  deriving DecidableEq

/-- results_manager.py:272 -/
def nextIndex (idx : List ℕ) : ℕ :=
  match idx.getLast? with
  | none => 0
  | some i => i + 1

/-- results_manager.py:235-288 `add_metrics_results`; returns the indices of the new locations. For `n ≥ 1` locations. -/
def addMetrics (f : File V) (lons lats : List V) (results : List (Name × List V)) : Except Err (File V × List ℕ) :=
  let n := lons.length
  if lats.length = n ∧ results.all (fun r => r.2.length = n) then
    let idx := nextIndex f.idx
    let new := (List.range n).map (idx + ·)
    let vars := setVar (setVar f.vars "lon" idx lons) "lat" idx lats
    .ok (⟨f.idx.take idx ++ new, f.rowSize.take idx ++ new.map (fun _ => 0),
      results.foldl (fun vs r => putVar .loc idx vs (varName r.1, r.2)) vars⟩, new)
  else .error .valueError

/-- results_manager.py:204-233 `add_ts_results` -/
def addTs (f : File V) (idx : ℕ) (times : List V) (results : List (String × List V)) : File V :=
  let start := (f.rowSize.take idx).sum
  ⟨f.idx, f.rowSize.set idx times.length, results.foldl (putVar .obs start) (setVar f.vars "time" start times)⟩

/-- the arguments of one call of `add_result`. Used for results_manager.py:290-341. -/
structure Rec (V : Type) where
  lon : V
  lat : V
  data : List (Name × List V)
  times : Option (List V)

/-- the metrics and the time series among the data (311-320) -/
def metricsOf (tsVars : List Name) (r : Rec V) : List (Name × List V) := r.data.filter (fun d => !decide (d.1 ∈ tsVars))
/-- the results that are time series. Used for results_manager.py:290-341. -/
def tsOf (tsVars : List Name) (r : Rec V) : List (Name × List V) := r.data.filter (fun d => decide (d.1 ∈ tsVars))

/-- results_manager.py:290-341 `add_result`. Names of time series are strings: a tuple would be an illegal variable name (`varName` is
used for them as well). -/
def addResult (tsVars : List Name) (f : File V) (r : Rec V) : Except Err (File V) :=
  match r.times, tsOf tsVars r with
  | none, _ :: _ => .error .valueError
  | times, ts => do
    let (f', new) ← addMetrics f [r.lon] [r.lat] (metricsOf tsVars r)
    match ts with
    | [] => .ok f'
    | _ :: _ =>
      match new with
      | [i] => .ok (addTs f' i (times.getD []) (ts.map (fun d => (varName d.1, d.2))))
      | _ => .error .assertion

/-- `self[var][:][i]`. Used for results_manager.py:362-378, results_manager.py:343-360. -/
def readAt (l : List (Option V)) (i : ℕ) : Option V := (l[i]?).join

/-- results_manager.py:362-378 `read_loc` for one location: every variable without the dimension obs -/
def readLoc (f : File V) (i : ℕ) : List (String × Option V) :=
  (f.vars.filter (fun v => !decide (v.1 ∈ ["time", "idx", "_row_size"]) && !decide (v.2.1 = .obs))).map
    (fun v => (v.1, readAt v.2.2 i))

/-- results_manager.py:343-360 `read_ts`: the times and every variable with the dimension obs at the rows of a location. -/
def readTs (f : File V) (i : ℕ) : List (Option V) × List (String × List (Option V)) :=
  let start := (f.rowSize.take i).sum
  let rows := (List.range (f.rowSize.getD i 0)).map (start + ·)
  (rows.map (readAt (((f.vars.lookup "time").map Prod.snd).getD [])),
    (f.vars.filter (fun v => !decide (v.1 ∈ ["time", "idx", "_row_size"]) && decide (v.2.1 = .obs))).map
      (fun v => (v.1, rows.map (readAt v.2.2))))

/-! ### File names -/

/-- posixpath.join of two arguments. Used for results_manager.py:16-50. -/
def pathJoin (root name : List Char) : List Char :=
  if name.head? = some '/' then name
  else if root = [] ∨ root.getLast? = some '/' then root ++ name
  else root ++ '/' :: name

/-- `sep.join(l)`. Used for results_manager.py:34-38. -/
def joinWith (sep : List Char) : List (List Char) → List Char
  | [] => []
  | [x] => x
  | x :: y :: l => x ++ sep ++ joinWith sep (y :: l)

/-- an element of a result key: (data set, column), or only a name. Used for results_manager.py:34-38, results_manager.py:16-50. -/
inductive Elem
  | pair (ds column : List Char)
  | name (ds : List Char)

/-- results_manager.py:34-38 -/
def Elem.full : Elem → List Char
  | .pair d c => joinWith ['.'] [d, c]
  | .name d => d

/-- `str(ds[0])` (44): of a tuple the data set, of a string the first character (an empty string raises; here it gives nothing) -/
def Elem.short : Elem → List Char
  | .pair d _ => d
  | .name d => d.take 1

/-- `"_with_".join(names)` with extension. Used for results_manager.py:16-50. -/
def fileName (names : List (List Char)) : List Char := joinWith ['.'] [joinWith "_with_".toList names, "nc".toList]

/-- results_manager.py:16-50 `build_filename` -/
def buildFilename (root : List Char) (key : List Elem) : List Char :=
  if (pathJoin root (fileName (key.map Elem.full))).length > 255 then
    if (pathJoin root (fileName (key.map Elem.short))).length > 255 then pathJoin root "validation.nc".toList
    else pathJoin root (fileName (key.map Elem.short))
  else pathJoin root (fileName (key.map Elem.full))

end Verif.Results
