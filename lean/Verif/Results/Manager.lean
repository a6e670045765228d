import Verif.Results.Names

/-!
C77, C78: `netcdf_results_manager` (`src/pytesmo/validation_framework/results_manager.py:381-447`) for a sequence of jobs.

A directory is a list of files by name. The `with` block closes (and so keeps) a file also if an exception leaves it.
-/

set_option linter.unusedSectionVars false
set_option synthInstance.maxSize 1000

namespace Verif.Results

variable {V : Type}

/-- exceptions of `netcdf_results_manager`. Used for results_manager.py:381-447, start_validation.py:53-57. -/
inductive MErr
  | keyError
  | valueError
  | attributeError
  | indexError
  | unboundLocal
  | assertion
  | typeError
  deriving DecidableEq

/-- an entry of a result dictionary: one number per location, or one array per location.
Used for results_manager.py:381-447, start_validation.py:53-57. -/
inductive Column (V : Type)
  | scalars (l : List V)
  | series (l : List (List V))
  deriving DecidableEq

/-- the results of one key: names and values. Used for results_manager.py:381-447, start_validation.py:53-57. -/
abbrev Res (V : Type) := List (Name × Column V)

/-- `res.pop(k)`. Used for results_manager.py:381-447. -/
def pop (res : Res V) (k : String) : Option (Column V × Res V) :=
  (res.lookup (.plain k)).map (fun c => (c, res.filter (fun e => !decide (e.1 = .plain k))))

/-- all entries as arrays of numbers; arrays of arrays cannot be written along the locations (netCDF4 raises TypeError).
Used for results_manager.py:381-447. -/
def asScalars : Res V → Option (List (Name × List V))
  | [] => some []
  | (n, .scalars l) :: r => (asScalars r).map ((n, l) :: ·)
  | (_, .series _) :: _ => none

/-- `v[i]`, as array (432-438); a single number becomes an array of length one. (For a name in `ts_vars` the code does not wrap a single
number; netCDF4 broadcasts it. Not distinguished here.) -/
def Column.item : Column V → ℕ → Option (List V)
  | .scalars l, i => (l[i]?).map (fun x => [x])
  | .series l, i => l[i]?

/-- lines 429-438 for the location `i`: the data and the time stamps, which keep their value from the location or result before if there
is no entry "time". A tuple as name has no method `lower`. -/
def itemsOf (res : Res V) (i : ℕ) : Res V → Option (List V) → Except MErr (List (Name × List V) × Option (List V))
  | [], time => .ok ([], time)
  | (.tup _, _) :: _, _ => .error .attributeError
  | (.plain k, v) :: r, time =>
    if k.toLower = "time" then
      match res.lookup (.plain "time") with
      | none => .error .keyError
      | some t =>
        match t.item i with
        | none => .error .indexError
        | some t => itemsOf res i r (some t)
    else
      match v.item i with
      | none => .error .indexError
      | some x => do
        let (d, time') ← itemsOf res i r time
        .ok ((.plain k, x) :: d, time')

/-- an exception of `add_result`. Used for results_manager.py:381-447. -/
def Err.toM : Err → MErr
  | .valueError => .valueError
  | .assertion => .assertion

/-- lines 426-446: the locations one by one; state: file, time stamps -/
def tsLoop (ts : List Name) (res : Res V) : List (ℕ × V × V) → File V → Option (List V) → (File V × Option (List V)) × Option MErr
  | [], f, time => ((f, time), none)
  | (i, lon, lat) :: l, f, time =>
    match itemsOf res i res time with
    | .error e => ((f, time), some e)
    | .ok (_, none) => ((f, none), some .unboundLocal)
    | .ok (d, some t) =>
      match addResult ts f ⟨lon, lat, d, some t⟩ with
      | .error e => ((f, some t), some e.toM)
      | .ok f' => tsLoop ts res l f' (some t)

/-- what is left after one result: file, dictionary, local variable `time`. Used for results_manager.py:381-447. -/
abbrev St (V : Type) := File V × Res V × Option (List V)

/-- lines 423-447: one result -/
def writeResult (tsVars : Option (List Name)) (f : File V) (res : Res V) (time : Option (List V)) : St V × Option MErr :=
  match pop res "lon" with
  | none => ((f, res, time), some .keyError)
  | some (lons, res1) =>
    match pop res1 "lat" with
    | none => ((f, res1, time), some .keyError)
    | some (lats, res2) =>
      match lons, lats with
      | .scalars lons, .scalars lats =>
        match tsVars with
        | some ts =>
          let r := tsLoop ts res2 ((lons.zip lats).zipIdx.map (fun p => (p.2, p.1))) f time
          ((r.1.1, res2, r.1.2), r.2)
        | none =>
          match asScalars res2 with
          | none => ((f, res2, time), some .typeError)
          | some d =>
            match addMetrics f lons lats d with
            | .error e => ((f, res2, time), some e.toM)
            | .ok (f', _) => ((f', res2, time), none)
      | _, _ => ((f, res2, time), some .typeError)

/-- a directory. Used for results_manager.py:381-447, start_validation.py:53-57. -/
abbrev Disk (V : Type) := List (List Char × File V)

/-- `PointDataResults(fname)`: the file if it exists, else a new one. Used for results_manager.py:381-447. -/
def openFile (d : Disk V) (x : List Char) : File V := (d.lookup x).getD (newFile V)

/-- the file closed. Used for results_manager.py:381-447. -/
def saveFile (d : Disk V) (x : List Char) (f : File V) : Disk V :=
  if x ∈ d.map Prod.fst then d.map (fun e => if e.1 = x then (x, f) else e) else d ++ [(x, f)]

variable {κ : Type}

/-- results_manager.py:381-447 `netcdf_results_manager(results, save_path, filename, ts_vars)`. `fname` is the file name of a key: that
of `build_filename`, or `filename[ds_names]` with `none` for a missing key. Returns the directory, the dictionary of the caller
afterwards and the exception. -/
def resultsManager (fname : κ → Option (List Char)) (tsVars : Option (List Name)) :
    Disk V → List (κ × Res V) → Option (List V) → (Disk V × List (κ × Res V)) × Option MErr
  | d, [], _ => ((d, []), none)
  | d, (k, res) :: l, time =>
    match fname k with
    | none => ((d, (k, res) :: l), some .keyError)
    | some x =>
      let r := writeResult tsVars (openFile d x) res time
      let d' := saveFile d x r.1.1
      match r.2 with
      | some e => ((d', (k, r.1.2.1) :: l), some e)
      | none =>
        let rest := resultsManager fname tsVars d' l r.1.2.2
        ((rest.1.1, (k, r.1.2.1) :: rest.1.2), rest.2)

/-- start_validation.py:53-57: the results of all jobs, in their order; the first exception ends it -/
def storeJobs (fname : κ → Option (List Char)) (tsVars : Option (List Name)) : Disk V → List (List (κ × Res V)) → Disk V × Option MErr
  | d, [] => (d, none)
  | d, j :: js =>
    match resultsManager fname tsVars d j none with
    | ((d', _), some e) => (d', some e)
    | ((d', _), none) => storeJobs fname tsVars d' js

/-! ### Specification -/

/-- the results of one key for some locations -/
structure Batch (V : Type) where
  lons : List V
  lats : List V
  data : List (Name × List V)

/-- A dictionary with one number per location and entry. The order of "lon" and "lat" among the entries is arbitrary. -/
structure GoodRes (res : Res V) (b : Batch V) : Prop where
  lon : res.lookup (.plain "lon") = some (.scalars b.lons)
  lat : res.lookup (.plain "lat") = some (.scalars b.lats)
  others : res.filter (fun e => !decide (e.1 = .plain "lon") && !decide (e.1 = .plain "lat")) = b.data.map (fun d => (d.1, .scalars d.2))
  distinct : (b.data.map (fun d => varName d.1)).Nodup
  free : ∀ d ∈ b.data, varName d.1 ∉ reserved
  lats : b.lats.length = b.lons.length
  lengths : ∀ d ∈ b.data, d.2.length = b.lons.length
  some : b.lons ≠ []

/-- a variable that a batch has besides the coordinates -/
def HasVar (b : Batch V) (x : String) : Prop := ∃ d ∈ b.data, varName d.1 = x

/-- the batches of a key, in the order in which they are stored -/
def batches [DecidableEq κ] (jobs : List (List (κ × Batch V))) (k : κ) : List (Batch V) :=
  (jobs.flatten.filter (fun e => decide (e.1 = k))).map Prod.snd

/-- every variable of a batch is in the first batch of the key, or at least in an earlier one -/
def NoLateVariable (B : List (Batch V)) : Prop :=
  ∀ pre b post, B = pre ++ b :: post → ∀ x, HasVar b x → pre = [] ∨ ∃ b' ∈ pre, HasVar b' x

end Verif.Results
