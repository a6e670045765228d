import Verif.DataManager.Model

/-!
Model of `src/pytesmo/validation_framework/validation.py` (188-793), the return codes of
`src/pytesmo/validation_framework/error_handling.py` and of `start_validation.py`.

Readers, temporal matcher, scaler and metrics calculators are parameters; each of them may raise. They are functions of their
arguments: state kept between calls (e.g. the parameter file of `CDFStoreParamsScaler`) is not part of this model. Frames are
`index` plus columns, a missing value is `none`. Data types of the result arrays are not modelled.
-/

namespace Verif.Validation

open DataManager (Col)

/-! ### Return codes, error_handling.py:11-33 -/

/-- error_handling.py:11 -/
def UNCAUGHT : ℤ := -1
/-- error_handling.py:13 -/
def OK : ℤ := 0
/-- error_handling.py:16 -/
def INSUFFICIENT_DATA : ℤ := 1
/-- error_handling.py:19 -/
def METRICS_CALCULATION_FAILED : ℤ := 2
/-- error_handling.py:21-23 -/
def TEMPORAL_MATCHING_FAILED : ℤ := 3
/-- error_handling.py:25 -/
def NO_TEMP_MATCHED_DATA : ℤ := 4
/-- error_handling.py:27 -/
def SCALING_FAILED : ℤ := 5
/-- error_handling.py:29 -/
def VALIDATION_FAILED : ℤ := 6
/-- error_handling.py:31 -/
def NO_GPI_DATA : ℤ := 7
/-- error_handling.py:33 -/
def DATA_MANAGER_FAILED : ℤ := 8

/-- error_handling.py:36-67: an exception with a return code, or any other exception -/
inductive Exc
  | validation (code : ℤ)
  | other
  deriving DecidableEq

/-- validation.py:286-289 -/
def Exc.retcode : Exc → ℤ
  | .validation c => c
  | .other => VALIDATION_FAILED

/-! ### Frames and metrics -/

/-- column label after dropping the multi-index (443) and after renaming (466-471) -/
inductive Label (α : Type)
  | ds (a : α)
  | ref
  | k (i : ℕ)
  deriving DecidableEq

/-- what metrics calculators and scalers get. Used for validation.py:666-733, validation.py:619-664. -/
structure Frame (α T V : Type) where
  index : List T
  columns : List (Label α × List (Option V))

/-- a data set as read: named columns. Used for validation.py:370-376, validation.py:593-617. -/
structure DF (α T V : Type) where
  cols : List α
  rows : List (T × (α → Option V))

/-- temporally matched data: columns `(dataset, column)`. Used for validation.py:666-733, validation.py:619-664. -/
structure MFrame (α T V : Type) where
  cols : List (Col α)
  rows : List (T × (Col α → Option V))

/-- a key of a metrics dictionary: a string or a tuple of strings. Used for validation.py:308-317, validation.py:188-319. -/
inductive Field
  | plain (s : String)
  | tup (l : List String)
  deriving DecidableEq

/-- a value of a metrics dictionary: an array of length one, or (because of a bug) a bare number.
Used for validation.py:415-485, validation.py:321-487. -/
inductive Cell (W : Type)
  | arr (w : W)
  | bare (w : W)

/-- a dictionary of metrics. Used for validation.py:415-485, validation.py:321-487. -/
abbrev Metrics (W : Type) := List (Field × Cell W)

/-- the key of a result. Used for validation.py:619-664, validation.py:445-464. -/
abbrev Key (α : Type) := List (Col α)

variable {α : Type} [LinearOrder α]

/-- `[key[0] for key in result_key]`. Used for validation.py:666-733, validation.py:445-464. -/
def dsNames (key : Key α) : List α := key.map (fun c => (ofLex c).1)

/-- A `Validation` object. `ofCode` stores a return code in a metrics array. Used for validation.py:619-664, validation.py:445-464. -/
structure Setup (α T V W Info : Type) where
  ds : List (α × List α)
  reference : α
  temporalRef : α
  scalingRef : α
  getData : Info → Except Exc (List (α × DF α T V))
  mask : Option (DF α T V → Info → Except Exc (DF α T V))
  matcher : List (α × DF α T V) → α → ℕ → ℕ → Except Exc (List (List α × MFrame α T V))
  scale : Option (Frame α T V → ℕ → Info → Except Exc (Frame α T V))
  calcs : List ((ℕ × ℕ) × (Frame α T V → Info → Except Exc (Metrics W)))
  renameCols : Bool
  onlyWithReference : Bool
  ofCode : ℤ → W

variable {T V W Info : Type}

/-! ### Extracting the data of a result -/

/-- `data[[x for x in result_tuple]].dropna()` (730-733), columns labelled by data set as after line 443 -/
def select (m : MFrame α T V) (sel : List (Col α)) : Except Exc (Frame α T V) :=
  if sel.all (fun c => decide (c ∈ m.cols)) then
    let rows := m.rows.filter (fun r => sel.all (fun c => (r.2 c).isSome))
    .ok ⟨rows.map Prod.fst, sel.map (fun c => (.ds (ofLex c).1, rows.map (fun r => r.2 c)))⟩
  else .error .other

/-- validation.py:666-733 `get_data_for_result_tuple`. The Python result `[]` is a frame without rows. The inner loop of 721-725 has
no effect, the last key that starts with the temporal reference is taken. -/
def getDataForResultTuple (temporalRef : α) (matched : List (List α × MFrame α T V)) (sel : List (Col α)) :
    Except Exc (Frame α T V) :=
  match matched with
  | [] => .error .other
  | first :: _ =>
    if first.1.length = sel.length then
      match matched.find? (fun e => decide ((dsNames sel).insertionSort (· ≤ ·) = e.1.insertionSort (· ≤ ·))) with
      | none => .ok ⟨[], []⟩
      | some e => select e.2 sel
    else
      match (matched.filter (fun e => decide (e.1.head? = some temporalRef))).getLast? with
      | none => .error .other
      | some e => select e.2 sel

/-- validation.py:619-664 `k_datasets_from` for one result name; the scaling reference is appended if necessary -/
def dataForKey (S : Setup α T V W Info) (matched : List (List α × MFrame α T V)) (key : Key α) : Except Exc (Frame α T V) :=
  match S.scale with
  | none => getDataForResultTuple S.temporalRef matched key
  | some _ =>
    match S.ds.lookup S.scalingRef with
    | none => .error .other
    | some [] => .error .other
    | some (c :: _) =>
      getDataForResultTuple S.temporalRef matched
        (if DataManager.col S.scalingRef c ∈ key then key else key ++ [DataManager.col S.scalingRef c])

/-! ### One location -/

/-- `metrics["status"][0] = code`. Used for validation.py:415-485. -/
def setStatus (w : W) : Metrics W → Except Exc (Metrics W)
  | [] => .error .other
  | (.plain "status", .arr _) :: m => .ok ((.plain "status", .arr w) :: m)
  | (.plain "status", .bare _) :: _ => .error .other
  | e :: m => do
    let m' ← setStatus w m
    .ok (e :: m')

/-- `dummy_result` (396-401) and 512-515: the calculator applied to a frame without rows -/
def dummy (mc : Frame α T V → Info → Except Exc (Metrics W)) (info : Info) (key : Key α) : Except Exc (Metrics W) :=
  mc ⟨[], (dsNames key).map (fun a => (.ds a, []))⟩ info

/-- `data.rename(columns=rename_dict)` (466-471) -/
def renameLabel (key : Key α) : Label α → Label α
  | .ds a =>
    match ((dsNames key).zipIdx.reverse).lookup a with
    | none => .ds a
    | some 0 => .ref
    | some (i + 1) => .k (i + 1)
  | l => l

/-- the columns renamed to the names of their data sets. Used for validation.py:466-471. -/
def renameFrame (key : Key α) (f : Frame α T V) : Frame α T V :=
  ⟨f.index, f.columns.map (fun c => (renameLabel key c.1, c.2))⟩

/-- validation.py:445-464: scaling, dropping of the scaling reference -/
def scaled (S : Setup α T V W Info) (info : Info) (key : Key α) (data : Frame α T V) : Except Exc (Frame α T V) :=
  match S.scale with
  | none => .ok data
  | some scale =>
    match data.columns.findIdx? (fun c => decide (c.1 = .ds S.scalingRef)) with
    | none => .error .other
    | some i =>
      match scale data i info with
      | .error _ => .error (.validation SCALING_FAILED)
      | .ok d =>
        if S.scalingRef ∈ dsNames key then .ok d
        else if d.columns.any (fun c => decide (c.1 = .ds S.scalingRef)) then
          .ok ⟨d.index, d.columns.filter (fun c => !decide (c.1 = .ds S.scalingRef))⟩
        else .error .other

/-- validation.py:466-471 -/
def renamed (S : Setup α T V W Info) (key : Key α) (data : Frame α T V) : Frame α T V :=
  if S.renameCols then renameFrame key data else data

/-- validation.py:415-485: body of the loop over the result names; `none`: skipped because of `only_with_reference` -/
def performKey (S : Setup α T V W Info) (raising : Bool) (info : Info) (mc : Frame α T V → Info → Except Exc (Metrics W))
    (matched : List (List α × MFrame α T V)) (key : Key α) : Except Exc (Option (Metrics W)) := do
  let data ← dataForKey S matched key
  if S.onlyWithReference && !decide (S.reference ∈ dsNames key) then .ok none
  else if data.index.length = 0 then
    if raising then .error (.validation NO_TEMP_MATCHED_DATA)
    else do
      let m ← dummy mc info key
      let m' ← setStatus (S.ofCode NO_TEMP_MATCHED_DATA) m
      .ok (some m')
  else do
    let d ← scaled S info key data
    match mc (renamed S key d) info with
    | .ok m => .ok (some m)
    | .error _ =>
      if raising then .error (.validation METRICS_CALCULATION_FAILED)
      else do
        let m ← dummy mc info key
        let m' ← setStatus (S.ofCode METRICS_CALCULATION_FAILED) m
        .ok (some m')

/-- a dictionary of lists; `d.setdefault(k, []).extend(l)`. Used for validation.py:321-487, validation.py:258-277. -/
abbrev Results (κ μ : Type) := List (κ × List μ)

/-- `d.setdefault(k, []).extend(l)`. Used for validation.py:489-519, validation.py:297-301. -/
def extendAt {κ μ : Type} [DecidableEq κ] (d : Results κ μ) (k : κ) (l : List μ) : Results κ μ :=
  match d with
  | [] => [(k, l)]
  | (k', l') :: d => if k' = k then (k', l' ++ l) :: d else (k', l') :: extendAt d k l

/-- `get_result_combinations(ds_dict, n=k)`. Used for validation.py:489-519. -/
def resultNames (S : Setup α T V W Info) (k : ℕ) : Except Exc (List (Key α)) :=
  match DataManager.getResultCombinations S.ds k with
  | .error _ => .error .other
  | .ok l => .ok l

/-- the loop over the result names (412-485) -/
def performKeys (S : Setup α T V W Info) (raising : Bool) (info : Info) (mc : Frame α T V → Info → Except Exc (Metrics W))
    (matched : List (List α × MFrame α T V)) : List (Key α) → Results (Key α) (Metrics W) →
    Except Exc (Results (Key α) (Metrics W))
  | [], res => .ok res
  | key :: keys, res => do
    let m ← performKey S raising info mc matched key
    match m with
    | none => performKeys S raising info mc matched keys res
    | some m => performKeys S raising info mc matched keys (extendAt res key [m])

/-- the loop over the metrics calculators (393-485) with their matched data -/
def performCalcs (S : Setup α T V W Info) (raising : Bool) (info : Info) :
    List (((ℕ × ℕ) × (Frame α T V → Info → Except Exc (Metrics W))) × List (List α × MFrame α T V)) →
    Results (Key α) (Metrics W) → Except Exc (Results (Key α) (Metrics W))
  | [], res => .ok res
  | (c, matched) :: cs, res =>
    if matched.length = 0 then .error (.validation NO_TEMP_MATCHED_DATA)
    else do
      let names ← resultNames S c.1.2
      let res' ← performKeys S raising info c.2 matched names res
      performCalcs S raising info cs res'

/-- `df_dict[ds][columns]` for every data set (378-382) -/
def onlyColumns (S : Setup α T V W Info) : List (α × DF α T V) → Except Exc (List (α × DF α T V))
  | [] => .ok []
  | (n, d) :: ds =>
    match S.ds.lookup n with
    | none => .error .other
    | some cols =>
      if cols.all (fun c => decide (c ∈ d.cols)) then do
        let rest ← onlyColumns S ds
        .ok ((n, ⟨cols, d.rows⟩) :: rest)
      else .error .other

/-- replacing the value of a key that exists. Used for validation.py:370-376. -/
def replaceAt {κ μ : Type} [DecidableEq κ] (k : κ) (x : μ) (d : List (κ × μ)) : List (κ × μ) :=
  d.map (fun e => if e.1 = k then (e.1, x) else e)

/-- validation.py:370-376: `none` if the masked reference is empty -/
def masked (S : Setup α T V W Info) (info : Info) (dfs : List (α × DF α T V)) : Except Exc (Option (List (α × DF α T V))) :=
  match S.mask with
  | none => .ok (some dfs)
  | some mask =>
    match dfs.lookup S.temporalRef with
    | none => .error .other
    | some ref => do
      let ref' ← mask ref info
      if ref'.rows.length = 0 then .ok none else .ok (some (replaceAt S.temporalRef ref' dfs))

/-- validation.py:593-617 `temporal_match_datasets`, 384-391 -/
def matchAll (S : Setup α T V W Info) (dfs : List (α × DF α T V)) : Except Exc (List (List (List α × MFrame α T V))) :=
  match S.calcs.mapM (fun c => S.matcher dfs S.temporalRef c.1.1 c.1.2) with
  | .ok l => .ok l
  | .error _ => .error (.validation TEMPORAL_MATCHING_FAILED)

/-- validation.py:321-487 `perform_validation` (the results only) -/
def performValidation (S : Setup α T V W Info) (raising : Bool) (info : Info) (dfs : List (α × DF α T V)) :
    Except Exc (Results (Key α) (Metrics W)) := do
  let m ← masked S info dfs
  match m with
  | none => .ok []
  | some dfs' => do
    let dfs'' ← onlyColumns S dfs'
    let matched ← matchAll S dfs''
    performCalcs S raising info (S.calcs.zip matched) []

/-- validation.py:258-277: the `try` block of `calc` -/
def attempt (S : Setup α T V W Info) (raising : Bool) (info : Info) : Except Exc (Results (Key α) (Metrics W)) :=
  match S.getData info with
  | .error _ => .error (.validation DATA_MANAGER_FAILED)
  | .ok dfs => if dfs.length = 0 then .error (.validation NO_GPI_DATA) else performValidation S raising info dfs

/-- validation.py:489-519 `dummy_validation_result` for one calculator -/
def dummyKeys (S : Setup α T V W Info) (info : Info) (mc : Frame α T V → Info → Except Exc (Metrics W)) :
    List (Key α) → Results (Key α) (Metrics W) → Except Exc (Results (Key α) (Metrics W))
  | [], res => .ok res
  | key :: keys, res =>
    if S.onlyWithReference && !decide (S.reference ∈ dsNames key) then dummyKeys S info mc keys res
    else do
      let m ← dummy mc info key
      dummyKeys S info mc keys (extendAt res key [m])

/-- validation.py:489-519 `dummy_validation_result` -/
def dummyValidationResult (S : Setup α T V W Info) (info : Info) :
    List ((ℕ × ℕ) × (Frame α T V → Info → Except Exc (Metrics W))) → Results (Key α) (Metrics W) →
    Except Exc (Results (Key α) (Metrics W))
  | [], res => .ok res
  | c :: cs, res => do
    let names ← resultNames S c.1.2
    let res' ← dummyKeys S info c.2 names res
    dummyValidationResult S info cs res'

/-- `k == "status"` or `k[1] == "status"` (293-294) -/
def Field.isStatus : Field → Bool
  | .plain s => s == "status"
  | .tup l => l[1]? == some "status"

/-- validation.py:290-295 for one dictionary: `result[key][0][k][0] = retcode` for every status field -/
def setAllStatus (w : W) : Metrics W → Except Exc (Metrics W)
  | [] => .ok []
  | (f, c) :: m =>
    if f.isStatus then
      match c with
      | .bare _ => .error .other
      | .arr _ => do
        let m' ← setAllStatus w m
        .ok ((f, .arr w) :: m')
    else do
      let m' ← setAllStatus w m
      .ok ((f, c) :: m')

/-- validation.py:290-295: only the first entry of every result is changed -/
def markAll (w : W) : Results (Key α) (Metrics W) → Except Exc (Results (Key α) (Metrics W))
  | [] => .ok []
  | (_, []) :: _ => .error .other
  | (key, m :: ms) :: res => do
    let m' ← setAllStatus w m
    let res' ← markAll w res
    .ok ((key, m' :: ms) :: res')

/-- validation.py:258-295: one pass of the loop of `calc` -/
def processOne (S : Setup α T V W Info) (raising : Bool) (info : Info) : Except Exc (Results (Key α) (Metrics W)) :=
  match attempt S raising info with
  | .ok r => .ok r
  | .error e =>
    if raising then .error e
    else do
      let d ← dummyValidationResult S info S.calcs []
      markAll (S.ofCode e.retcode) d

/-- validation.py:297-301 -/
def merge {κ μ : Type} [DecidableEq κ] : Results κ μ → Results κ μ → Results κ μ
  | acc, [] => acc
  | acc, (k, l) :: r => merge (extendAt acc k l) r

/-- the loop over the locations (256-301) -/
def collect (S : Setup α T V W Info) (raising : Bool) : List Info → Results (Key α) (Metrics W) →
    Except Exc (Results (Key α) (Metrics W))
  | [], acc => .ok acc
  | info :: infos, acc => do
    let r ← processOne S raising info
    collect S raising infos (merge acc r)

/-- `result[field_name][0]`. Used for validation.py:308-317. -/
def entry (f : Field) (m : Metrics W) : Except Exc W :=
  match m.lookup f with
  | some (.arr w) => .ok w
  | _ => .error .other

/-- validation.py:308-317 for one result key -/
def compactKey (ms : List (Metrics W)) : Except Exc (List (Field × List W)) :=
  match ms with
  | [] => .error .other
  | m :: _ => (m.map Prod.fst).mapM (fun f => do
      let col ← ms.mapM (entry f)
      .ok (f, col))

/-- validation.py:188-319 `calc`; `raising` is `handle_errors == 'raise'` -/
def calcAll (S : Setup α T V W Info) (raising : Bool) (infos : List Info) :
    Except Exc (List (Key α × List (Field × List W))) := do
  let res ← collect S raising infos []
  res.mapM (fun e => do
    let c ← compactKey e.2
    .ok (e.1, c))

/-! ### Masking -/

/-- The masking data manager: names of the masking data sets with the reference, reading of the masking data sets.
Used for validation.py:521-563. -/
structure Masking (α T V Info : Type) where
  ds : List (α × List α)
  refName : α
  getOther : Info → Except Exc (List (α × DF α T V))
  matcher : List (α × DF α T V) → α → ℕ → Except Exc (List (List α × MFrame α T V))

/-- validation.py:547-560: the rows of the reference that one masking result leaves. `data[key] is False` compares a series with the
object `False` and is false, so every row with a matched masking observation is rejected. `none`: nothing to apply. -/
def chooseFrom [DecidableEq T] (idx : List T) (data : Frame α T V) : Except Exc (Option (List Bool)) :=
  if data.index.length = 0 then .ok none
  else if data.index.Nodup then .ok (some (idx.map (fun t => if t ∈ data.index then false else true)))
  else .error .other

/-- `choose_all[key] = choose` (560): a column that exists is replaced -/
def assignColumn {κ : Type} [DecidableEq κ] (d : List (κ × List Bool)) (k : κ) (c : List Bool) : List (κ × List Bool) :=
  if k ∈ d.map Prod.fst then replaceAt k c d else d ++ [(k, c)]

/-- validation.py:544-560 for one result name and what `chooseFrom` gives for its data: the columns are named by the masking data set and its
column only, so results with the same masking column and another column of the reference replace each other -/
def maskColumns (refName : α) (d : List (Col α × List Bool)) (e : Key α × Option (List Bool)) : List (Col α × List Bool) :=
  match e.2 with
  | none => d
  | some c => (e.1.filter (fun k => !decide ((ofLex k).1 = refName))).foldl (fun d k => assignColumn d k c) d

/-- validation.py:521-563 `mask_dataset`, 565-591 `temporal_match_masking_data`; `temporalRef` is that of the validation -/
def maskDataset [DecidableEq T] (M : Masking α T V Info) (temporalRef : α) (ref : DF α T V) (info : Info) :
    Except Exc (DF α T V) := do
  let others ← M.getOther info
  let matched ← M.matcher (others ++ [(M.refName, ref)]) M.refName 2
  match DataManager.getResultNames M.ds M.refName 2 with
  | .error _ => .error .other
  | .ok names =>
    let entries ← names.mapM (fun r => do
      let data ← getDataForResultTuple temporalRef matched r
      let c ← chooseFrom (ref.rows.map Prod.fst) data
      .ok (r, c))
    let chooseAll := entries.foldl (maskColumns M.refName) []
    let rejected := fun i => chooseAll.any (fun c => c.2[i]? == some false)
    .ok ⟨ref.cols, (ref.rows.zipIdx.filter (fun r => !rejected r.2)).map Prod.fst⟩

/-! ### Arguments -/

/-- a Python argument: a string, a sequence that can be indexed by 0 unless it is empty, anything that cannot be indexed.
Used for utils.py:129-150, utils.py:153-173. -/
inductive Arg (X : Type)
  | str (s : String)
  | seq (l : List X)
  | scalar (x : X)

/-- an element of an iterable: an element of the sequence or the whole argument. Used for utils.py:153-173, validation.py:768-793. -/
inductive Item (X : Type)
  | elem (x : X)
  | whole (a : Arg X)

/-- utils.py:129-150 `element_iterable` -/
def elementIterable {X : Type} : Arg X → Bool
  | .str s => !(s == "")
  | .seq l => !l.isEmpty
  | .scalar _ => false

/-- utils.py:153-173 `ensure_iterable` -/
def ensureIterable {X : Type} (a : Arg X) : List (Item X) :=
  match a with
  | .str _ => [.whole a]
  | .seq l => if elementIterable a then l.map .elem else [.whole a]
  | .scalar _ => [.whole a]

/-- validation.py:768-793 `args_to_iterable` with explicit `n`: the first `n` (`none` beyond the last), and the others if there are
more -/
def argsToIterable {X : Type} (n : ℕ) (args : List (Arg X)) : List (Option (List (Item X))) × Option (List (List (Item X))) :=
  let a := args.map ensureIterable
  ((List.range n).map (fun i => a[i]?), if n < args.length then some (a.drop n) else none)

/-- `zip(*iterables)`. Used for validation.py:248-256. -/
def zipAll {X : Type} (ls : List (List X)) : List (List X) :=
  match (ls.map List.length).min? with
  | none => []
  | some n => (List.range n).map (fun i => ls.filterMap (fun l => l[i]?))

/-- validation.py:248-256: the tuples `calc` works on -/
def locations {X : Type} (gpis lons lats : Arg X) (args : List (Arg X)) : List (List (Item X)) :=
  if args = [] then zipAll ((argsToIterable 3 [gpis, lons, lats]).1.filterMap id)
  else
    let r := argsToIterable 3 (gpis :: lons :: lats :: args)
    zipAll (r.1.filterMap id ++ r.2.getD [])

/-! ### Parallel execution -/

/-- outcome of a job with retries: the first success among `r + 1` attempts, otherwise the last failure. Used for start_validation.py:25-59. -/
def retried {R E : Type} (att : ℕ → Except E R) : ℕ → Except E R
  | 0 => att 0
  | r + 1 =>
    match retried att r with
    | .ok x => .ok x
    | .error _ => att (r + 1)

/-- The slots of an asynchronous map: completing job `i` fills slot `i`. Used for start_validation.py:25-59. -/
def complete {J R E : Type} (f : J → ℕ → Except E R) (jobs : List J) (slots : List (Option (Except E R))) (i : ℕ) :
    List (Option (Except E R)) :=
  match jobs[i]? with
  | none => slots
  | some j => slots.set i (some (retried (f j) 2))

/-- The loop of start_validation.py:53-57: results are taken in the order of the jobs; a failed job raises. `none`: still waiting. -/
def drain {J R E S : Type} (write : S → R → S) : List (Option (Except E R) × J) → S → List J → Option (S × List J × Option E)
  | [], st, done => some (st, done, none)
  | (none, _) :: _, _, _ => none
  | (some (.error e), _) :: _, st, done => some (st, done, some e)
  | (some (.ok r), j) :: l, st, done => drain write l (write st r) (done ++ [j])

/-- start_validation.py:25-59: `schedule` is the order in which jobs complete -/
def startValidation {J R E S : Type} (f : J → ℕ → Except E R) (write : S → R → S) (jobs : List J) (schedule : List ℕ) (st : S) :
    Option (S × List J × Option E) :=
  drain write ((schedule.foldl (complete f jobs) (jobs.map (fun _ => none))).zip jobs) st []

end Verif.Validation
