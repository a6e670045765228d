import Verif.Cdf.Model

/-!
Model of `CDFStoreParamsScaler`, `src/pytesmo/validation_framework/data_scalers.py:81-257`.

Simplifications:
* a data frame is a list of named columns (`none` for NaN);
* the storage (`pynetcf.GriddedPointData`, lines 108-116, 220, 257) is a table from grid points to dictionaries: reading a point returns
  what was written there last, `None` if nothing was;
* the constructor arguments of the `CDFMatching` objects are a `Cdf.Params` with the percentiles of the scaler;
* `reference_index` is not negative.
-/

namespace Verif.Scalers

open Verif.Cdf (Params Fitted fit predict)

variable {K : Type} [Field K] [LinearOrder K]

/-- exceptions. Used for data_scalers.py:180-191, data_scalers.py:159-191. -/
inductive Err
  | keyError
  | indexError
  | fit (e : Cdf.Err)
  deriving DecidableEq

/-- a frame. Used for data_scalers.py:159-191, data_scalers.py:193-217. -/
abbrev Frame (K : Type) := List (String × List (Option K))

/-- parameters by name. Used for data_scalers.py:180-191, data_scalers.py:159-191. -/
abbrev Dict (K : Type) := List (String × Fitted K)

/-- the storage. Used for data_scalers.py:193-217, data_scalers.py:119-157. -/
abbrev Store (K : Type) := ℕ → Option (Dict K)

/-- `f"{column}_{refname}"` (data_scalers.py:149, 190) -/
def paramName (column refname : String) : String := column ++ "_" ++ refname

/-- `parameters[key] = params`. Used for data_scalers.py:180-191. -/
def put (d : Dict K) (k : String) (v : Fitted K) : Dict K := d.filter (fun e => e.1 ≠ k) ++ [(k, v)]

/-- data_scalers.py:180-191: one column; columns with the name of the reference are skipped -/
def calcStep (P : Params K) (refname : String) (ref : List (Option K)) (d : Dict K) (c : String × List (Option K)) : Except Err (Dict K) :=
  if c.1 = refname then .ok d
  else
    match fit P c.2 ref with
    | .error e => .error (.fit e)
    | .ok f => .ok (put d (paramName c.1 refname) f)

/-- data_scalers.py:159-191 `calc_parameters` -/
def calcParameters (P : Params K) (data : Frame K) (ri : ℕ) : Except Err (Dict K) :=
  match data[ri]? with
  | none => .error .indexError
  | some r => data.foldlM (calcStep P r.1 r.2) []

/-- data_scalers.py:193-217 `get_parameters` with `load_parameters` (219-230) and `store_parameters` (232-257): parameters and storage afterwards -/
def getParameters (P : Params K) (s : Store K) (data : Frame K) (ri gpi : ℕ) : Except Err (Dict K × Store K) :=
  match s gpi with
  | some d => .ok (d, s)
  | none =>
    match calcParameters P data ri with
    | .error e => .error e
    | .ok d => .ok (d, fun g => if g = gpi then some d else s g)

/-- data_scalers.py:146-155: the columns other than the reference are mapped by their parameters -/
def applyParameters (d : Dict K) (refname : String) : Frame K → Except Err (Frame K)
  | [] => .ok []
  | c :: cs =>
    if c.1 = refname then do
      let rest ← applyParameters d refname cs
      .ok (c :: rest)
    else
      match d.lookup (paramName c.1 refname) with
      | none => .error .keyError
      | some f => do
        let rest ← applyParameters d refname cs
        .ok ((c.1, predict f c.2) :: rest)

/-- data_scalers.py:119-157 `scale`: result and storage afterwards (also if an exception is raised after storing) -/
def scale (P : Params K) (s : Store K) (data : Frame K) (ri gpi : ℕ) : Except Err (Frame K) × Store K :=
  match getParameters P s data ri gpi with
  | .error e => (.error e, s)
  | .ok (d, s') =>
    match data[ri]? with
    | none => (.error .indexError, s')
    | some r => (applyParameters d r.1 data, s')

/-- a call of `scale`, data_scalers.py:119 -/
structure Call (K : Type) where
  data : Frame K
  ri : ℕ
  gpi : ℕ

/-- a history of calls of `scale`, data_scalers.py:119 -/
def run (P : Params K) : Store K → List (Call K) → List (Except Err (Frame K)) × Store K
  | s, [] => ([], s)
  | s, c :: cs =>
    let r := scale P s c.data c.ri c.gpi
    let rest := run P r.2 cs
    (r.1 :: rest.1, rest.2)

end Verif.Scalers
