import Mathlib.Data.List.Basic
import Verif.Tcol.Model

/-!
Model of `src/pytesmo/df_metrics.py`: `n_combinations` (48-85), `nwise_apply` (449-563), `_to_df` (566-604), `pairwise_apply`
(383-446), `tcol_metrics` (261-311), `tcol_snr` (255-258) and `src/pytesmo/utils.py:array_dropna` (176-197).

A frame has `K` numeric columns and `N` rows; `mat i r` is the value of column `i` in row `r` (the transposed matrix of the
code). `fin` is `np.isfinite`, `nan` is `np.isnan`. The metric is an arbitrary function on lists of arrays that may raise.
Column names are distinct; results are keyed by the column numbers. The metric returns the same number of values in every
call, so a result is kept as the list of its values per combination; `none` stands for the initial NaN.
-/

namespace Verif.DfMetrics

/-- `itertools.combinations(l, n)`. Used for df_metrics.py:48-85. -/
def combinations {α : Type} : ℕ → List α → List (List α)
  | 0, _ => [[]]
  | _ + 1, [] => []
  | n + 1, a :: l => (combinations n l).map (a :: ·) ++ combinations (n + 1) l

/-- `itertools.permutations(l, n)` for a list without repetitions. Used for df_metrics.py:48-85. -/
def permutations {α : Type} [DecidableEq α] : ℕ → List α → List (List α)
  | 0, _ => [[]]
  | n + 1, l => l.flatMap (fun a => (permutations n (l.erase a)).map (a :: ·))

/-- The argument `must_include`: `None`, a single element or a list. Used for df_metrics.py:69-73, df_metrics.py:48-85. -/
inductive MustInclude
  | none
  | single (i : ℕ)
  | list (l : List ℕ)

/-- df_metrics.py:69-73: a falsy argument (`None`, `0`, `[]`) is ignored, a single element is wrapped in a list -/
def MustInclude.elements : MustInclude → List ℕ
  | .none => []
  | .single i => if i = 0 then [] else [i]
  | .list l => l

/-- df_metrics.py:48-85 `n_combinations` for integers -/
def nCombinations (l : List ℕ) (n : ℕ) (mi : MustInclude) (perms : Bool) : List (List ℕ) :=
  let combs := if perms then permutations n l else combinations n l
  combs.filter (fun c => mi.elements.all (fun i => i ∈ c))

/-- exceptions. Used for utils.py:176-197, df_metrics.py:525. -/
inductive Err
  /-- wrong number of arguments of `np.logical_and` / `np.logical_or` -/
  | typeError
  /-- row of the matrix that does not exist -/
  | indexError
  /-- no entry for a column in `lut_names` -/
  | keyError
  /-- "Array structure only available for n=2", or `max` of an empty list -/
  | valueError
  /-- raised by the metric -/
  | metric
  deriving DecidableEq

section
variable {V R : Type}

/-- the rows selected by a boolean array, `arr[valid]`. Used for utils.py:176-197, df_metrics.py:524-538. -/
def compress (N : ℕ) (valid : ℕ → Bool) (arr : ℕ → V) : List V := ((List.range N).filter valid).map arr

/-- utils.py:176-197 `array_dropna(*arrs)` applied to the columns `0 … n-1`. With three arrays the third mask is the `out`
argument of `np.logical_or`, so its content is not used. -/
def arrayDropna (nan : V → Bool) (N : ℕ) (arrs : List (ℕ → V)) : Except Err (List (List V)) :=
  match arrs with
  | [a, b] => .ok (arrs.map (compress N (fun r => !(nan (a r) || nan (b r)))))
  | [a, b, _] => .ok (arrs.map (compress N (fun r => !(nan (a r) || nan (b r)))))
  | _ => .error .typeError

/-- df_metrics.py:525 `np.logical_and(*[mask[i] for i in comb])`: the result and the mask array after the call (with three
arguments the third one is the output array, a row of `mask`). -/
def logicalAnd (mask : ℕ → ℕ → Bool) (comb : List ℕ) : Except Err ((ℕ → Bool) × (ℕ → ℕ → Bool)) :=
  match comb with
  | [i, j] => .ok (fun r => mask i r && mask j r, mask)
  | [i, j, k] =>
    let v := fun r => mask i r && mask j r
    .ok (v, fun c => if c = k then v else mask c)
  | _ => .error .typeError

/-- df_metrics.py:524-538: the loop over the combinations. `method` is the metric with its keyword arguments. -/
def loop (method : List (List V) → Except Err (List R)) (mat : ℕ → ℕ → V) (N : ℕ) :
    (ℕ → ℕ → Bool) → List (List ℕ) → Except Err (List (List ℕ × Option (List R)))
  | _, [] => .ok []
  | mask, comb :: combs =>
    match logicalAnd mask comb with
    | .error e => .error e
    | .ok (valid, mask') =>
      if (List.range N).any valid then
        let args := if (List.range N).all valid then comb.map (fun i => (List.range N).map (mat i))
          else comb.map (fun i => compress N valid (mat i))
        match method args with
        | .error e => .error e
        | .ok c =>
          match loop method mat N mask' combs with
          | .error e => .error e
          | .ok rest => .ok ((comb, some c) :: rest)
      else
        match loop method mat N mask' combs with
        | .error e => .error e
        | .ok rest => .ok ((comb, none) :: rest)

/-- df_metrics.py:449-563 `nwise_apply(df, method, n, comm, as_df=False, must_include=..., **kwargs)`. `probe` is the metric
without the keyword arguments (the call in line 515). -/
def nwiseApply (fin nan : V → Bool) (probe method : List (List V) → Except Err (List R)) (mat : ℕ → ℕ → V) (K N n : ℕ)
    (comm : Bool) (mi : MustInclude) : Except Err (List (List ℕ × Option (List R))) :=
  let combs := nCombinations (List.range K) n mi (!comm)
  if K < n then .error .indexError
  else match arrayDropna nan N ((List.range n).map mat) with
    | .error e => .error e
    | .ok args =>
      match probe args with
      | .error e => .error e
      | .ok _ => loop method mat N (fun i r => fin (mat i r)) combs

/-! ### Result matrices -/

/-- `np.triu_indices(K, 1)`. Used for df_metrics.py:593. -/
def triu (K : ℕ) : List (ℕ × ℕ) :=
  (List.range K).flatMap (fun i => ((List.range K).filter (fun j => i < j)).map (fun j => (i, j)))
/-- `np.tril_indices(K, -1)`. Used for df_metrics.py:593. -/
def tril (K : ℕ) : List (ℕ × ℕ) :=
  (List.range K).flatMap (fun i => ((List.range K).filter (fun j => j < i)).map (fun j => (i, j)))

/-- df_metrics.py:585-588 and 581: the matrix filled from the dictionary (`res[k[::-1]] = v`, then transposed), NaN
elsewhere -/
def fillMatrix {W : Type} (result : List ((ℕ × ℕ) × W)) (i j : ℕ) : Option W :=
  (result.reverse.find? (fun e => decide (e.1 = (i, j)))).map Prod.snd

/-- df_metrics.py:593 `res[i_lower] = res[i_upper]`; the right hand side is evaluated first -/
def copyLower {W : Type} (K : ℕ) (m : ℕ → ℕ → Option W) (i j : ℕ) : Option W :=
  match ((tril K).zip (triu K)).reverse.find? (fun e => decide (e.1 = (i, j))) with
  | some e => m e.2.1 e.2.2
  | none => m i j

/-- df_metrics.py:566-593 `_to_df` as function of row and column number, for the columns `0 … imax` -/
def toDf {W : Type} (comm : Bool) (result : List ((ℕ × ℕ) × W)) : Except Err (ℕ × (ℕ → ℕ → Option W)) :=
  match result with
  | [] => .error .valueError
  | _ =>
    let K := (result.map (fun e => max e.1.1 e.1.2)).foldl max 0 + 1
    let m := fillMatrix result
    .ok (K, if comm then copyLower K m else m)

/-! ### The deprecated `pairwise_apply` -/

/-- One round `(i, j)` of df_metrics.py:419-438; `finR` is `np.isfinite` of the first value. `none` is the initial NaN. -/
def pairStep (finR : Option R → Bool) (method : List V → List V → R) (mat : ℕ → ℕ → V) (fin : V → Bool) (N : ℕ)
    (comm : Bool) (res : ℕ → ℕ → Option R) (ij : ℕ × ℕ) : ℕ → ℕ → Option R :=
  let i := ij.1
  let j := ij.2
  if i = j then res
  else if comm && finR (res i j) then res
  else
    let valid := fun r => fin (mat i r) && fin (mat j r)
    if (List.range N).any valid then
      let v := if (List.range N).all valid then method ((List.range N).map (mat i)) ((List.range N).map (mat j))
        else method (compress N valid (mat i)) (compress N valid (mat j))
      fun a b => if a = i ∧ b = j then some v else if comm = true ∧ a = j ∧ b = i then some v else res a b
    else res

/-- df_metrics.py:383-446 `pairwise_apply(df, method, comm)` (the probing call 411 does not fail) -/
def pairwiseApply (finR : Option R → Bool) (method : List V → List V → R) (mat : ℕ → ℕ → V) (fin : V → Bool)
    (K N : ℕ) (comm : Bool) : ℕ → ℕ → Option R :=
  ((List.range K).flatMap (fun i => (List.range K).map (fun j => (i, j)))).foldl
    (pairStep finR method mat fin N comm) (fun _ _ => none)

end

/-! ### Triple collocation on frames -/

/-- Values of one triple: per data set SNR, scaled error standard deviation and beta; `none` if a value is NaN.
Used for df_metrics.py:303-309, df_metrics.py:261-311. -/
abbrev TcolOut := Option Verif.Tcol.TcolResult

/-- `metrics.tcol_metrics(x, y, z, ref_ind)` on arrays with possible NaN (`none`): a NaN in any input makes SNR and error standard
deviation of all three data sets NaN, represented by `none`; `cov[ref_ind, …]`
raises for `ref_ind > 2`. Used for df_metrics.py:261-311. -/
noncomputable def tcolMethod (ref : ℕ) (args : List (List (Option ℝ))) : Except Err (List TcolOut) :=
  match args with
  | [x, y, z] =>
    if h : ref < 3 then
      if (x ++ y ++ z).all Option.isSome then
        let rows : List Verif.Tcol.Row :=
          (x.zip (y.zip z)).map (fun t => ![t.1.getD 0, t.2.1.getD 0, t.2.2.getD 0])
        .ok [some (Verif.Tcol.tcolMetrics rows ⟨ref, h⟩)]
      else .ok [none]
    else .error .indexError
  | _ => .error .typeError

/-- df_metrics.py:303-309: naming the values; `zip(trip, res)` raises a TypeError if a triple has no value (NaN) -/
def nameTriples (res : List (List ℕ × Option (List TcolOut))) : Except Err (List (List ℕ × List TcolOut)) :=
  match res with
  | [] => .ok []
  | (_, none) :: _ => .error .typeError
  | (trip, some v) :: rest =>
    match nameTriples rest with
    | .error e => .error e
    | .ok r => .ok ((trip, v) :: r)

/-- df_metrics.py:261-311 `tcol_metrics(df, ref_ind)`; `none` is `ref_ind=None`. Position `p` of a triple in the result belongs
to its column number `p`. -/
noncomputable def tcolMetricsDf (mat : ℕ → ℕ → Option ℝ) (K N : ℕ) (ref : Option ℕ) :
    Except Err (List (List ℕ × List TcolOut)) :=
  let mi := match ref with
    | some r => MustInclude.list [r]
    | none => MustInclude.none
  match nwiseApply Option.isSome Option.isNone (tcolMethod 0) (tcolMethod (ref.getD 0)) mat K N 3 true mi with
  | .error e => .error e
  | .ok res => nameTriples res

/-- df_metrics.py:255-258 `tcol_snr(df, ref_ind)` -/
noncomputable def tcolSnrDf (mat : ℕ → ℕ → Option ℝ) (K N : ℕ) (_ref : Option ℕ) :
    Except Err (List (List ℕ × List TcolOut)) := tcolMetricsDf mat K N (some 0)

end Verif.DfMetrics
