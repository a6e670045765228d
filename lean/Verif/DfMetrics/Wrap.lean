import Verif.DfMetrics.Model
import Verif.Pairwise.Model

/-!
C79: the metrics of data frames, `src/pytesmo/df_metrics.py`: `_wrap_metric` (88-138) and the functions made with it (142-154),
`mse_decomposition` (157-181), `mse` (184-215), `pearsonr`, `spearmanr`, `kendalltau` (314-380) and `_dict_to_namedtuple` (607-621).

A value is `none` if it is not finite. Identifiers are restricted to ASCII.
-/

set_option linter.unusedSectionVars false

namespace Verif.DfMetrics

open Verif.Pairwise

/-- the name of a column: a string, or another object (for instance an integer). Used for df_metrics.py:607-621, df_metrics.py:113-116. -/
inductive Col
  | str (s : List Char)
  | other (n : ℕ)
  deriving DecidableEq

/-- `"_and_".join(k)` (617); joining other objects than strings raises TypeError -/
def joinCols : List Col → Except Err (List Char)
  | [] => .ok []
  | [.str s] => .ok s
  | .str s :: c :: l =>
    match joinCols (c :: l) with
    | .ok r => .ok (s ++ "_and_".toList ++ r)
    | .error e => .error e
  | .other _ :: _ => .error .typeError

/-- a field name that `collections.namedtuple` accepts: an identifier that does not begin with an underscore (a name with `_and_` is no
keyword). Used for df_metrics.py:607-621. -/
def fieldName : List Char → Bool
  | [] => false
  | c :: l => c.isAlpha && l.all (fun d => d.isAlphanum || d == '_')

/-- names of all entries. Used for df_metrics.py:607-621. -/
def fieldNames {W : Type} : List (List Col × W) → Except Err (List (List Char × W))
  | [] => .ok []
  | (k, v) :: l =>
    match joinCols k with
    | .error e => .error e
    | .ok s =>
      match fieldNames l with
      | .error e => .error e
      | .ok r => .ok ((s, v) :: r)

/-- df_metrics.py:607-621 `_dict_to_namedtuple`. `namedtuple` raises ValueError for illegal and for repeated names. -/
def dictToNamedtuple {W : Type} (d : List (List Col × W)) : Except Err (List (List Char × W)) :=
  match fieldNames d with
  | .error e => .error e
  | .ok r => if (r.all (fun e => fieldName e.1)) ∧ (r.map Prod.fst).Nodup then .ok r else .error .valueError

/-- a metric of two arrays which returns one or several values. Used for df_metrics.py:113-116, _fast_pairwise.pyx:67-71. -/
abbrev Metric := Pairs → Except Err (List (Option ℝ))

/-- the metric as `nwise_apply` calls it. Used for df_metrics.py:113-116. -/
noncomputable def asMethod (m : Metric) (args : List (List (Option ℝ))) : Except Err (List (Option ℝ)) :=
  match args with
  | [x, y] => m ((x.zip y).map (fun p => (p.1.getD 0, p.2.getD 0)))
  | _ => .error .typeError

/-- the value number `idx` of one combination (521-522, 537-538): NaN if the metric was not called -/
def valueOf (idx : ℕ) (v : Option (List (Option ℝ))) : Option ℝ := (v.bind (fun l => l[idx]?)).join

/-- the namedtuple number `idx` that a data frame metric returns: df_metrics.py:113-116 (`idx = 0`), 172-181, 206-215 (four), 330-334,
353-357, 376-380 (two). The column names are distinct. -/
noncomputable def wrapAt (m : Metric) (symmetric : Bool) (cols : ℕ → Col) (mat : ℕ → ℕ → Option ℝ) (K N idx : ℕ) :
    Except Err (List (List Char × Option ℝ)) :=
  match nwiseApply Option.isSome Option.isNone (asMethod m) (asMethod m) mat K N 2 symmetric .none with
  | .error e => .error e
  | .ok res => dictToNamedtuple (res.map (fun e => (e.1.map cols, valueOf idx e.2)))

/-! ### The metrics, with empty arrays -/

open Classical in
/-- one finite number, or NaN if undefined. Used for _fast_pairwise.pyx:67-71, _fast_pairwise.pyx:90-95. -/
noncomputable def single (defined : Prop) (v : ℝ) : Except Err (List (Option ℝ)) := .ok [if defined then some v else none]

/-- _fast_pairwise.pyx:67-71 (C division: NaN for empty arrays) -/
noncomputable def biasM : Metric := fun l => single (l ≠ []) (bias l)
/-- _fast_pairwise.pyx:90-95 -/
noncomputable def rssM : Metric := fun l => single True (RSS l)
/-- pairwise.py:193: division of Python numbers, ZeroDivisionError for empty arrays -/
noncomputable def msdM : Metric := fun l => if l = [] then .error .metric else single True (msd l)
/-- pairwise.py:220-228 -/
noncomputable def rmsdM : Metric := fun l => if l = [] then .error .metric else single True (rmsd l 0)
/-- pairwise.py:253 -/
noncomputable def nrmsdM : Metric := fun l => if l = [] then .error .metric else single (minBoth l ≠ maxBoth l) (nrmsd l 0)
/-- pairwise.py:286-294 -/
noncomputable def ubrmsdM : Metric := fun l => single (l ≠ []) (ubrmsd l 0)
/-- _fast_pairwise.pyx:98-130 -/
noncomputable def mseCorrM : Metric := fun l => single (l ≠ []) (mseCorr l)
/-- _fast_pairwise.pyx:140-172 -/
noncomputable def mseVarM : Metric := fun l => single (l ≠ []) (mseVar l)
/-- _fast_pairwise.pyx:181-210 -/
noncomputable def mseBiasM : Metric := fun l => single (l ≠ []) (mseBias l)
/-- pairwise.py:542 -/
noncomputable def nashM : Metric := fun l => single (∃ p ∈ l, ∃ q ∈ l, p.1 ≠ q.1) (nashSutcliffe l)
/-- _fast_pairwise.pyx:225-274 -/
noncomputable def mseDecompositionM : Metric := fun l =>
  let d := mseDecomposition l
  .ok (if l = [] then [none, none, none, none] else [some d.1, some d.2.1, some d.2.2.1, some d.2.2.2])

/-! ### Specification -/

/-- the pairs of values of two columns in the rows in which both have one -/
def commonRows (mat : ℕ → ℕ → Option ℝ) (N i j : ℕ) : List (ℝ × ℝ) :=
  (List.range N).filterMap (fun r => (mat i r).bind (fun a => (mat j r).map (fun b => (a, b))))

/-- `v` is the value of the metric for the columns `i` and `j`; NaN if they have no common row -/
def IsValue (m : Metric) (mat : ℕ → ℕ → Option ℝ) (N idx i j : ℕ) (v : Option ℝ) : Prop :=
  (commonRows mat N i j = [] ∧ v = none) ∨ (commonRows mat N i j ≠ [] ∧ ∃ vs, m (commonRows mat N i j) = .ok vs ∧ v = (vs[idx]?).join)

/-- the name of the field of two columns -/
def pairName (nm : ℕ → List Char) (i j : ℕ) : List Char := nm i ++ "_and_".toList ++ nm j

/-- the pairs of columns a metric is calculated for -/
def Wanted (symmetric : Bool) (K i j : ℕ) : Prop := i < K ∧ j < K ∧ if symmetric then i < j else i ≠ j

end Verif.DfMetrics
