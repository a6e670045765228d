import Verif.DfMetrics.Props
import Verif.DfMetrics.Wrap

/-!
C115: triple collocation of data frames with named columns, `src/pytesmo/df_metrics.py`: `tcol_error` (218-252), `tcol_metrics` (261-311) and
`tcol_snr` (255-258). Unlike the model of C17 (`DfMetrics.tcolMetricsDf`) the columns have names and may hold something else than numbers. A value is
`none` if it is not finite. Identifiers are restricted to ASCII. The names of the columns are distinct.
-/

set_option linter.unusedSectionVars false

namespace Verif.DfMetrics

/-- a column of a data frame; `numeric` tells whether `_get_numeric_data` keeps it. Used for df_metrics.py:496, df_metrics.py:498-499. -/
structure Column where
  name : Col
  numeric : Bool
  vals : ℕ → Option ℝ

/-- df_metrics.py:496 `df._get_numeric_data()` -/
def numericCols (df : List Column) : List Column := df.filter (fun c => c.numeric)

/-- df_metrics.py:498-499 `numeric_df.values.T` -/
def matOf (cs : List Column) (i r : ℕ) : Option ℝ := (cs[i]?).bind (fun c => c.vals r)

/-- df_metrics.py:497, 527 `np.take(cols, comb)` for one column -/
def nameOf (cs : List Column) (i : ℕ) : Col := ((cs[i]?).map (fun c => c.name)).getD (.other 0)

/-- `keyword.kwlist`. Used for df_metrics.py:247-250, 306-308. -/
def keywords : List (List Char) := ["False", "None", "True", "and", "as", "assert", "async", "await", "break", "class", "continue", "def", "del", "elif",
  "else", "except", "finally", "for", "from", "global", "if", "import", "in", "is", "lambda", "nonlocal", "not", "or", "pass", "raise", "return", "try",
  "while", "with", "yield"].map String.toList

/-- a column name that is accepted as name of a field by `collections.namedtuple`. Other objects are converted to strings, which are no identifiers
(for numbers, tuples and dates). Used for df_metrics.py:247-250, 306-308. -/
def tupleField : Col → Bool
  | .str s => fieldName s && !keywords.contains s
  | .other _ => false

/-- df_metrics.py:247-250, 306-308: `Inner = namedtuple(name, OrderedDict(zip(trip, res)))` and `Inner(*res)`; the names are distinct -/
def inner {W : Type} (names : List Col) (vals : List W) : Except Err (List (Col × W)) :=
  if names.all tupleField then
    if names.length = vals.length then .ok (names.zip vals) else .error .typeError
  else .error .valueError

/-- deprecated.py:17-67 `tcol_error(x, y, z)` on arrays with possible NaN: all three results use all three arrays; the means of empty arrays are NaN -/
noncomputable def tcolErrorMethod (args : List (List (Option ℝ))) : Except Err (List (Option ℝ)) :=
  match args with
  | [x, y, z] =>
    if (x ++ y ++ z).all Option.isSome ∧ x ≠ [] then
      let rows : List Verif.Tcol.Row := (x.zip (y.zip z)).map (fun t => ![t.1.getD 0, t.2.1.getD 0, t.2.2.getD 0])
      .ok [some (Verif.Tcol.tcolError rows 0), some (Verif.Tcol.tcolError rows 1), some (Verif.Tcol.tcolError rows 2)]
    else .ok [none, none, none]
  | _ => .error .typeError

/-- df_metrics.py:243-252: the tuples of all triples -/
def nameErrors (cs : List Column) : List (List ℕ × Option (List (Option ℝ))) → Except Err (List (List (Col × Option ℝ)))
  | [] => .ok []
  | (trip, v) :: rest =>
    match inner (trip.map (nameOf cs)) [valueOf 0 v, valueOf 1 v, valueOf 2 v] with
    | .error e => .error e
    | .ok t =>
      match nameErrors cs rest with
      | .error e => .error e
      | .ok r => .ok (t :: r)

/-- df_metrics.py:218-252 `tcol_error(df)` -/
noncomputable def tcolErrorDf (df : List Column) (N : ℕ) : Except Err (List (List (Col × Option ℝ))) :=
  let cs := numericCols df
  match nwiseApply Option.isSome Option.isNone tcolErrorMethod tcolErrorMethod (matOf cs) cs.length N 3 true .none with
  | .error e => .error e
  | .ok res => nameErrors cs res

/-- results of one data set: signal-to-noise ratio, scaled error standard deviation, scaling coefficient.
Used for df_metrics.py:301-311, df_metrics.py:261-311. -/
abbrev TcolOne := ℝ × ℝ × ℝ

/-- the results of the data set number `i` of a triple. Used for df_metrics.py:301-311. -/
noncomputable def oneOf (v : List TcolOut) (i : Fin 3) : Option TcolOne := (v.head?.join).map (fun r => (r.snr i, r.errStd i, r.beta i))

/-- df_metrics.py:301-311: the tuples of all triples; the three lists of tuples are kept as one list with three values per field. A triple without
value (NaN) raises TypeError in `zip`. -/
noncomputable def nameMetrics (cs : List Column) : List (List ℕ × Option (List TcolOut)) → Except Err (List (List (Col × Option TcolOne)))
  | [] => .ok []
  | (_, none) :: _ => .error .typeError
  | (trip, some v) :: rest =>
    match inner (trip.map (nameOf cs)) [oneOf v 0, oneOf v 1, oneOf v 2] with
    | .error e => .error e
    | .ok t =>
      match nameMetrics cs rest with
      | .error e => .error e
      | .ok r => .ok (t :: r)

/-- df_metrics.py:261-311 `tcol_metrics(df, ref_ind)`; `none` is `ref_ind=None` -/
noncomputable def tcolMetricsFrame (df : List Column) (N : ℕ) (ref : Option ℕ) : Except Err (List (List (Col × Option TcolOne))) :=
  let cs := numericCols df
  let mi := match ref with
    | some r => MustInclude.list [r]
    | none => MustInclude.none
  match nwiseApply Option.isSome Option.isNone (tcolMethod 0) (tcolMethod (ref.getD 0)) (matOf cs) cs.length N 3 true mi with
  | .error e => .error e
  | .ok res => nameMetrics cs res

/-- df_metrics.py:255-258 `tcol_snr(df, ref_ind)` -/
noncomputable def tcolSnrFrame (df : List Column) (N : ℕ) (_ref : Option ℕ) : Except Err (List (List (Col × Option TcolOne))) :=
  tcolMetricsFrame df N (some 0)

/-! ### Specification -/

/-- `a`, `b`, `c` are three columns of the list, in this order -/
def Three (l : List Column) (a b c : Column) : Prop := ∃ i j k : ℕ, i < j ∧ j < k ∧ l[i]? = some a ∧ l[j]? = some b ∧ l[k]? = some c

/-- the observations of three columns in the rows in which all three have a value -/
def collocated (N : ℕ) (a b c : Column) : List Verif.Tcol.Row :=
  (List.range N).filterMap (fun r => (a.vals r).bind (fun x => (b.vals r).bind (fun y => (c.vals r).map (fun z => ![x, y, z]))))

/-- a row is missing in all numeric columns or in none, and not all rows are missing -/
structure Gapless (df : List Column) (N : ℕ) : Prop where
  uniform : ∀ a ∈ df, ∀ b ∈ df, a.numeric → b.numeric → ∀ r < N, (a.vals r).isSome = (b.vals r).isSome
  some_row : ∃ r < N, ∀ a ∈ df, a.numeric → (a.vals r).isSome

end Verif.DfMetrics
