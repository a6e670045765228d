import Verif.Calculators.Model

/-!
Model of the calculators of `src/pytesmo/validation_framework/metric_calculators.py` that build the names of their results from the names of
the data sets: `HSAF_Metrics` (449-637), `IntercomparisonMetrics` (640-927) and `TCMetrics` (930-1297).

Simplifications, in addition to those of `Verif.Calculators.Model`:
* a metric of two columns (`df_metrics.pearsonr` and so on, with the removal of missing values for each pair) is a parameter, as are the scaling
  of a data frame to its first column and triple collocation;
* the columns of a frame are distinct and their names, joined with `_and_`, are valid names of a namedtuple.
-/

namespace Verif.Calculators

variable {K : Type}

/-- metric_calculators.py:702 `ds_names_split` -/
def sepAnd : Name := "_and_".toList
/-- metric_calculators.py:702 `metric_ds_split` -/
def sepBetween : Name := "_between_".toList

/-- `str.split(sep)` from left to right: `k` characters are still part of a separator, `acc` is the current part, reversed.
Used for metric_calculators.py:757-763, 874-880, metric_calculators.py:1060-1067, 1208-1215. -/
def splitGo (sep : Name) : ℕ → Name → Name → List Name
  | _, acc, [] => [acc.reverse]
  | k + 1, acc, _ :: s => splitGo sep k acc s
  | 0, acc, c :: s => if sep.isPrefixOf (c :: s) then acc.reverse :: splitGo sep (sep.length - 1) [] s else splitGo sep 0 (c :: acc) s

/-- `s.split(sep)`. Used for metric_calculators.py:757-763, 874-880, metric_calculators.py:1060-1067, 1208-1215. -/
def pySplit (sep s : Name) : List Name := splitGo sep 0 [] s

/-- `sep.join(l)`. Used for metric_calculators.py:724-728, metric_calculators.py:757-763, 874-880. -/
def pyJoin (sep : Name) : List Name → Name
  | [] => []
  | [a] => a
  | a :: l => a ++ sep ++ pyJoin sep l

/-- metric_calculators.py:714-716 `ds_names_lut`: later entries of equal columns replace earlier ones -/
def makeLut (ds cols : List Name) : List (Name × Name) := (cols.zip ds).reverse

/-- `self.ds_names_lut[column]`. Used for metric_calculators.py:1068-1079, metric_calculators.py:938-1083. -/
def lutGet (lut : List (Name × Name)) (c : Name) : Except Err Name :=
  match lut.lookup c with
  | some n => .ok n
  | none => .error .keyError

/-- `self.ds_names_lut[split_tds_name[i]]`. Used for metric_calculators.py:757-763, 874-880, metric_calculators.py:1060-1067, 1208-1215. -/
def lutPart (lut : List (Name × Name)) (parts : List Name) (i : ℕ) : Except Err Name :=
  match parts[i]? with
  | some p => lutGet lut p
  | none => .error .indexError

/-- `itertools.combinations(l, 2)`. Used for metric_calculators.py:718-728, df_metrics.py:141. -/
def pairsOf {α : Type} : List α → List (α × α)
  | [] => []
  | a :: l => l.map (fun b => (a, b)) ++ pairsOf l

/-- `itertools.combinations(l, 3)`. Used for metric_calculators.py:1094-1104, metric_calculators.py:1193-1200. -/
def triplesOf {α : Type} : List α → List (α × α × α)
  | [] => []
  | a :: l => (pairsOf l).map (fun b => (a, b)) ++ triplesOf l

/-- `itertools.permutations(l, 2)` for distinct elements. Used for df_metrics.py:141. -/
def orderedPairs (l : List Name) : List (Name × Name) := l.flatMap (fun a => (l.erase a).map (fun b => (a, b)))

/-- metric_calculators.py:718-728 and 1085-1099: the pairs whose metrics are stored. `n_combinations` ignores an empty `must_include`. -/
def tdsPairs (cols : List Name) (ref : Name) (nonref : Bool) : List (Name × Name) :=
  (pairsOf cols).filter (fun p => nonref || decide (ref = []) || decide (p.1 = ref) || decide (p.2 = ref))

/-- metric_calculators.py:724-728 -/
def tdsNames (cols : List Name) (ref : Name) (nonref : Bool) : List Name :=
  (tdsPairs cols ref nonref).map (fun p => pyJoin sepAnd [p.1, p.2])

/-- metric_calculators.py:757-763, 874-880 `tds_name_key` -/
def pairKey (lut : List (Name × Name)) (tds : Name) : Except Err Name := do
  let parts := pySplit sepAnd tds
  let a ← lutPart lut parts 0
  let b ← lutPart lut parts 1
  .ok (pyJoin sepAnd [a, b])

/-- metric_calculators.py:733-748 `metrics_tds` -/
def tdsMetrics : List String :=
  ["R", "p_R", "rho", "p_rho", "BIAS", "RMSD", "mse", "RSS", "mse_corr", "mse_bias", "urmsd", "mse_var", "tau", "p_tau"]

/-- `self.metric_ds_split.join([metric, tds_name_key])`. Used for metric_calculators.py:756-766, metric_calculators.py:857-924. -/
def betweenKey (m k : Name) : Key := .name (pyJoin sepBetween [m, k])

/-- `d.pop(k, None)`. Used for metric_calculators.py:768-773. -/
def pop (d : Dict K) (k : Key) : Dict K := d.filter (fun e => e.1 ≠ k)

/-- metric_calculators.py:756-766: the entries of the pairs -/
def pairEntries (keys : List Name) : Dict K := keys.flatMap (fun k => tdsMetrics.map (fun m => (betweenKey m.toList k, Val.num none)))

/-- metric_calculators.py:768-773 -/
def popUnused (calcRho calcTau : Bool) (t : Dict K) : Dict K :=
  let t := if calcRho then t else pop (pop t (key "rho")) (key "p_rho")
  if calcTau then t else pop (pop t (key "tau")) (key "p_tau")

/-- metric_calculators.py:679-773 `IntercomparisonMetrics.__init__`: the template -/
def interTemplate (ds cols : List Name) (ref : Name) (nonref calcRho calcTau : Bool) (mt : Option (Dict K)) : Except Err (Dict K) := do
  let c ← metricTemplate ["n_obs"]
  let keys ← (tdsNames cols ref nonref).mapM (pairKey (makeLut ds cols))
  .ok (popUnused calcRho calcTau (update (metadataTemplate mt) (c ++ pairEntries keys)))

/-- the functions working on columns. Used for df_metrics.py:141, metric_calculators.py:810-854, 1161-1192. -/
structure NamedFuncs (K : Type) where
  /-- a metric of two columns -/
  metric : String → List (Option K) → List (Option K) → Except Err (Option K)
  /-- `scale(data, method="mean_std")`, or `"min_max"` for `HSAF_Metrics` -/
  scale : Frame K → Except Err (Frame K)
  /-- `tcol_metrics(x, y, z, ref_ind)` -/
  tc : ℕ → List (Option K) → List (Option K) → List (Option K) → Except Err (Tc K)

/-- a metric of the two columns named. Used for df_metrics.py:141. -/
def pairValue (F : NamedFuncs K) (m : String) (f : Frame K) (p : Name × Name) : Except Err (Option K) := do
  let x ← column f p.1
  let y ← column f p.2
  F.metric m x y

/-- `df_metrics.<metric>(data)._asdict()`: a namedtuple over the pairs of columns (for the bias over the ordered pairs,
df_metrics.py:141); a namedtuple with repeated names raises -/
def pairTable (F : NamedFuncs K) (m : String) (f : Frame K) : Except Err (List (Name × Option K)) := do
  let ps := if m = "BIAS" then orderedPairs f.cols else pairsOf f.cols
  let vs ← ps.mapM (pairValue F m f)
  let names := ps.map (fun p => pyJoin sepAnd [p.1, p.2])
  if names.Nodup then .ok (names.zip vs) else .error .valueError

/-- metric_calculators.py:882-924: the metrics written for each pair, in this order -/
def writtenMetrics (calcRho calcTau : Bool) : List String :=
  ["R", "p_R", "BIAS", "mse", "mse_corr", "mse_bias", "mse_var", "RMSD", "urmsd", "RSS"]
  ++ (if calcRho then ["rho", "p_rho"] else []) ++ (if calcTau then ["tau", "p_tau"] else [])

/-- one table with its metric; `urmsd` is calculated from the scaled data. Used for metric_calculators.py:810-854, 1161-1192. -/
def namedTable (F : NamedFuncs K) (f scaled : Frame K) (m : String) : Except Err (String × List (Name × Option K)) := do
  let t ← pairTable F m (if m = "urmsd" then scaled else f)
  .ok (m, t)

/-- metric_calculators.py:810-854, 1161-1192: the metrics of all pairs of columns. (The order of the calculations, that is which of several exceptions is
raised, is simplified.) -/
def pairTables (F : NamedFuncs K) (calcRho calcTau : Bool) (f : Frame K) : Except Err (List (String × List (Name × Option K))) := do
  let scaled ← F.scale f
  (writtenMetrics calcRho calcTau).mapM (namedTable F f scaled)

/-- `<metric>_dict[tds_name]`. Used for metric_calculators.py:857-924, metric_calculators.py:610-634. -/
def tableGet (tds : Name) (t : String × List (Name × Option K)) : Except Err (String × Option K) :=
  match t.2.lookup tds with
  | some v => .ok (t.1, v)
  | none => .error .keyError

/-- metric_calculators.py:857-924: the assignments for one pair -/
def tdsWrites (lut : List (Name × Name)) (tables : List (String × List (Name × Option K))) (tds : Name) : Except Err (List (Key × Val K)) := do
  let vals ← tables.mapM (tableGet tds)
  let k ← pairKey lut tds
  .ok (vals.map (fun mv => (betweenKey mv.1.toList k, .num mv.2)))

/-- `data[columns]`. Used for metric_calculators.py:775-927. -/
def selectCols (f : Frame K) (cols : List Name) : Except Err (Frame K) :=
  if cols.all (fun c => decide (c ∈ f.cols)) then
    .ok ⟨cols, f.rows.map (fun r => (r.1, cols.map (fun c => (r.2[f.cols.idxOf c]?).join)))⟩
  else .error .keyError

/-- metric_calculators.py:775-927 `IntercomparisonMetrics.calc_metrics` -/
def interCalc (F : NamedFuncs K) (ds cols : List Name) (ref : Name) (nonref calcRho calcTau : Bool) (minObs : ℕ) (template : Dict K)
    (mt : Option (Dict K)) (data : Frame K) (info : Info K) : Except Err (Dict K) := do
  let d ← metadataCalc template mt info
  let d ← set d (key "n_obs", .int data.rows.length)
  if data.rows.length < minObs then set d (key "status", .int insufficientData)
  else do
    let f ← selectCols data cols
    let tables ← pairTables F calcRho calcTau f
    let ws ← (tdsNames cols ref nonref).mapM (tdsWrites (makeLut ds cols) tables)
    let d ← setAll d ws.flatten
    set d (key "status", .int ok)

/-! ### TCMetrics -/

/-- metric_calculators.py:1094-1104: the triples with the reference -/
def thdsNames (cols : List Name) (ref : Name) : List Name :=
  ((triplesOf cols).filter (fun p => decide (p.1 = ref) || decide (p.2.1 = ref) || decide (p.2.2 = ref))).map
    (fun p => pyJoin sepAnd [p.1, p.2.1, p.2.2])

/-- metric_calculators.py:1060-1067, 1208-1215 `thds_name_key` -/
def tripleKey (lut : List (Name × Name)) (thds : Name) : Except Err Name := do
  let parts := pySplit sepAnd thds
  let a ← lutPart lut parts 0
  let b ← lutPart lut parts 1
  let c ← lutPart lut parts 2
  .ok (pyJoin sepAnd [a, b, c])

/-- `"{}_{}".format(metric, ds)` with the data sets. Used for metric_calculators.py:1068-1079, metric_calculators.py:1203-1226. -/
def tripleEntry (m ds k : Name) : Key := .name (pyJoin sepBetween [m ++ '_' :: ds, k])

/-- metric_calculators.py:1068-1079: the entries of one triple -/
def tripleEntries (lut : List (Name × Name)) (tcDs : List Name) (thds : Name) : Except Err (Dict K) := do
  let k ← tripleKey lut thds
  let names ← (pySplit sepAnd thds).mapM (lutGet lut)
  .ok (["snr", "err_std", "beta"].flatMap (fun m => (tcDs.filter (fun ds => decide (ds ∈ names))).map (fun ds => (tripleEntry m.toList ds k, Val.num none))))

/-- metric_calculators.py:938-1083 `TCMetrics.__init__`: the template -/
def tcmTemplate (ds others : List Name) (nonref forRef calcTau : Bool) (mt : Option (Dict K)) : Except Err (Dict K) := do
  let ref := "ref".toList
  let cols := ref :: others
  let lut := makeLut ds cols
  let c ← metricTemplate ["n_obs"]
  let tcDs ← (cols.filter (fun n => forRef || decide (n ≠ ref))).mapM (lutGet lut)
  let keys ← (tdsNames cols ref nonref).mapM (pairKey lut)
  let ts ← (thdsNames cols ref).mapM (tripleEntries lut tcDs)
  .ok (popUnused true calcTau (update (metadataTemplate mt) (c ++ pairEntries keys ++ ts.flatten)))

/-- the values of a triple by column. Used for metric_calculators.py:1193-1200. -/
def tripleValue (F : NamedFuncs K) (refInd : ℕ) (f : Frame K) (p : Name × Name × Name) : Except Err (Name × List Name × Tc K) := do
  let x ← column f p.1
  let y ← column f p.2.1
  let z ← column f p.2.2
  let t ← F.tc refInd x y z
  .ok (pyJoin sepAnd [p.1, p.2.1, p.2.2], [p.1, p.2.1, p.2.2], t)

/-- metric_calculators.py:1193-1200 with 1108-1120 `_tc_res_dict`: triples with the reference, by their joined names -/
def tripleTable (F : NamedFuncs K) (ref : Name) (f : Frame K) : Except Err (List (Name × List Name × Tc K)) :=
  if ref ∈ f.cols then
    ((triplesOf f.cols).filter (fun p => decide (p.1 = ref) || decide (p.2.1 = ref) || decide (p.2.2 = ref))).mapM
      (tripleValue F (f.cols.idxOf ref) f)
  else .error .indexError

/-- metric_calculators.py:1225-1226: `if n in dataset.keys(): dataset[n][0] = …` -/
def setIf (d : Dict K) (kv : Key × Val K) : Dict K := if kv.1 ∈ d.map Prod.fst then put d kv.1 kv.2 else d

/-- metric_calculators.py:1203-1226: the values of one triple with their keys -/
def tripleWrites (lut : List (Name × Name)) (table : List (Name × List Name × Tc K)) (thds : Name) : Except Err (List (Key × Val K)) :=
  match table.reverse.lookup thds with
  | none => .error .keyError
  | some t => do
    let k ← tripleKey lut thds
    let names ← t.1.mapM (lutGet lut)
    .ok (t.2.metric.flatMap (fun m => names.zipIdx.map (fun ni => (tripleEntry m.1.toList ni.1 k, .num (m.2 ni.2)))))

/-- `TCMetrics.calc_metrics` does not catch the missing metadata (1148-1150) -/
def metadataCalcTc (template : Dict K) (mt : Option (Dict K)) (info : Info K) : Except Err (Dict K) :=
  match metadataCalc template mt info with
  | .error .noMetadata => .error .indexError
  | r => r

/-- metric_calculators.py:1122-1297 `TCMetrics.calc_metrics` -/
def tcmCalc (F : NamedFuncs K) (ds others : List Name) (nonref calcTau : Bool) (minObs : ℕ) (template : Dict K) (mt : Option (Dict K))
    (data : Frame K) (info : Info K) : Except Err (Dict K) := do
  let ref := "ref".toList
  let cols := ref :: others
  let lut := makeLut ds cols
  let d ← metadataCalcTc template mt info
  let d ← set d (key "n_obs", .int data.rows.length)
  if data.rows.length < minObs then set d (key "status", .int insufficientData)
  else do
    let tables ← pairTables F true calcTau data
    let triples ← tripleTable F ref data
    let ts ← (thdsNames cols ref).mapM (tripleWrites lut triples)
    let d := ts.flatten.foldl setIf d
    let ws ← (tdsNames cols ref nonref).mapM (tdsWrites lut tables)
    let d ← setAll d ws.flatten
    set d (key "status", .int ok)

/-! ### HSAF_Metrics -/

/-- metric_calculators.py:503 -/
def seasons : List String := ["ALL", "DJF", "MAM", "JJA", "SON"]

/-- metric_calculators.py:528-544 `month_to_season` -/
def monthToSeason : List String := ["", "DJF", "DJF", "MAM", "MAM", "MAM", "JJA", "JJA", "JJA", "SON", "SON", "SON", "DJF"]

/-- metric_calculators.py:564-567: is the row part of the season? -/
def inSeason (season : String) (r : ℕ × List (Option K)) : Bool :=
  if season ≠ "ALL" then decide (monthToSeason[r.1]? = some season) else true

/-- `"{:}_{:}_{:}".format(name, season, metric)` and with two arguments `"{:}_{:}"`.
Used for metric_calculators.py:519-523, 617-621, metric_calculators.py:506-526. -/
def under (l : List Name) : Name := pyJoin ['_'] l

/-- metric_calculators.py:482-484 -/
def hsafPairs (o1 o2 : Name) : List (Name × Name) := pairsOf ["ref".toList, o1, o2]

/-- metric_calculators.py:519-523, 617-621: the name of a pair -/
def hsafPairKey (lut : List (Name × Name)) (p : Name × Name) : Except Err Name := do
  let parts := pySplit sepAnd (pyJoin sepAnd [p.1, p.2])
  let a ← lutPart lut parts 0
  let b ← lutPart lut parts 1
  .ok (under [a, b])

/-- metric_calculators.py:488-492 -/
def hsafSingle : List String := ["snr", "err_var", "beta"]
/-- metric_calculators.py:494-501 -/
def hsafPair : List String := ["R", "p_R", "rho", "p_rho", "bias", "ubrmsd"]

/-- metric_calculators.py:506-526: the entries of one season -/
def hsafEntries (ds pairKeys : List Name) (season : String) : Dict K :=
  [(.name (under [season.toList, "n_obs".toList]), .int 0)]
  ++ ds.flatMap (fun n => hsafSingle.map (fun m => (Key.name (under [n, season.toList, m.toList]), Val.num none)))
  ++ pairKeys.flatMap (fun k => hsafPair.map (fun m => (Key.name (under [k, season.toList, m.toList]), Val.num none)))

/-- metric_calculators.py:456-544 `HSAF_Metrics.__init__`: the template -/
def hsafTemplate (ds : List Name) (o1 o2 : Name) (mt : Option (Dict K)) : Except Err (Dict K) := do
  let keys ← (hsafPairs o1 o2).mapM (hsafPairKey (makeLut ds ["ref".toList, o1, o2]))
  .ok (update (metadataTemplate mt) (seasons.flatMap (hsafEntries ds keys)))

/-- `values[subset]` of a column. Used for metric_calculators.py:564-634. -/
def seasonColumn (f : Frame K) (season : String) (n : Name) : Except Err (List (Option K)) := column ⟨f.cols, f.rows.filter (inSeason season)⟩ n

/-- the tables of `df_metrics` for the pair metrics; bias and ubrmsd are calculated from the scaled data. Used for metric_calculators.py:564-634. -/
def hsafTable (F : NamedFuncs K) (f scaled : Frame K) (m : String) : Except Err (String × List (Name × Option K)) := do
  let t ← pairTable F (if m = "bias" then "BIAS" else if m = "ubrmsd" then "urmsd" else m) (if m = "bias" ∨ m = "ubrmsd" then scaled else f)
  .ok (m, t)

/-- metric_calculators.py:610-634: the assignments for one pair -/
def hsafPairWrites (lut : List (Name × Name)) (season : String) (tables : List (String × List (Name × Option K))) (p : Name × Name) :
    Except Err (List (Key × Val K)) := do
  let vals ← tables.mapM (tableGet (pyJoin sepAnd [p.1, p.2]))
  let k ← hsafPairKey lut p
  .ok (vals.map (fun mv => (Key.name (under [k, season.toList, mv.1.toList]), .num mv.2)))

/-- `for i, name in enumerate(self.ds_names)`: the values of triple collocation; a fourth name raises an IndexError.
Used for metric_calculators.py:564-634. -/
def hsafSingleWrites (ds : List Name) (season : String) (t : Tc K) : Except Err (List (Key × Val K)) :=
  if ds.length ≤ 3 then
    .ok (ds.zipIdx.flatMap (fun ni => [(Key.name (under [ni.1, season.toList, "snr".toList]), Val.num (t.snr ni.2)),
      (.name (under [ni.1, season.toList, "err_var".toList]), .num (t.errStd ni.2)),
      (.name (under [ni.1, season.toList, "beta".toList]), .num (t.beta ni.2))]))
  else .error .indexError

/-- metric_calculators.py:564-634: one season; the pair metrics are calculated from all data -/
def hsafSeason (F : NamedFuncs K) (ds : List Name) (o1 o2 : Name) (minObs : ℕ) (data : Frame K) (d : Dict K) (season : String) :
    Except Err (Dict K) := do
  let n := (data.rows.filter (inSeason season)).length
  if n < minObs then .ok d
  else do
    let d ← set d (.name (under [season.toList, "n_obs".toList]), .int n)
    let x ← seasonColumn data season "ref".toList
    let y ← seasonColumn data season o1
    let z ← seasonColumn data season o2
    let t ← F.tc 0 x y z
    let single ← hsafSingleWrites ds season t
    let scaled ← F.scale data
    let tables ← hsafPair.mapM (hsafTable F data scaled)
    let pairs ← (hsafPairs o1 o2).mapM (hsafPairWrites (makeLut ds ["ref".toList, o1, o2]) season tables)
    setAll d (single ++ pairs.flatten)

/-- metric_calculators.py:546-637 `HSAF_Metrics.calc_metrics` -/
def hsafCalc (F : NamedFuncs K) (ds : List Name) (o1 o2 : Name) (minObs : ℕ) (template : Dict K) (mt : Option (Dict K)) (data : Frame K)
    (info : Info K) : Except Err (Dict K) := do
  let d ← metadataCalc template mt info
  let d ← seasons.foldlM (hsafSeason F ds o1 o2 minObs data) d
  set d (key "status", .int ok)

end Verif.Calculators
