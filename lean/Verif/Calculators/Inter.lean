import Verif.Calculators.NamedLemmas
import Verif.Calculators.Triple

/-! C57: `IntercomparisonMetrics` stores every metric with the names of the two data sets it was calculated from. -/

set_option linter.unusedSectionVars false
set_option synthInstance.maxSize 1000

namespace Verif.Calculators

variable {K : Type}

/-! ### Specification -/

/-- the values of a column -/
def colOf (f : Frame K) (n : Name) : List (Option K) := f.rows.map (fun r => entry r (f.cols.idxOf n))

/-- the frame with the given columns only -/
def restrict (f : Frame K) (cols : List Name) : Frame K := ⟨cols, f.rows.map (fun r => (r.1, cols.map (fun c => entry r (f.cols.idxOf c))))⟩

/-- the name of the result: `metric_between_a_and_b` -/
def resultName (m : String) (a b : Name) : Key := .name (m.toList ++ "_between_".toList ++ (a ++ "_and_".toList ++ b))

/-- rho and tau are calculated only if asked for -/
def calculated (calcRho calcTau : Bool) (m : String) : Bool :=
  (calcRho || !(m == "rho" || m == "p_rho")) && (calcTau || !(m == "tau" || m == "p_tau"))

/-- metadata fields that cannot be confused with results -/
structure NamedFields (fields : Dict K) : Prop where
  nodup : (fields.map Prod.fst).Nodup
  fresh : ∀ k ∈ fields.map Prod.fst, k ∉ reserved ∧ k ∉ ["n_obs", "rho", "p_rho", "tau", "p_tau"].map key ∧ ∀ n, k = .name n → ¬ "_between_".toList <:+: n

/-! ### Proofs -/

theorem column_colOf (f : Frame K) (n : Name) (h : n ∈ f.cols) : column f n = .ok (colOf f n) := column_ok f n h

theorem colOf_restrict (f : Frame K) (cols : List Name) (n : Name) (h : n ∈ cols) : colOf (restrict f cols) n = colOf f n := by
  unfold colOf restrict
  simp only [List.map_map]
  apply List.map_congr_left
  intro r _
  have hlt : cols.idxOf n < cols.length := List.idxOf_lt_length_of_mem h
  simp only [Function.comp_def, entry, List.getElem?_map, List.getElem?_eq_getElem hlt, List.getElem_idxOf hlt, Option.map_some, Option.join_some]

theorem selectCols_ok (f : Frame K) (cols : List Name) (h : ∀ c ∈ cols, c ∈ f.cols) : selectCols f cols = .ok (restrict f cols) := by
  unfold selectCols
  rw [if_pos (by simpa using h)]
  rfl

theorem between_eq (m : String) (a b : Name) : betweenKey m.toList (pyJoin sepAnd [a, b]) = resultName m a b := rfl

theorem metrics_free : ∀ m ∈ tdsMetrics, Free sepBetween m.toList := by decide

theorem metrics_inj : ∀ m ∈ tdsMetrics, ∀ m' ∈ tdsMetrics, m.toList = m'.toList → m = m' := by decide

theorem metrics_nodup : tdsMetrics.Nodup := by decide

theorem written_calculated (calcRho calcTau : Bool) : ∀ m ∈ tdsMetrics, (m ∈ writtenMetrics calcRho calcTau ↔ calculated calcRho calcTau m = true) := by
  revert calcRho calcTau; decide

theorem written_sub (calcRho calcTau : Bool) : ∀ m ∈ writtenMetrics calcRho calcTau, m ∈ tdsMetrics := by
  revert calcRho calcTau; decide

theorem written_metrics_nodup (calcRho calcTau : Bool) : (writtenMetrics calcRho calcTau).Nodup := by
  revert calcRho calcTau; decide

/-- names of results determine metric and data sets -/
theorem resultName_injective (m m' : String) (hm : m ∈ tdsMetrics) (hm' : m' ∈ tdsMetrics) (a b a' b' : Name) (ha : Free sepAnd a) (ha' : Free sepAnd a')
    (h : resultName m a b = resultName m' a' b') : m = m' ∧ a = a' ∧ b = b' := by
  have h1 : m.toList ++ sepBetween ++ (a ++ sepAnd ++ b) = m'.toList ++ sepBetween ++ (a' ++ sepAnd ++ b') := Key.name.inj h
  obtain ⟨h2, h3⟩ := append_injective sepBetween sepBetween_ne _ _ _ _ (metrics_free m hm) (metrics_free m' hm') h1
  obtain ⟨h4, h5⟩ := append_injective sepAnd sepAnd_ne _ _ _ _ ha ha' h3
  exact ⟨metrics_inj m hm m' hm' h2, h4, h5⟩

/-- a pair of data sets, each with column and name -/
abbrev Q := (Name × Name) × (Name × Name)

/-- entries of the pairs, for all metrics in the list -/
def qEntries (qs : List Q) (ms : List String) (val : String → Q → Option K) : Dict K :=
  qs.flatMap (fun q => ms.map (fun m => (resultName m q.1.2 q.2.2, Val.num (val m q))))

theorem qEntries_keys (qs : List Q) (ms : List String) (val : String → Q → Option K) :
    (qEntries qs ms val).map Prod.fst = qs.flatMap (fun q => ms.map (fun m => resultName m q.1.2 q.2.2)) := by
  unfold qEntries
  rw [List.map_flatMap]
  congr 1
  funext q
  rw [List.map_map]
  rfl

theorem mem_qEntries (qs : List Q) (ms : List String) (val : String → Q → Option K) (e : Key × Val K) :
    e ∈ qEntries qs ms val ↔ ∃ q ∈ qs, ∃ m ∈ ms, e = (resultName m q.1.2 q.2.2, .num (val m q)) := by
  simp only [qEntries, List.mem_flatMap, List.mem_map, eq_comm]

theorem qEntries_nodup (P : List (Name × Name)) (hd : (P.map Prod.snd).Nodup) (hfd : ∀ e ∈ P, Free sepAnd e.2) (qs : List Q) (hq : qs.Nodup)
    (hqs : ∀ q ∈ qs, q ∈ pairsOf P) (ms : List String) (hm : ms.Nodup) (hms : ∀ m ∈ ms, m ∈ tdsMetrics) (val : String → Q → Option K) :
    ((qEntries qs ms val).map Prod.fst).Nodup := by
  have hinj : ∀ e ∈ P, ∀ e' ∈ P, e.2 = e'.2 → e = e' := fun e he e' he' h => List.inj_on_of_nodup_map hd he he' h
  rw [qEntries_keys, List.nodup_flatMap]
  constructor
  · intro q hqm
    refine hm.map_on ?_
    intro x hx y hy h
    have hfr := hfd _ (mem_of_pairsOf P q (hqs q hqm)).1
    exact (resultName_injective x y (hms x hx) (hms y hy) _ _ _ _ hfr hfr h).1
  · refine List.Pairwise.imp_of_mem ?_ hq
    intro q q' h1 h2 hne x hx hy
    obtain ⟨m, hm1, rfl⟩ := List.mem_map.mp hx
    obtain ⟨m', hm2, h⟩ := List.mem_map.mp hy
    have hP1 := mem_of_pairsOf P q (hqs q h1)
    have hP2 := mem_of_pairsOf P q' (hqs q' h2)
    obtain ⟨_, h4, h5⟩ := resultName_injective m' m (hms m' hm2) (hms m hm1) _ _ _ _ (hfd _ hP2.1) (hfd _ hP1.1) h
    exact hne (Prod.ext (hinj _ hP1.1 _ hP2.1 h4.symm) (hinj _ hP1.2 _ hP2.2 h5.symm))

theorem resultName_long (m : String) (a b : Name) (s : String) (h : s.length < 9) : resultName m a b ≠ key s := by
  intro he
  have h1 := congrArg List.length (Key.name.inj he)
  have h2 : "_between_".toList.length = 9 := by decide
  simp only [List.length_append, h2, String.length_toList] at h1
  omega

/-- nothing to remove -/
theorem popUnused_id (calcRho calcTau : Bool) (t : Dict K) (h : ∀ k ∈ ["rho", "p_rho", "tau", "p_tau"].map key, k ∉ t.map Prod.fst) :
    popUnused calcRho calcTau t = t := by
  have h1 : ∀ k ∈ ["rho", "p_rho", "tau", "p_tau"].map key, pop t k = t := by
    intro k hk
    unfold pop
    rw [List.filter_eq_self]
    intro e he
    simp only [ne_eq, decide_not, Bool.not_eq_true', decide_eq_false_iff_not]
    intro hek
    exact h k hk (hek ▸ List.mem_map.mpr ⟨e, he, rfl⟩)
  unfold popUnused
  cases calcRho <;> cases calcTau <;>
    simp only [Bool.false_eq_true, if_false, if_true, h1 (key "rho") (by simp), h1 (key "p_rho") (by simp), h1 (key "tau") (by simp), h1 (key "p_tau") (by simp)]

/-- the pairs that are stored, with their names -/
def storedPairs (P : List (Name × Name)) (ref : Name) (nonref : Bool) : List Q :=
  (pairsOf P).filter (fun q => nonref || decide (ref = []) || decide (q.1.1 = ref) || decide (q.2.1 = ref))

theorem tdsNames_stored (P : List (Name × Name)) (ref : Name) (nonref : Bool) :
    tdsNames (P.map Prod.fst) ref nonref = (storedPairs P ref nonref).map (fun q => pyJoin sepAnd [q.1.1, q.2.1]) := by
  unfold tdsNames tdsPairs storedPairs
  rw [pairsOf_map, List.filter_map, List.map_map]
  rfl

theorem storedPairs_sub (P : List (Name × Name)) (ref : Name) (nonref : Bool) : ∀ q ∈ storedPairs P ref nonref, q ∈ pairsOf P :=
  fun _ hq => (List.mem_filter.mp hq).1

theorem keys_ok (P : List (Name × Name)) (hn : (P.map Prod.fst).Nodup) (hf : ∀ e ∈ P, Free sepAnd e.1) (ref : Name) (nonref : Bool) :
    (tdsNames (P.map Prod.fst) ref nonref).mapM (pairKey (makeLut (P.map Prod.snd) (P.map Prod.fst))) =
      .ok ((storedPairs P ref nonref).map (fun q => pyJoin sepAnd [q.1.2, q.2.2])) := by
  rw [tdsNames_stored]
  have : ∀ qs : List Q, (∀ q ∈ qs, q ∈ pairsOf P) → (qs.map (fun q => pyJoin sepAnd [q.1.1, q.2.1])).mapM (pairKey (makeLut (P.map Prod.snd) (P.map Prod.fst))) =
      .ok (qs.map (fun q => pyJoin sepAnd [q.1.2, q.2.2])) := by
    intro qs
    induction qs with
    | nil => intro _; rfl
    | cons q qs ih =>
      intro h
      have hP := mem_of_pairsOf P q (h q (by simp))
      rw [List.map_cons, List.mapM_cons, pairKey_ok P hn hf q.1 q.2 hP.1 hP.2, ih (fun q' hq' => h q' (List.mem_cons_of_mem _ hq'))]
      rfl
  exact this _ (storedPairs_sub P ref nonref)

theorem pairEntries_eq (qs : List Q) : (pairEntries (qs.map (fun q => pyJoin sepAnd [q.1.2, q.2.2])) : Dict K) = qEntries qs tdsMetrics (fun _ _ => none) := by
  unfold pairEntries qEntries
  rw [List.flatMap_map]
  rfl

theorem nobs_template : (metricTemplate ["n_obs"] : Except Err (Dict K)) = .ok [(key "n_obs", .int 0)] := by
  unfold metricTemplate
  rw [if_pos (by decide)]
  rfl

/-- the table of one metric: found for all pairs -/
theorem writes_ok (P : List (Name × Name)) (hn : (P.map Prod.fst).Nodup) (hf : ∀ e ∈ P, Free sepAnd e.1) (ms : List String)
    (tables : List (String × List (Name × Option K))) (v : String → Name → Name → Option K)
    (ht : List.Forall₂ (fun m t => t.1 = m ∧ ∀ p ∈ pairsOf (P.map Prod.fst), t.2.lookup (pyJoin sepAnd [p.1, p.2]) = some (v m p.1 p.2)) ms tables)
    (q : Q) (hq : q ∈ pairsOf P) :
    tdsWrites (makeLut (P.map Prod.snd) (P.map Prod.fst)) tables (pyJoin sepAnd [q.1.1, q.2.1]) =
      .ok (ms.map (fun m => (resultName m q.1.2 q.2.2, .num (v m q.1.1 q.2.1)))) := by
  have hP := mem_of_pairsOf P q hq
  have hpq : (q.1.1, q.2.1) ∈ pairsOf (P.map Prod.fst) := by
    rw [pairsOf_map]
    exact List.mem_map.mpr ⟨q, hq, rfl⟩
  have hv : tables.mapM (tableGet (pyJoin sepAnd [q.1.1, q.2.1])) = .ok (ms.map (fun m => (m, v m q.1.1 q.2.1))) := by
    clear hn hf hP hq
    induction ht with
    | nil => rfl
    | cons h _ ih =>
      rw [List.mapM_cons, ih]
      unfold tableGet
      rw [h.2 _ hpq, h.1]
      rfl
  unfold tdsWrites
  rw [hv, pairKey_ok P hn hf q.1 q.2 hP.1 hP.2]
  show Except.ok _ = Except.ok _
  rw [List.map_map]
  rfl

theorem tables_ok (F : NamedFuncs K) (f scaled : Frame K) (hn : f.cols.Nodup) (hf : ∀ c ∈ f.cols, Free sepAnd c) (hsc : scaled.cols = f.cols)
    (v : String → Name → Name → Option K) (ms : List String)
    (hv : ∀ m ∈ ms, m ≠ "urmsd" → ∀ a ∈ f.cols, ∀ b ∈ f.cols, a ≠ b → F.metric m (colOf f a) (colOf f b) = .ok (v m a b))
    (hu : ∀ a ∈ f.cols, ∀ b ∈ f.cols, a ≠ b → F.metric "urmsd" (colOf scaled a) (colOf scaled b) = .ok (v "urmsd" a b)) :
    ∃ tables, ms.mapM (namedTable F f scaled) = .ok tables ∧
      List.Forall₂ (fun m t => t.1 = m ∧ ∀ p ∈ pairsOf f.cols, t.2.lookup (pyJoin sepAnd [p.1, p.2]) = some (v m p.1 p.2)) ms tables := by
  induction ms with
  | nil => exact ⟨[], rfl, .nil⟩
  | cons m ms ih =>
    obtain ⟨ts, h1, h2⟩ := ih (fun m' hm' => hv m' (List.mem_cons_of_mem _ hm'))
    have ht : ∃ t, pairTable F m (if m = "urmsd" then scaled else f) = .ok t ∧
        ∀ p ∈ pairsOf f.cols, t.lookup (pyJoin sepAnd [p.1, p.2]) = some (v m p.1 p.2) := by
      by_cases hm : m = "urmsd"
      · rw [if_pos hm]
        obtain ⟨t, e1, e2⟩ := pairTable_ok F m scaled (hsc ▸ hn) (hsc ▸ hf) (v m) (by
          intro a ha b hb hab
          unfold pairValue
          rw [column_colOf scaled a ha, column_colOf scaled b hb]
          rw [hm]
          exact hu a (hsc ▸ ha) b (hsc ▸ hb) hab)
        exact ⟨t, e1, hsc ▸ e2⟩
      · rw [if_neg hm]
        exact pairTable_ok F m f hn hf (v m) (by
          intro a ha b hb hab
          unfold pairValue
          rw [column_colOf f a ha, column_colOf f b hb]
          exact hv m (by simp) hm a ha b hb hab)
    obtain ⟨t, t1, t2⟩ := ht
    refine ⟨(m, t) :: ts, ?_, .cons ⟨rfl, t2⟩ h2⟩
    rw [List.mapM_cons, h1]
    unfold namedTable
    rw [t1]
    rfl

theorem interTemplate_eq (P : List (Name × Name)) (hn : (P.map Prod.fst).Nodup) (hf : ∀ e ∈ P, Free sepAnd e.1) (ref : Name) (nonref calcRho calcTau : Bool)
    (mt : Option (Dict K)) (hfields : NamedFields (mt.getD [])) :
    interTemplate (P.map Prod.snd) (P.map Prod.fst) ref nonref calcRho calcTau mt =
      .ok (update (metadataTemplate mt) ((key "n_obs", .int 0) :: qEntries (storedPairs P ref nonref) tdsMetrics (fun _ _ => none))) := by
  unfold interTemplate
  rw [nobs_template, keys_ok P hn hf]
  simp only [bind, Except.bind]
  rw [pairEntries_eq, popUnused_id]
  · rfl
  · intro k hk hm
    rw [mem_keys_update, keys_metadataTemplate] at hm
    have hres : ∀ k ∈ ["rho", "p_rho", "tau", "p_tau"].map key, k ∉ reserved ∧ k ≠ key "n_obs" ∧ k ∈ ["n_obs", "rho", "p_rho", "tau", "p_tau"].map key := by decide
    rcases hm with (h | h) | h
    · exact (hres k hk).1 h
    · exact (hfields.fresh k h).2.1 (hres k hk).2.2
    · rw [List.map_append, List.mem_append] at h
      rcases h with h | h
      · simp only [List.map_cons, List.map_nil, List.mem_singleton] at h
        exact (hres k hk).2.1 h
      · rw [qEntries_keys] at h
        obtain ⟨q, _, h2⟩ := List.mem_flatMap.mp h
        obtain ⟨m, _, rfl⟩ := List.mem_map.mp h2
        simp only [List.map_cons, List.map_nil, List.mem_cons, List.not_mem_nil, or_false] at hk
        rcases hk with h | h | h | h
        · exact resultName_long _ _ _ "rho" (by decide) h
        · exact resultName_long _ _ _ "p_rho" (by decide) h
        · exact resultName_long _ _ _ "tau" (by decide) h
        · exact resultName_long _ _ _ "p_tau" (by decide) h

theorem between_infix (m : String) (a b : Name) : "_between_".toList <:+: m.toList ++ "_between_".toList ++ (a ++ "_and_".toList ++ b) :=
  ⟨m.toList, _, rfl⟩

theorem entries_fresh (qs : List Q) (val : String → Q → Option K) (n : ℤ) :
    ∀ k ∈ (((key "n_obs", .int n) :: qEntries qs tdsMetrics val : Dict K)).map Prod.fst, k ∉ reserved := by
  intro k hk
  rw [List.map_cons] at hk
  rcases List.mem_cons.mp hk with rfl | hk
  · show key "n_obs" ∉ reserved
    decide
  · rw [qEntries_keys] at hk
    obtain ⟨q, _, h2⟩ := List.mem_flatMap.mp hk
    obtain ⟨m, _, rfl⟩ := List.mem_map.mp h2
    simp only [reserved, List.mem_cons, List.not_mem_nil, or_false, not_or]
    exact ⟨resultName_long _ _ _ "gpi" (by decide), resultName_long _ _ _ "lon" (by decide), resultName_long _ _ _ "lat" (by decide),
      resultName_long _ _ _ "status" (by decide)⟩

theorem entries_fields (fields : Dict K) (hfields : NamedFields fields) (qs : List Q) (val : String → Q → Option K) (n : ℤ) :
    FieldsOk fields ((((key "n_obs", .int n) :: qEntries qs tdsMetrics val : Dict K)).map Prod.fst) := by
  refine ⟨hfields.nodup, fun k hk => ⟨(hfields.fresh k hk).1, ?_⟩⟩
  rw [List.map_cons]
  intro hm
  rcases List.mem_cons.mp hm with rfl | hm
  · exact (hfields.fresh _ hk).2.1 (by simp)
  · rw [qEntries_keys] at hm
    obtain ⟨q, _, h2⟩ := List.mem_flatMap.mp hm
    obtain ⟨m, _, rfl⟩ := List.mem_map.mp h2
    exact (hfields.fresh _ hk).2.2 _ rfl (between_infix m _ _)

theorem entries_nodup (P : List (Name × Name)) (hn : (P.map Prod.fst).Nodup) (hd : (P.map Prod.snd).Nodup) (hfd : ∀ e ∈ P, Free sepAnd e.2) (ref : Name) (nonref : Bool)
    (val : String → Q → Option K) (n : ℤ) :
    ((((key "n_obs", .int n) :: qEntries (storedPairs P ref nonref) tdsMetrics val : Dict K)).map Prod.fst).Nodup := by
  have hPn : P.Nodup := List.Nodup.of_map _ hn
  rw [List.map_cons, List.nodup_cons]
  refine ⟨?_, qEntries_nodup P hd hfd _ ((pairsOf_nodup P hPn).filter _) (storedPairs_sub P ref nonref) _ metrics_nodup (fun _ h => h) _⟩
  rw [qEntries_keys]
  intro h
  obtain ⟨q, _, h2⟩ := List.mem_flatMap.mp h
  obtain ⟨m, _, h3⟩ := List.mem_map.mp h2
  exact resultName_long _ _ _ "n_obs" (by decide) h3

/-- the result for pairs of column and name -/
theorem inter_reports (F : NamedFuncs K) (P : List (Name × Name)) (hn : (P.map Prod.fst).Nodup) (hd : (P.map Prod.snd).Nodup)
    (hf : ∀ e ∈ P, Free sepAnd e.1) (hfd : ∀ e ∈ P, Free sepAnd e.2) (ref : Name) (nonref calcRho calcTau : Bool) (minObs : ℕ) (mt : Option (Dict K))
    (hfields : NamedFields (mt.getD [])) (data : Frame K) (info : Info K) (hp : Provides info (mt.getD [])) (hcols : ∀ e ∈ P, e.1 ∈ data.cols)
    (hlen : minObs ≤ data.rows.length) (scaled : Frame K) (hs : F.scale (restrict data (P.map Prod.fst)) = .ok scaled) (hsc : scaled.cols = P.map Prod.fst)
    (v : String → Name → Name → Option K)
    (hv : ∀ m ∈ writtenMetrics calcRho calcTau, m ≠ "urmsd" → ∀ a ∈ P.map Prod.fst, ∀ b ∈ P.map Prod.fst, a ≠ b → F.metric m (colOf data a) (colOf data b) = .ok (v m a b))
    (hu : ∀ a ∈ P.map Prod.fst, ∀ b ∈ P.map Prod.fst, a ≠ b → F.metric "urmsd" (colOf scaled a) (colOf scaled b) = .ok (v "urmsd" a b)) :
    ∃ T d, interTemplate (P.map Prod.snd) (P.map Prod.fst) ref nonref calcRho calcTau mt = .ok T ∧
      interCalc F (P.map Prod.snd) (P.map Prod.fst) ref nonref calcRho calcTau minObs T mt data info = .ok d ∧
      Reports (mt.getD []) info (.int 0) ((key "n_obs", .int data.rows.length) :: qEntries (storedPairs P ref nonref) tdsMetrics
        (fun m q => if calculated calcRho calcTau m then v m q.1.1 q.2.1 else none)) d := by
  set t : Dict K := (key "n_obs", .int 0) :: qEntries (storedPairs P ref nonref) tdsMetrics (fun _ _ => none) with htdef
  have hnd : (t.map Prod.fst).Nodup := entries_nodup P hn hd hfd ref nonref _ _
  have hfr : ∀ k ∈ t.map Prod.fst, k ∉ reserved := entries_fresh _ _ _
  have hfo : FieldsOk (mt.getD []) (t.map Prod.fst) := entries_fields _ hfields _ _ _
  obtain ⟨d0, m1, m2⟩ := metadataCalc_ok mt t hnd hfr hfo info hp
  set f := restrict data (P.map Prod.fst) with hfdef
  have hfc : f.cols = P.map Prod.fst := rfl
  obtain ⟨tables, tb1, tb2⟩ := tables_ok F f scaled (hfc ▸ hn) (by
      rw [hfc]
      intro c hc
      obtain ⟨e, he, rfl⟩ := List.mem_map.mp hc
      exact hf e he) (hsc.trans hfc.symm) v (writtenMetrics calcRho calcTau)
    (by
      rw [hfc]
      intro m hm hne a ha b hb hab
      rw [hfdef, colOf_restrict _ _ a ha, colOf_restrict _ _ b hb]
      exact hv m hm hne a ha b hb hab)
    (by rw [hfc]; exact hu)
  rw [hfc] at tb2
  -- the assignments
  set W := (storedPairs P ref nonref).map (fun q => (writtenMetrics calcRho calcTau).map (fun m => (resultName m q.1.2 q.2.2, Val.num (v m q.1.1 q.2.1)))) with hW
  have hws : (tdsNames (P.map Prod.fst) ref nonref).mapM (tdsWrites (makeLut (P.map Prod.snd) (P.map Prod.fst)) tables) = .ok W := by
    rw [tdsNames_stored, hW]
    have hsub := storedPairs_sub P ref nonref
    generalize storedPairs P ref nonref = qs at hsub
    clear htdef hnd hfr hfo m2 hW
    clear * - hsub tb2 hn hf
    induction qs with
    | nil => rfl
    | cons q qs ih =>
      rw [List.map_cons, List.mapM_cons, writes_ok P hn hf _ tables v tb2 q (hsub q (by simp)), ih (fun q' hq' => hsub q' (List.mem_cons_of_mem _ hq'))]
      rfl
  have hWf : W.flatten = qEntries (storedPairs P ref nonref) (writtenMetrics calcRho calcTau) (fun m q => v m q.1.1 q.2.1) := by
    rw [hW, qEntries, List.flatMap_def]
  have hPn : P.Nodup := List.Nodup.of_map _ hn
  have hWn : (W.flatten.map Prod.fst).Nodup := by
    rw [hWf]
    exact qEntries_nodup P hd hfd _ ((pairsOf_nodup P hPn).filter _) (storedPairs_sub P ref nonref) _ (written_metrics_nodup _ _) (written_sub _ _) _
  have hsame : (((key "n_obs", .int data.rows.length) :: qEntries (storedPairs P ref nonref) tdsMetrics
        (fun m q => if calculated calcRho calcTau m then v m q.1.1 q.2.1 else none) : Dict K)).map Prod.fst = t.map Prod.fst := by
    rw [htdef, List.map_cons, List.map_cons, qEntries_keys, qEntries_keys]
  have hfrE := hsame ▸ hfr
  have hWkeys : ∀ w ∈ W.flatten, w.1 ∈ t.map Prod.fst ∧ w.1 ≠ key "n_obs" := by
    intro w hw
    rw [hWf, mem_qEntries] at hw
    obtain ⟨q, hq, m, hm, rfl⟩ := hw
    refine ⟨?_, resultName_long _ _ _ "n_obs" (by decide)⟩
    rw [htdef, List.map_cons, qEntries_keys]
    exact List.mem_cons_of_mem _ (List.mem_flatMap.mpr ⟨q, hq, List.mem_map.mpr ⟨m, written_sub _ _ m hm, rfl⟩⟩)
  obtain ⟨d, e1, e2⟩ := setAll_reports _ info _ t hfr hfo d0 m2
    (ws := [(key "n_obs", .int data.rows.length)] ++ (W.flatten ++ [(key "status", .int ok)])) (s' := .int 0)
    (vals := (key "n_obs", .int data.rows.length) :: qEntries (storedPairs P ref nonref) tdsMetrics
        (fun m q => if calculated calcRho calcTau m then v m q.1.1 q.2.1 else none))
    (by
      intro w hw
      rcases List.mem_append.mp hw with h | h
      · right; rw [List.mem_singleton] at h; subst h; rw [htdef]; simp
      · rcases List.mem_append.mp h with h | h
        · exact Or.inr (hWkeys w h).1
        · left; rw [List.mem_singleton] at h; rw [h])
    (by rw [List.reverse_append, List.reverse_append]; rfl)
    hsame
    (by
      intro e he
      have hes : e.1 ≠ key "status" := by
        intro h
        apply hfrE e.1 (List.mem_map.mpr ⟨e, he, rfl⟩)
        rw [h]; decide
      have hb : (e.1 == key "status") = false := by simpa using hes
      rw [List.reverse_append, List.reverse_append, List.reverse_singleton, List.reverse_singleton, List.singleton_append, List.cons_append,
        List.lookup_cons, hb, lookup_append, lookup_reverse _ hWn]
      simp only
      rcases List.mem_cons.mp he with rfl | hq
      · have : W.flatten.lookup (key "n_obs") = none := by
          rw [lookup_none_iff]
          intro h
          obtain ⟨w, hw, hwk⟩ := List.mem_map.mp h
          exact (hWkeys w hw).2 hwk
        rw [this]
        rfl
      · obtain ⟨q, hq1, m, hm1, rfl⟩ := (mem_qEntries _ _ _ _).mp hq
        by_cases hc : m ∈ writtenMetrics calcRho calcTau
        · have hmem : (resultName m q.1.2 q.2.2, Val.num (v m q.1.1 q.2.1)) ∈ W.flatten := by
            rw [hWf, mem_qEntries]; exact ⟨q, hq1, m, hc, rfl⟩
          rw [lookup_of_nodup _ hWn _ hmem]
          simp only [(written_calculated _ _ m hm1).mp hc, if_true]
          rfl
        · have hnc : calculated calcRho calcTau m = false := by
            rw [written_calculated _ _ m hm1] at hc
            simpa using hc
          have hno : W.flatten.lookup (resultName m q.1.2 q.2.2) = none := by
            rw [lookup_none_iff]
            intro h
            obtain ⟨w, hw, hwk⟩ := List.mem_map.mp h
            rw [hWf, mem_qEntries] at hw
            obtain ⟨q', hq', m', hm', rfl⟩ := hw
            have := (resultName_injective m' m (written_sub _ _ m' hm') hm1 _ _ _ _
              (hfd _ (mem_of_pairsOf P q' (storedPairs_sub _ _ _ q' hq')).1) (hfd _ (mem_of_pairsOf P q (storedPairs_sub _ _ _ q hq1)).1) hwk).1
            exact hc (this ▸ hm')
          have hn1 : ([(key "n_obs", Val.int (data.rows.length : ℤ))] : Dict K).lookup (resultName m q.1.2 q.2.2) = none := by
            rw [lookup_none_iff]
            simp only [List.map_cons, List.map_nil, List.mem_singleton]
            exact resultName_long _ _ _ "n_obs" (by decide)
          rw [hno, hn1]
          have htm : (resultName m q.1.2 q.2.2, (Val.num none : Val K)) ∈ t := by
            rw [htdef]
            exact List.mem_cons_of_mem _ ((mem_qEntries _ _ _ _).mpr ⟨q, hq1, m, hm1, rfl⟩)
          rw [lookup_of_nodup t hnd _ htm]
          simp only [hnc, Bool.false_eq_true, if_false]
          rfl)
  refine ⟨_, d, interTemplate_eq P hn hf ref nonref calcRho calcTau mt hfields, ?_, e2⟩
  unfold interCalc
  rw [m1]
  show (set d0 _).bind _ = _
  rw [setAll_append, setAll_one] at e1
  obtain ⟨d1, e3⟩ : ∃ d1, set d0 (key "n_obs", .int data.rows.length) = .ok d1 := by
    cases h : set d0 (key "n_obs", .int data.rows.length) with
    | ok d1 => exact ⟨d1, rfl⟩
    | error e => rw [h] at e1; exact absurd e1 (by simp [Except.bind])
  rw [e3] at e1 ⊢
  show (if data.rows.length < minObs then _ else _) = _
  rw [if_neg (by omega), selectCols_ok data _ (by
    intro c hc
    obtain ⟨e, he, rfl⟩ := List.mem_map.mp hc
    exact hcols e he)]
  show (pairTables F calcRho calcTau f).bind _ = _
  unfold pairTables
  rw [hs]
  show ((writtenMetrics calcRho calcTau).mapM (namedTable F f scaled)).bind _ = _
  rw [tb1]
  show ((tdsNames (P.map Prod.fst) ref nonref).mapM (tdsWrites (makeLut (P.map Prod.snd) (P.map Prod.fst)) tables)).bind _ = _
  rw [hws]
  show (setAll d1 W.flatten).bind _ = _
  have e4 : (setAll d1 (W.flatten ++ [(key "status", .int ok)])) = .ok d := e1
  rw [setAll_append] at e4
  rw [← e4]
  congr 1
  funext d'
  rw [setAll_one]

theorem mem_storedPairs (cols ds : List Name) (hn : cols.Nodup) (hl : ds.length = cols.length) (ref : Name) (href : cols.head? = some ref) (hne : ref ≠ [])
    (nonref : Bool) (q : Q) : q ∈ storedPairs (cols.zip ds) ref nonref ↔ ∃ i j : ℕ, i < j ∧ (nonref = true ∨ i = 0) ∧ cols[i]? = some q.1.1 ∧
      cols[j]? = some q.2.1 ∧ ds[i]? = some q.1.2 ∧ ds[j]? = some q.2.2 := by
  obtain ⟨tl, rfl⟩ : ∃ tl, cols = ref :: tl := by
    cases cols with
    | nil => simp at href
    | cons a l => simp only [List.head?_cons, Option.some.injEq] at href; exact ⟨l, by rw [href]⟩
  have hzero : ∀ (i : ℕ), (ref :: tl)[i]? = some ref ↔ i = 0 := by
    intro i
    constructor
    · intro h
      match i with
      | 0 => rfl
      | i + 1 =>
        simp only [List.getElem?_cons_succ] at h
        exact absurd (List.mem_of_getElem? h) (List.nodup_cons.mp hn).1
    · rintro rfl; rfl
  have hz : ∀ (i : ℕ) (a : Name × Name), ((ref :: tl).zip ds)[i]? = some a ↔ (ref :: tl)[i]? = some a.1 ∧ ds[i]? = some a.2 := by
    intro i a
    rw [List.getElem?_zip_eq_some]
  simp only [storedPairs, List.mem_filter, mem_pairsOf, hz, Bool.or_eq_true, decide_eq_true_eq, hne, or_false]
  constructor
  · rintro ⟨⟨i, j, hij, ⟨h1, h2⟩, h3, h4⟩, hc⟩
    refine ⟨i, j, hij, ?_, h1, h3, h2, h4⟩
    rcases hc with (h | h) | h
    · exact Or.inl h
    · right; rw [h] at h1; exact (hzero i).mp h1
    · rw [h] at h3
      have := (hzero j).mp h3
      omega
  · rintro ⟨i, j, hij, hc, h1, h3, h2, h4⟩
    refine ⟨⟨i, j, hij, ⟨h1, h2⟩, h3, h4⟩, ?_⟩
    rcases hc with h | h
    · exact Or.inl (Or.inl h)
    · left; right
      subst h
      simpa using h1.symm

/-- **C57.** The result of `IntercomparisonMetrics`: for the reference and every other data set (and for all pairs if asked for), the entry
`metric_between_x_and_y` is the metric of the two columns belonging to `x` and `y`; `urmsd` is calculated after scaling; rho and tau are missing if they are
not asked for. There is nothing else in the result. The order of the columns in the data does not matter. -/
theorem inter_result_partial (F : NamedFuncs K) (ref : Name) (others ds : List Name) (hn : (ref :: others).Nodup) (hf : ∀ c ∈ ref :: others, Free sepAnd c)
    (href : ref ≠ []) (hd : ds.Nodup) (hfd : ∀ n ∈ ds, Free sepAnd n) (hl : ds.length = (ref :: others).length) (nonref calcRho calcTau : Bool) (minObs : ℕ)
    (mt : Option (Dict K)) (hfields : NamedFields (mt.getD [])) (data : Frame K) (info : Info K) (hp : Provides info (mt.getD []))
    (hcols : ∀ c ∈ ref :: others, c ∈ data.cols) (hlen : minObs ≤ data.rows.length) (scaled : Frame K)
    (hs : F.scale (restrict data (ref :: others)) = .ok scaled) (hsc : scaled.cols = ref :: others) (v : String → Name → Name → Option K)
    (hv : ∀ m ∈ tdsMetrics, m ≠ "urmsd" → calculated calcRho calcTau m = true → ∀ a ∈ ref :: others, ∀ b ∈ ref :: others, a ≠ b →
      F.metric m (colOf data a) (colOf data b) = .ok (v m a b))
    (hu : ∀ a ∈ ref :: others, ∀ b ∈ ref :: others, a ≠ b → F.metric "urmsd" (colOf scaled a) (colOf scaled b) = .ok (v "urmsd" a b)) :
    ∃ T d E, interTemplate ds (ref :: others) ref nonref calcRho calcTau mt = .ok T ∧
      interCalc F ds (ref :: others) ref nonref calcRho calcTau minObs T mt data info = .ok d ∧ Reports (mt.getD []) info (.int 0) E d ∧
      ∀ e, e ∈ E ↔ e = (key "n_obs", .int data.rows.length) ∨ ∃ (i j : ℕ) (a b x y : Name) (m : String), i < j ∧ (nonref = true ∨ i = 0) ∧
        (ref :: others)[i]? = some a ∧ (ref :: others)[j]? = some b ∧ ds[i]? = some x ∧ ds[j]? = some y ∧ m ∈ tdsMetrics ∧
        e = (resultName m x y, .num (if calculated calcRho calcTau m then v m a b else none)) := by
  set P := (ref :: others).zip ds with hP
  have h1 : P.map Prod.fst = ref :: others := List.map_fst_zip (by omega)
  have h2 : P.map Prod.snd = ds := List.map_snd_zip (by omega)
  have hm1 : ∀ e ∈ P, e.1 ∈ ref :: others := fun e he => h1 ▸ List.mem_map.mpr ⟨e, he, rfl⟩
  have hm2 : ∀ e ∈ P, e.2 ∈ ds := fun e he => h2 ▸ List.mem_map.mpr ⟨e, he, rfl⟩
  obtain ⟨T, d, t1, t2, t3⟩ := inter_reports F P (h1 ▸ hn) (h2 ▸ hd) (fun e he => hf _ (hm1 e he)) (fun e he => hfd _ (hm2 e he)) ref nonref calcRho calcTau
    minObs mt hfields data info hp (fun e he => hcols _ (hm1 e he)) hlen scaled (by rw [h1]; exact hs) (by rw [h1]; exact hsc) v
    (by
      rw [h1]
      intro m hm hne
      exact hv m (written_sub _ _ m hm) hne ((written_calculated _ _ m (written_sub _ _ m hm)).mp hm))
    (by rw [h1]; exact hu)
  rw [h1, h2] at t1 t2
  refine ⟨T, d, _, t1, t2, t3, ?_⟩
  intro e
  rw [List.mem_cons, mem_qEntries]
  constructor
  · rintro (h | ⟨q, hq, m, hm, rfl⟩)
    · exact Or.inl h
    · obtain ⟨i, j, hij, hc, g1, g2, g3, g4⟩ := (mem_storedPairs (ref :: others) ds hn hl ref rfl href nonref q).mp hq
      exact Or.inr ⟨i, j, _, _, _, _, m, hij, hc, g1, g2, g3, g4, hm, rfl⟩
  · rintro (h | ⟨i, j, a, b, x, y, m, hij, hc, g1, g2, g3, g4, hm, rfl⟩)
    · exact Or.inl h
    · exact Or.inr ⟨((a, x), (b, y)), (mem_storedPairs (ref :: others) ds hn hl ref rfl href nonref _).mpr ⟨i, j, hij, hc, g1, g2, g3, g4⟩, m, hm, rfl⟩

/-- **C54.** Too little data for `IntercomparisonMetrics`: the number of rows is stored, all metrics are missing. -/
theorem inter_insufficient (F : NamedFuncs K) (ref : Name) (others ds : List Name) (hn : (ref :: others).Nodup) (hf : ∀ c ∈ ref :: others, Free sepAnd c)
    (href : ref ≠ []) (hd : ds.Nodup) (hfd : ∀ n ∈ ds, Free sepAnd n) (hl : ds.length = (ref :: others).length) (nonref calcRho calcTau : Bool) (minObs : ℕ)
    (mt : Option (Dict K)) (hfields : NamedFields (mt.getD [])) (data : Frame K) (info : Info K) (hp : Provides info (mt.getD []))
    (hlen : data.rows.length < minObs) :
    ∃ T d E, interTemplate ds (ref :: others) ref nonref calcRho calcTau mt = .ok T ∧
      interCalc F ds (ref :: others) ref nonref calcRho calcTau minObs T mt data info = .ok d ∧ Reports (mt.getD []) info (.int 1) E d ∧
      ∀ e, e ∈ E ↔ e = (key "n_obs", .int data.rows.length) ∨ ∃ (i j : ℕ) (x y : Name) (m : String), i < j ∧ (nonref = true ∨ i = 0) ∧
        ds[i]? = some x ∧ ds[j]? = some y ∧ m ∈ tdsMetrics ∧ e = (resultName m x y, .num none) := by
  set P := (ref :: others).zip ds with hP
  have h1 : P.map Prod.fst = ref :: others := List.map_fst_zip (by omega)
  have h2 : P.map Prod.snd = ds := List.map_snd_zip (by omega)
  have hm1 : ∀ e ∈ P, e.1 ∈ ref :: others := fun e he => h1 ▸ List.mem_map.mpr ⟨e, he, rfl⟩
  have hm2 : ∀ e ∈ P, e.2 ∈ ds := fun e he => h2 ▸ List.mem_map.mpr ⟨e, he, rfl⟩
  have hnd := entries_nodup (K := K) P (h1 ▸ hn) (h2 ▸ hd) (fun e he => hfd _ (hm2 e he)) ref nonref (fun _ _ => none) 0
  have hfr := entries_fresh (K := K) (storedPairs P ref nonref) (fun _ _ => none) 0
  have hfo := entries_fields (mt.getD []) hfields (storedPairs P ref nonref) (fun _ _ => none) 0
  have hT := interTemplate_eq P (h1 ▸ hn) (fun e he => hf _ (hm1 e he)) ref nonref calcRho calcTau mt hfields
  rw [h1, h2] at hT
  set t : Dict K := (key "n_obs", .int 0) :: qEntries (storedPairs P ref nonref) tdsMetrics (fun _ _ => none) with htdef
  obtain ⟨d0, m1, m2⟩ := metadataCalc_ok mt t hnd hfr hfo info hp
  have hsame : (((key "n_obs", .int data.rows.length) :: qEntries (storedPairs P ref nonref) tdsMetrics (fun _ _ => none) : Dict K)).map Prod.fst = t.map Prod.fst := rfl
  obtain ⟨d, e1, e2⟩ := setAll_reports _ info _ t hfr hfo d0 m2
    (ws := [(key "n_obs", .int data.rows.length)] ++ [(key "status", .int insufficientData)]) (s' := .int 1)
    (vals := (key "n_obs", .int data.rows.length) :: qEntries (storedPairs P ref nonref) tdsMetrics (fun _ _ => none))
    (by
      intro w hw
      rcases List.mem_append.mp hw with h | h
      · right; rw [List.mem_singleton] at h; subst h; rw [htdef]; simp
      · left; rw [List.mem_singleton] at h; rw [h])
    rfl hsame
    (by
      intro e he
      rcases List.mem_cons.mp he with rfl | hq
      · rfl
      · have hmem : e ∈ t := List.mem_cons_of_mem _ hq
        obtain ⟨q, hq1, m, hm1', rfl⟩ := (mem_qEntries _ _ _ _).mp hq
        have : List.lookup (resultName m q.1.2 q.2.2) ([(key "n_obs", Val.int (data.rows.length : ℤ))] ++ [(key "status", Val.int insufficientData)]).reverse =
            (none : Option (Val K)) := by
          rw [lookup_none_iff]
          simp only [List.singleton_append, List.reverse_cons, List.reverse_nil, List.nil_append, List.map_cons, List.map_nil, List.mem_cons,
            List.not_mem_nil, or_false, not_or]
          exact ⟨resultName_long _ _ _ "status" (by decide), resultName_long _ _ _ "n_obs" (by decide)⟩
        rw [this, Option.none_or]
        exact lookup_of_nodup t hnd _ hmem)
  refine ⟨_, d, _, hT, ?_, e2, ?_⟩
  · unfold interCalc
    rw [m1]
    show (set d0 _).bind _ = _
    rw [setAll_append, setAll_one] at e1
    rw [← e1]
    congr 1
    funext d'
    rw [setAll_one, if_pos hlen]
  · intro e
    rw [List.mem_cons, mem_qEntries]
    constructor
    · rintro (h | ⟨q, hq, m, hm, rfl⟩)
      · exact Or.inl h
      · obtain ⟨i, j, hij, hc, g1, g2, g3, g4⟩ := (mem_storedPairs (ref :: others) ds hn hl ref rfl href nonref q).mp hq
        exact Or.inr ⟨i, j, _, _, m, hij, hc, g3, g4, hm, rfl⟩
    · rintro (h | ⟨i, j, x, y, m, hij, hc, g3, g4, hm, rfl⟩)
      · exact Or.inl h
      · have hlt : ∀ (k : ℕ) (z : Name), ds[k]? = some z → ∃ c, (ref :: others)[k]? = some c := by
          intro k z hz
          have : k < ds.length := by
            rcases Nat.lt_or_ge k ds.length with h | h
            · exact h
            · rw [List.getElem?_eq_none h] at hz; exact absurd hz (by simp)
          exact ⟨_, List.getElem?_eq_getElem (by omega)⟩
        obtain ⟨a, ga⟩ := hlt i x g3
        obtain ⟨b, gb⟩ := hlt j y g4
        exact Or.inr ⟨((a, x), (b, y)), (mem_storedPairs (ref :: others) ds hn hl ref rfl href nonref _).mpr ⟨i, j, hij, hc, ga, gb, g3, g4⟩, m, hm, rfl⟩

/-- **C57.** A column that is not in the data is an error. -/
theorem inter_missing_column (F : NamedFuncs K) (ds cols : List Name) (ref : Name) (nonref calcRho calcTau : Bool) (minObs : ℕ) (T : Dict K)
    (mt : Option (Dict K)) (data : Frame K) (info : Info K) (hlen : minObs ≤ data.rows.length) (c : Name) (hc : c ∈ cols) (hm : c ∉ data.cols) :
    ∃ e, interCalc F ds cols ref nonref calcRho calcTau minObs T mt data info = .error e := by
  unfold interCalc
  cases h1 : metadataCalc T mt info with
  | error e => exact ⟨e, rfl⟩
  | ok d0 =>
    show ∃ e, (set d0 _).bind _ = _
    cases h2 : set d0 (key "n_obs", .int data.rows.length) with
    | error e => exact ⟨e, rfl⟩
    | ok d1 =>
      refine ⟨.keyError, ?_⟩
      show (if data.rows.length < minObs then _ else _) = _
      rw [if_neg (by omega)]
      unfold selectCols
      rw [if_neg (by
        simp only [List.all_eq_true, decide_eq_true_eq, not_forall]
        exact ⟨c, hc, hm⟩)]
      rfl

/-- **C57, negation.** With a column name that contains `_and_`, the calculator cannot be created: the joined names are split at the wrong place. -/
theorem inter_and_in_name : (interTemplate (K := ℚ) ["ref".toList, "wet_and_dry".toList] ["ref".toList, "wet_and_dry".toList] "ref".toList false true true none).toOption = none := by
  decide +kernel

/-- **C57, negation.** Without Kendall's tau, the entries are in the result nevertheless. -/
theorem inter_tau_stays : ((interTemplate (K := ℚ) ["ref".toList, "k1".toList] ["ref".toList, "k1".toList] "ref".toList false true false none).toOption.map
    (fun T => decide (resultName "tau" "ref".toList "k1".toList ∈ T.map Prod.fst))) = some true := by decide +kernel

/-- non-trivial instance: three columns in another order, names of the data sets given -/
def interFrame : Frame ℚ where
  cols := ["k2".toList, "ref".toList, "k1".toList]
  rows := [(1, [some 1, some 2, some 3]), (2, [some 4, some 5, none])]

/-- stand-in: the first value of the first and the sum of the second column, scaled by the metric's name -/
def interFuncs : NamedFuncs ℚ where
  metric := fun m x y => .ok (some ((m.length : ℚ) + (x.filterMap id).sum * 10 + (y.filterMap id).sum * 100))
  scale := fun f => .ok f
  tc := fun _ _ _ _ => .error .valueError

/-- template and calculation -/
def interRun : Except Err (Dict ℚ) := do
  let T ← interTemplate ["ISMN".toList, "A".toList, "B".toList] ["ref".toList, "k1".toList, "k2".toList] "ref".toList false true false none
  interCalc interFuncs ["ISMN".toList, "A".toList, "B".toList] ["ref".toList, "k1".toList, "k2".toList] "ref".toList false true false 2 T none interFrame
    ⟨3, 10, 50, none⟩

example : interRun.toOption.map (fun d => (d.lookup (resultName "R" "ISMN".toList "B".toList), d.lookup (resultName "urmsd" "ISMN".toList "A".toList),
      d.lookup (resultName "R" "A".toList "B".toList), d.lookup (key "n_obs"), d.length)) =
    some (some (.num (some (1 + 70 + 500))), some (.num (some (5 + 70 + 300))), none, some (.int 2), 4 + 1 + 28) := by decide +kernel

/-- the theorems applied to the frame above -/
example := inter_result_partial interFuncs "ref".toList ["k1".toList, "k2".toList] ["ISMN".toList, "A".toList, "B".toList] (by decide) (by decide) (by decide) (by decide)
  (by decide) rfl false true false 2 none ⟨by simp, by simp⟩ interFrame ⟨3, 10, 50, none⟩ (.inl rfl) (by decide) (by decide)
  (restrict interFrame ["ref".toList, "k1".toList, "k2".toList]) rfl rfl
  (fun m a b => some ((m.length : ℚ) + ((colOf interFrame a).filterMap id).sum * 10 + ((colOf interFrame b).filterMap id).sum * 100))
  (fun m _ _ _ a _ b _ _ => rfl)
  (by decide +kernel)
example := inter_insufficient interFuncs "ref".toList ["k1".toList, "k2".toList] ["ISMN".toList, "A".toList, "B".toList] (by decide) (by decide) (by decide)
  (by decide) (by decide) rfl false true false 3 none ⟨by simp, by simp⟩ interFrame ⟨3, 10, 50, none⟩ (.inl rfl) (by decide)
example := inter_missing_column interFuncs ["ISMN".toList, "A".toList] ["ref".toList, "k3".toList] "ref".toList false true false 2 [] none interFrame
  ⟨3, 10, 50, none⟩ (by decide) "k3".toList (by decide) (by decide)

end Verif.Calculators
