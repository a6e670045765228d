import Verif.Validation.Triple
import Verif.Validation.PairProps

/-! C97: a validation by triple collocation from the data as read to the result table. -/

set_option linter.unusedSectionVars false
set_option synthInstance.maxSize 1000

noncomputable section

namespace Verif.Validation

open DataManager (Col col Admissible)
open Calculators (Dict Val Tc)

section
variable (P : TripleJob)

open Classical in
/-- the value of a column at a time of the temporal reference -/
def seenValue (window : ℝ) (dfs : List (String × DF String ℝ ℝ)) (tref : String) (x : Col String) (t : ℝ) : ℝ :=
  if h : ∃ v, SeenAt window dfs tref t (ofLex x).1 (ofLex x).2 (some v) then h.choose else 0

theorem seenValue_spec {window : ℝ} {dfs : List (String × DF String ℝ ℝ)} {tref : String} {x : Col String} {t : ℝ}
    (h : ∃ v, SeenAt window dfs tref t (ofLex x).1 (ofLex x).2 (some v)) :
    SeenAt window dfs tref t (ofLex x).1 (ofLex x).2 (some (seenValue window dfs tref x t)) := by
  unfold seenValue
  rw [dif_pos h]
  exact h.choose_spec

/-- Matching and selection for all results of one location: the same times for all of them. -/
theorem triple_location (hP : P.Sound) (names : ℕ → List (Key String)) (hN : AreNames P.setup names) (info : Calculators.Info ℝ)
    (dfs : List (String × DF String ℝ ℝ)) (hg : P.getData info = .ok dfs) (hr : AllRead P.ds P.temporalRef dfs) :
    ∃ M, onlyColumns P.setup dfs = .ok (restricted P.ds dfs) ∧ dfs ≠ [] ∧
      oneMatcher P.hour P.window (restricted P.ds dfs) P.temporalRef P.ds.length 3 = .ok M ∧ M ≠ [] ∧
      firstFailure P.setup names info = none ∧
      ∀ key, key ∈ names 3 → ∃ times val, MatchedAll (P.window.getD P.hour) P.ds dfs P.temporalRef times val ∧
        dataForKey P.setup M key = .ok (framed times key (fun x t => some (val x t))) := by
  have hrn : ((restricted P.ds dfs).map Prod.fst).Nodup := by
    unfold restricted
    rw [List.map_map]
    exact hr.nodup
  have hlen : (restricted P.ds dfs).length = P.ds.length := by
    unfold restricted
    rw [List.length_map, allRead_length hP.ds hr]
  have hoc : onlyColumns P.setup dfs = .ok (restricted P.ds dfs) := onlyColumns_ok dfs (allRead_cols hP.ds hr)
  obtain ⟨e, he, htn⟩ := List.mem_map.mp hP.temporal
  obtain ⟨ref, href, -⟩ := hr.all e he
  rw [htn] at href
  have hdne : dfs ≠ [] := List.ne_nil_of_mem href
  have href' : (P.temporalRef, (⟨(P.ds.lookup P.temporalRef).getD [], ref.rows⟩ : DF String ℝ ℝ)) ∈ restricted P.ds dfs :=
    List.mem_map.mpr ⟨_, href, rfl⟩
  have hneed : ∀ d c, (∃ df, (d, df) ∈ restricted P.ds dfs ∧ c ∈ df.cols) ↔ ∃ cols, (d, cols) ∈ P.ds ∧ c ∈ cols := by
    intro d c
    constructor
    · rintro ⟨df, hdf, hc⟩
      obtain ⟨e, he, heq⟩ := List.mem_map.mp hdf
      obtain ⟨rfl, rfl⟩ := Prod.mk.inj heq
      obtain ⟨cols, h1, -⟩ := allRead_cols hP.ds hr e he
      simp only [h1, Option.getD_some] at hc
      exact ⟨cols, mem_of_lookup _ h1, hc⟩
    · rintro ⟨cols, h1, h2⟩
      obtain ⟨df, hd, -⟩ := hr.all _ h1
      refine ⟨_, List.mem_map.mpr ⟨_, hd, rfl⟩, ?_⟩
      simp only
      rw [lookup_of_mem P.ds hP.ds h1]
      exact h2
  obtain ⟨outc, hout⟩ := Matchers.combined_matcher_total P.hour P.window hP.window ((restricted P.ds dfs).map (fun e => (e.1, toM e.2)))
    (by rw [List.map_map]; exact hrn) P.temporalRef _ (List.mem_map.mpr ⟨_, href', rfl⟩) (some P.ds.length) (by
      intro x hx hxn
      obtain ⟨y, hy, rfl⟩ := List.mem_map.mp hx
      obtain ⟨z, hz, rfl⟩ := List.mem_map.mp hy
      left
      have := hr.sorted z hz hxn
      rw [List.pairwise_map] at this
      simp only [toM]
      rw [List.pairwise_map]
      exact this)
  set M := outc.map (fun e => (e.1, ofM e.2)) with hMdef
  have hM : oneMatcher P.hour P.window (restricted P.ds dfs) P.temporalRef P.ds.length 3 = .ok M := by
    unfold oneMatcher viaM
    simp only [hout]
    rfl
  have hM' := hM
  rw [← hlen] at hM'
  have hcomb := combined_matched_data_partial P.hour P.window hP.window (restricted P.ds dfs) hrn P.temporalRef _ href' 3 M hM'
  have hMne : M ≠ [] := by
    intro h0
    obtain ⟨data, hd, -⟩ := hcomb [] (by simp [dsNames]) (by simp)
    rw [h0] at hd
    cases hd
  have hkeys : ∀ key, key ∈ names 3 → ∃ times val, MatchedAll (P.window.getD P.hour) P.ds dfs P.temporalRef times val ∧
        dataForKey P.setup M key = .ok (framed times key (fun x t => some (val x t))) := by
    intro key hkey
    obtain ⟨ref', hA⟩ := ((hN 3 (by omega)).2.2 key).mp hkey
    obtain ⟨data, hd, h1, h2, value, h3, h4⟩ := hcomb key hA.2.2.1 (fun x hx => (hneed _ _).mpr (hA.2.2.2.1 x hx))
    have hcomp : ∀ t, t ∈ data.index ↔ (∃ df, (P.temporalRef, df) ∈ dfs ∧ ∃ r ∈ df.rows, r.1 = t) ∧
        ∀ e ∈ P.ds, ∀ c ∈ e.2, ∃ v, SeenAt (P.window.getD P.hour) dfs P.temporalRef t e.1 c (some v) := by
      intro t
      rw [h2 t]
      constructor
      · rintro ⟨⟨df, hdf, h⟩, h5⟩
        refine ⟨?_, ?_⟩
        · obtain ⟨e, he, heq⟩ := List.mem_map.mp hdf
          obtain ⟨h6, rfl⟩ := Prod.mk.inj heq
          exact ⟨e.2, h6 ▸ he, h⟩
        · intro e he c hc
          obtain ⟨v, hv⟩ := h5 e.1 c ((hneed _ _).mpr ⟨e.2, he, hc⟩)
          exact ⟨v, (seenAt_restricted _ _ _ _ _ _ _ _).mp hv⟩
      · rintro ⟨⟨df, hdf, h⟩, h5⟩
        refine ⟨⟨_, List.mem_map.mpr ⟨_, hdf, rfl⟩, h⟩, ?_⟩
        intro d c hdc
        obtain ⟨cols, h6, h7⟩ := (hneed _ _).mp hdc
        obtain ⟨v, hv⟩ := h5 _ h6 c h7
        exact ⟨v, (seenAt_restricted _ _ _ _ _ _ _ _).mpr hv⟩
    refine ⟨data.index, seenValue (P.window.getD P.hour) dfs P.temporalRef, ⟨h1, hcomp, ?_⟩, ?_⟩
    · intro t ht e he c hc
      exact seenValue_spec (x := col e.1 c) (((hcomp t).mp ht).2 e he c hc)
    · have hdata : dataForKey P.setup M key = getDataForResultTuple P.temporalRef M key := rfl
      rw [hdata, hd]
      have hcols : data.columns = key.map (fun x => (.ds (ofLex x).1,
          data.index.map (fun t => some (seenValue (P.window.getD P.hour) dfs P.temporalRef x t)))) := by
        rw [h4]
        refine List.map_congr_left (fun x hx => congrArg _ (List.map_congr_left (fun t ht => ?_)))
        obtain ⟨cols, k1, k2⟩ := hA.2.2.2.1 x hx
        exact seenAt_unique hr.nodup ((seenAt_restricted _ _ _ _ _ _ _ _).mp (h3 t ht x hx))
          (seenValue_spec (((hcomp t).mp ht).2 _ k1 _ k2))
      unfold framed
      rw [← hcols]
  refine ⟨M, hoc, hdne, hM, hMne, ?_, hkeys⟩
  unfold firstFailure
  have hg' : P.setup.getData info = .ok dfs := hg
  have hmm : P.setup.calcs.mapM (fun c => P.setup.matcher (restricted P.ds dfs) P.setup.temporalRef c.1.1 c.1.2) = .ok [M] := by
    show List.mapM _ [_] = _
    rw [List.mapM_cons]
    have : P.setup.matcher (restricted P.ds dfs) P.setup.temporalRef P.ds.length 3 = .ok M := hM
    simp only [this]
    rfl
  rw [hg']
  obtain ⟨d, ds, rfl⟩ := List.exists_cons_of_ne_nil hdne
  have hmask : masked P.setup info (d :: ds) = .ok (some (d :: ds)) := rfl
  simp only [hmask, hoc, hmm]
  have hz : P.setup.calcs.zip [M] = [(((P.ds.length, 3), tripleCalculator P.tcol P.reference P.minObs), M)] := rfl
  rw [hz, List.findSome?_cons]
  simp only [List.findSome?_nil, if_neg hMne]
  have : (names 3).findSome? (keyFailure P.setup info M) = none := by
    rw [List.findSome?_eq_none_iff]
    intro key hkey
    obtain ⟨times, val, -, h2⟩ := hkeys key hkey
    unfold keyFailure
    rw [h2]
    simp only
    split
    · rfl
    · split
      · rfl
      · rfl
  rw [this]

/-! ### The calculator on a frame of three columns -/

theorem framed_cols (times : List ℝ) (key : Key String) (u : Col String → ℝ → Option ℝ) :
    (toCalc (framed times key u)).cols = (dsNames key).map String.toList :=
  labels_toCalc _ _ (by unfold framed dsNames; simp only [List.map_map]; rfl)

theorem framed_rows (times : List ℝ) (key : Key String) (u : Col String → ℝ → Option ℝ) :
    (toCalc (framed times key u)).rows = times.map (fun t => (0, key.map (fun x => u x t))) := by
  unfold toCalc framed
  simp only [List.map_map]
  apply List.ext_getElem
  · simp
  · intro i h1 h2
    simp at h1 h2 ⊢
    intro x _
    rw [List.getElem?_eq_getElem h1]
    simp

theorem framed_column (times : List ℝ) (key : Key String) (hn : (dsNames key).Nodup) (u : Col String → ℝ → Option ℝ) (x : Col String) (hx : x ∈ key) :
    (toCalc (framed times key u)).rows.map (fun row => Calculators.entry row ((toCalc (framed times key u)).cols.idxOf (ofLex x).1.toList)) =
      times.map (u x) := by
  rw [framed_cols, framed_rows, List.map_map]
  refine List.map_congr_left (fun t _ => ?_)
  obtain ⟨i, hi, rfl⟩ := List.getElem_of_mem hx
  have h2 : ((dsNames key).map String.toList)[i]'(by unfold dsNames; simpa using hi) = (ofLex key[i]).1.toList := by
    simp [dsNames]
  have hidx : ((dsNames key).map String.toList).idxOf (ofLex key[i]).1.toList = i := by
    rw [← h2]
    exact (nodup_toList hn).idxOf_getElem i _
  simp only [Function.comp_apply, hidx, Calculators.entry]
  simp [List.getElem?_map, hi]

/-- the reference and the two others, in the order of the key -/
theorem names_erase {key : Key String} (hs : key.Pairwise (· ≤ ·)) (hn : (dsNames key).Nodup) {r a b : Col String} (hp : [r, a, b].Perm key)
    (hab : a ≤ b) : ((dsNames key).map String.toList).erase (ofLex r).1.toList = [(ofLex a).1.toList, (ofLex b).1.toList] := by
  have hr : r ∈ key := hp.mem_iff.mp (by simp)
  have h1 : [a, b].Perm (key.erase r) := by
    have := hp.erase r
    simpa using this
  have h2 : [a, b] = key.erase r :=
    h1.eq_of_pairwise (fun x y _ _ h h' => le_antisymm h h') (by simpa using hab) (hs.sublist List.erase_sublist)
  rw [toList_erase]
  have h3 : (dsNames key).erase (ofLex r).1 = dsNames (key.erase r) := by
    unfold dsNames at hn ⊢
    clear h2 h1 hs hp hab
    induction key with
    | nil => simp at hr
    | cons x key ih =>
      rw [List.map_cons, List.nodup_cons] at hn
      by_cases hx : x = r
      · subst hx; simp
      · have hr' : r ∈ key := by simpa [Ne.symm hx] using hr
        have hne : (ofLex x).1 ≠ (ofLex r).1 := fun h => hn.1 (h ▸ List.mem_map_of_mem (f := fun c => (ofLex c).1) hr')
        rw [List.map_cons, List.erase_cons_tail (by simpa using hne), List.erase_cons_tail (by simpa using hx), List.map_cons, ih hn.2 hr']
  rw [h3, ← h2]
  rfl

/-- **C97.** A validation by triple collocation with the combined temporal matcher, `rename_cols=False`, `only_with_reference=True` and
`handle_errors='ignore'`: at every location where all data sets were read, the row of a result is determined by the values of its three columns at
the times of the temporal reference at which every column of every data set has a value: no such time: status NO_TEMP_MATCHED_DATA; fewer than
`min_obs` times: status INSUFFICIENT_DATA, their number and no metrics; else status OK and, for each data set, the values `tcol_metrics` gives for it
when called with the reference first. -/
theorem triple_validation (hP : P.Sound) (infos : List (Calculators.Info ℝ))
    (out : List (Key String × List (Field × List (Val ℝ)))) (hout : calcAll P.setup false infos = .ok out) (key : Key String)
    (tbl : List (Field × List (Val ℝ))) (hk : (key, tbl) ∈ out) (n : ℕ) (info : Calculators.Info ℝ) (hi : infos[n]? = some info)
    (dfs : List (String × DF String ℝ ℝ)) (hg : P.getData info = .ok dfs) (hr : AllRead P.ds P.temporalRef dfs) :
    ∃ times val, MatchedAll (P.window.getD P.hour) P.ds dfs P.temporalRef times val ∧
      (times = [] → EntryIs tbl (.plain "status") n (.int NO_TEMP_MATCHED_DATA)) ∧
      (times ≠ [] → times.length < P.minObs → EntryIs tbl (.plain "status") n (.int INSUFFICIENT_DATA) ∧
        EntryIs tbl (.plain "gpi") n (.int info.gpi) ∧ EntryIs tbl (.plain "n_obs") n (.int times.length) ∧
        ∀ m ∈ ["snr", "err_std", "beta"], ∀ x ∈ key, EntryIs tbl (metricOf m x) n (.num none)) ∧
      (P.minObs ≤ times.length → ∀ r a b, [r, a, b].Perm key → (ofLex r).1 = P.reference → a ≤ b →
        ∀ t, t = P.tcol ([r, a, b].map (fun x => times.map (fun u => some (val x u)))) →
        EntryIs tbl (.plain "status") n (.int OK) ∧ EntryIs tbl (.plain "gpi") n (.int info.gpi) ∧
        EntryIs tbl (.plain "lon") n (.num (some info.lon)) ∧ EntryIs tbl (.plain "lat") n (.num (some info.lat)) ∧
        EntryIs tbl (.plain "n_obs") n (.int times.length) ∧
        ∀ i x, [r, a, b][i]? = some x → EntryIs tbl (metricOf "snr" x) n (.num (t.snr i)) ∧
          EntryIs tbl (metricOf "err_std" x) n (.num (t.errStd i)) ∧ EntryIs tbl (metricOf "beta" x) n (.num (t.beta i))) := by
  have H := triple_good P hP
  have hM := triple_neverMasked P
  obtain ⟨names, hN⟩ := resultNames_exist P.setup H.dsNodup H.colsNodup
  obtain ⟨hE, -, -⟩ := calc_columns P.setup _ H hM infos out hout key tbl hk
  obtain ⟨x1, x2, x3, x4, x5⟩ := triple_expected P hP hE
  have hkey : key ∈ names 3 := by
    obtain ⟨c, hc, hA, -⟩ := id hE
    obtain rfl := List.mem_singleton.mp hc
    exact ((hN 3 (by omega)).2.2 _).mpr hA
  obtain ⟨M, hoc, hdne, hMM, hMne, hff, hkeys⟩ := triple_location P hP names hN info dfs hg hr
  obtain ⟨times, val, t1, t2⟩ := hkeys _ hkey
  have hren : ∀ f : Frame String ℝ ℝ, renamed P.setup key f = f := by
    intro f
    unfold renamed
    rw [show P.setup.renameCols = false from hP.names]
    rfl
  set f := framed times key (fun x t => some (val x t)) with hf
  have hval : times ≠ [] → ∀ m, tripleCalculator P.tcol P.reference P.minObs f info = .ok m → ∀ fld w, HasValue m fld w → EntryIs tbl fld n w := by
    intro hne m hmm fld w hw
    exact calc_value P.setup _ names H hM hN infos out hout _ tbl hk n info hi hff dfs dfs _ hg hdne rfl hoc _
      (List.mem_singleton.mpr rfl) x1.symm M hMM _ t2 hne _ rfl m (by rw [hren]; exact hmm) fld w hw
  have hcols : (toCalc f).cols = (dsNames key).map String.toList := framed_cols _ _ _
  have hrows : (toCalc f).rows.length = times.length := by rw [hf, framed_rows, List.length_map]
  have hfield : ∀ (m : String) (x : Col String), fieldOf (.pair m.toList (ofLex x).1.toList) = metricOf m x := by
    intro m x
    simp [fieldOf, metricOf]
  refine ⟨times, val, t1, ?_, ?_, ?_⟩
  · intro h0
    refine calc_status_value P.setup _ names H hM hN infos out hout _ tbl hk n info hi _ ?_
    rintro w (⟨code, k1, rfl⟩ | ⟨k1, dfs1, dfs2, dfs3, g1, -, g2, g3, c, hc, -, M', hM', hne', data, d1, d2⟩)
    · rw [hff] at k1
      cases k1
    · obtain rfl := List.mem_singleton.mp hc
      have hg' : P.setup.getData info = .ok dfs := hg
      rw [hg'] at g1
      obtain rfl := Except.ok.inj g1
      have hmask : masked P.setup info dfs = .ok (some dfs) := rfl
      rw [hmask] at g2
      obtain rfl := Option.some.inj (Except.ok.inj g2)
      rw [hoc] at g3
      obtain rfl := Except.ok.inj g3
      have hMM' : P.setup.matcher (restricted P.ds dfs) P.setup.temporalRef P.ds.length 3 = .ok M := hMM
      simp only at hM'
      rw [hMM'] at hM'
      obtain rfl := Except.ok.inj hM'
      rw [t2] at d1
      obtain rfl := Except.ok.inj d1
      rcases d2 with ⟨-, rfl⟩ | ⟨hne, -⟩
      · rfl
      · exact absurd h0 hne
  · intro hne hlt
    obtain ⟨a, b, e1, e2⟩ := triple_names P hP hE
    obtain ⟨m, m1, m2, m3, -, -, m6⟩ := tripleCalculator_reports (tcol := P.tcol) (Calculators.tc_insufficient
      ⟨fun l => .ok (P.tcol l), fun _ => .error .valueError⟩ false P.minObs none (toCalc f) info P.reference.toList a.toList b.toList
      (by rw [hcols]; exact List.mem_map_of_mem x3) (by rw [hcols]; exact e1) (nodup_toList (e2.nodup_iff.mpr x2)) (fieldsOk_nil _) (.inl rfl)
      (by rw [hrows]; exact hlt))
    refine ⟨hval hne m m1 _ _ m2, hval hne m m1 _ _ m3, ?_, ?_⟩
    · have := m6 (Calculators.key "n_obs", .int (toCalc f).rows.length) (by simp [Calculators.tcAll])
      rw [fieldOf_key, hrows] at this
      exact hval hne m m1 _ _ this
    · intro name hname x hx
      have hxn : (ofLex x).1 ∈ [P.reference, a, b] := e2.mem_iff.mpr (mem_dsNames.mpr ⟨x, hx, rfl⟩)
      have := m6 (.pair name.toList (ofLex x).1.toList, .num none) (by
        simp only [Calculators.tcAll, Calculators.tcValues, Calculators.perDataset, Calculators.noTc]
        simp only [List.mem_cons, List.not_mem_nil, or_false] at hname hxn
        rcases hname with rfl | rfl | rfl <;> rcases hxn with h | h | h <;> rw [h] <;> simp)
      rw [hfield] at this
      exact hval hne m m1 _ _ this
  · rintro hge r a b hp hrn hab t rfl
    have hne : times ≠ [] := by
      rintro rfl
      have := hP.minObs
      simp at hge
      omega
    have he := names_erase x4 x2 hp hab
    have hpn : [(ofLex r).1, (ofLex a).1, (ofLex b).1].Perm (dsNames key) := by
      unfold dsNames
      exact hp.map (fun c => (ofLex c).1)
    have hmem : ∀ x ∈ [r, a, b], x ∈ key := fun x hx => hp.mem_iff.mp hx
    have harr : Calculators.arrays3 (toCalc f) (ofLex r).1.toList (ofLex a).1.toList (ofLex b).1.toList =
        [r, a, b].map (fun x => times.map (fun u => some (val x u))) := by
      unfold Calculators.arrays3
      simp only [List.map_cons, List.map_nil]
      rw [framed_column times key x2 _ r (hmem r (by simp)), framed_column times key x2 _ a (hmem a (by simp)),
        framed_column times key x2 _ b (hmem b (by simp))]
    rw [← harr]
    have hrep := Calculators.tc_result
      ⟨fun l => .ok (P.tcol l), fun _ => .error .valueError⟩ false P.minObs none (toCalc f) info (ofLex r).1.toList (ofLex a).1.toList (ofLex b).1.toList
      (by rw [hcols, hrn]; exact List.mem_map_of_mem x3) (by rw [hcols]; exact he) (nodup_toList (hpn.nodup_iff.mpr x2)) (fieldsOk_nil _) (.inl rfl)
      (by rw [hrows]; exact hge) (P.tcol (Calculators.arrays3 (toCalc f) (ofLex r).1.toList (ofLex a).1.toList (ofLex b).1.toList), Calculators.noTc,
        Calculators.noTc) (fun _ => rfl) (by simp)
    generalize P.tcol (Calculators.arrays3 (toCalc f) (ofLex r).1.toList (ofLex a).1.toList (ofLex b).1.toList) = t at hrep ⊢
    obtain ⟨m, m1, m2, m3, m4, m5, m6⟩ := tripleCalculator_reports (tcol := P.tcol) (ref := (ofLex r).1) hrep
    rw [hrn] at m1
    refine ⟨hval hne m m1 _ _ m2, hval hne m m1 _ _ m3, hval hne m m1 _ _ m4, hval hne m m1 _ _ m5, ?_, ?_⟩
    · have := m6 (Calculators.key "n_obs", .int (toCalc f).rows.length) (by simp [Calculators.tcAll])
      rw [fieldOf_key, hrows] at this
      exact hval hne m m1 _ _ this
    · intro i x hix
      have key3 : ∀ (name : String) (v : Option ℝ), (Calculators.Key.pair name.toList (ofLex x).1.toList, Val.num v) ∈
          Calculators.tcValues t (ofLex r).1.toList (ofLex a).1.toList (ofLex b).1.toList → EntryIs tbl (metricOf name x) n (.num v) := by
        intro name v hv
        have := m6 (.pair name.toList (ofLex x).1.toList, .num v) (by
          unfold Calculators.tcAll
          exact List.mem_cons_of_mem _ (List.mem_append_left _ hv))
        rw [hfield] at this
        exact hval hne m m1 _ _ this
      match i, hix with
      | 0, h =>
        obtain rfl : r = x := by simpa using h
        exact ⟨key3 _ _ (by simp [Calculators.tcValues, Calculators.perDataset]), key3 _ _ (by simp [Calculators.tcValues, Calculators.perDataset]),
          key3 _ _ (by simp [Calculators.tcValues, Calculators.perDataset])⟩
      | 1, h =>
        obtain rfl : a = x := by simpa using h
        exact ⟨key3 _ _ (by simp [Calculators.tcValues, Calculators.perDataset]), key3 _ _ (by simp [Calculators.tcValues, Calculators.perDataset]),
          key3 _ _ (by simp [Calculators.tcValues, Calculators.perDataset])⟩
      | 2, h =>
        obtain rfl : b = x := by simpa using h
        exact ⟨key3 _ _ (by simp [Calculators.tcValues, Calculators.perDataset]), key3 _ _ (by simp [Calculators.tcValues, Calculators.perDataset]),
          key3 _ _ (by simp [Calculators.tcValues, Calculators.perDataset])⟩
      | j + 3, h => simp at h

/-! ### Consequences -/

/-- every triple of columns of different data sets with the reference has a table, and `calc` returns -/
theorem triple_tables (hP : P.Sound) (infos : List (Calculators.Info ℝ)) (hne : infos ≠ []) :
    ∃ out, calcAll P.setup false infos = .ok out ∧ (out.map Prod.fst).Nodup ∧ ∀ key : Key String, (∃ tbl, (key, tbl) ∈ out) ↔
      key.length = 3 ∧ key.Pairwise (· ≤ ·) ∧ (dsNames key).Nodup ∧ P.reference ∈ dsNames key ∧
      ∀ x ∈ key, ∃ cols, ((ofLex x).1, cols) ∈ P.ds ∧ (ofLex x).2 ∈ cols := by
  have H := triple_good P hP
  obtain ⟨out, h1, h2, h3, -⟩ := calc_table P.setup _ H false infos hne (fun i => (processOne_total P.setup _ H i).choose)
    (fun i _ => (processOne_total P.setup _ H i).choose_spec)
    (fun i _ => processOne_shape P.setup _ H (triple_neverMasked P) false i _ (processOne_total P.setup _ H i).choose_spec)
  refine ⟨out, h1, h2, fun key => ?_⟩
  have e : (∃ tbl, (key, tbl) ∈ out) ↔ key ∈ out.map Prod.fst := by
    rw [List.mem_map]
    constructor
    · rintro ⟨tbl, h⟩
      exact ⟨_, h, rfl⟩
    · rintro ⟨⟨k, tbl⟩, h, rfl⟩
      exact ⟨tbl, h⟩
  rw [e, h3]
  constructor
  · intro hE
    obtain ⟨a1, a2, a3, a4, a5⟩ := triple_expected P hP hE
    exact ⟨a1, a4, a2, a3, a5⟩
  · rintro ⟨k1, k2, k3, k4, k5⟩
    refine ⟨_, List.mem_singleton.mpr rfl, ⟨P.reference, k2, k1, k3, k5, k4⟩, fun _ => k4⟩

/-- the triple collocation result of three arrays of numbers -/
def tcOf (r : Tcol.TcolResult) : Tc ℝ :=
  ⟨fun i => if h : i < 3 then some (r.snr ⟨i, h⟩) else none, fun i => if h : i < 3 then some (r.errStd ⟨i, h⟩) else none,
   fun i => if h : i < 3 then some (r.beta ⟨i, h⟩) else none⟩

/-- `tcol` is `tcol_metrics(x, y, z, ref_ind=0)` for data whose covariances are those of an error model (no division by zero) -/
def IsTcol (tcol : List (List (Option ℝ)) → Tc ℝ) : Prop :=
  ∀ rows : List Tcol.Row, (∃ m : Tcol.ErrorModel, Tcol.npCov rows = m.cov) →
    tcol [rows.map (fun r => some (r 0)), rows.map (fun r => some (r 1)), rows.map (fun r => some (r 2))] = tcOf (Tcol.tcolMetrics rows 0)

/-- **C97, C13.** If at the common times the three columns of a result are linear in a signal with additive errors that are uncorrelated with the
signal and with each other, the table holds for each data set the gain relative to the reference, the standard deviation of its errors in units of
the reference, and its signal-to-noise ratio in decibel. -/
theorem triple_recovers (hP : P.Sound) (hT : IsTcol P.tcol) (infos : List (Calculators.Info ℝ))
    (out : List (Key String × List (Field × List (Val ℝ)))) (hout : calcAll P.setup false infos = .ok out) (key : Key String)
    (tbl : List (Field × List (Val ℝ))) (hk : (key, tbl) ∈ out) (n : ℕ) (info : Calculators.Info ℝ) (hi : infos[n]? = some info)
    (dfs : List (String × DF String ℝ ℝ)) (hg : P.getData info = .ok dfs) (hr : AllRead P.ds P.temporalRef dfs) :
    ∃ times val, MatchedAll (P.window.getD P.hour) P.ds dfs P.temporalRef times val ∧
      (P.minObs ≤ times.length → ∀ q : Fin 3 → Col String, (List.ofFn q).Perm key → (ofLex (q 0)).1 = P.reference → q 1 ≤ q 2 →
        ∀ (off gain : Fin 3 → ℝ) (truth : ℝ → Tcol.Truth),
        (∀ t ∈ times, ∀ i, val (q i) t = off i + gain i * (truth t).signal + (truth t).err i) → (∀ i, gain i ≠ 0) →
        ∀ (s : ℝ) (e : Fin 3 → ℝ), s = Tcol.sampleCov (times.map truth) Tcol.Truth.signal Tcol.Truth.signal →
        (∀ i, e i = Tcol.sampleCov (times.map truth) (fun t => t.err i) (fun t => t.err i)) → 0 < s → (∀ i, 0 < e i) →
        (∀ i, Tcol.sampleCov (times.map truth) Tcol.Truth.signal (fun t => t.err i) = 0) →
        (∀ i j, i ≠ j → Tcol.sampleCov (times.map truth) (fun t => t.err i) (fun t => t.err j) = 0) →
        EntryIs tbl (.plain "status") n (.int OK) ∧ EntryIs tbl (.plain "n_obs") n (.int times.length) ∧
        ∀ i, EntryIs tbl (metricOf "beta" (q i)) n (.num (some (gain 0 / gain i))) ∧
          EntryIs tbl (metricOf "err_std" (q i)) n (.num (some (Real.sqrt (e i) * (gain 0 / gain i)))) ∧
          EntryIs tbl (metricOf "snr" (q i)) n (.num (some (10 * Real.logb 10 (gain i ^ 2 * s / e i))))) := by
  obtain ⟨times, val, h1, -, -, h4⟩ := triple_validation P hP infos out hout key tbl hk n info hi dfs hg hr
  refine ⟨times, val, h1, ?_⟩
  intro hge q hq hq0 hq12 off gain truth hval hgain s e hs he spos epos u1 u2
  have hq' : List.ofFn q = [q 0, q 1, q 2] := by simp [List.ofFn_succ]
  rw [hq'] at hq
  have hcov : ∃ m : Tcol.ErrorModel, Tcol.npCov ((times.map truth).map (Tcol.observe off gain)) = m.cov := by
    refine ⟨⟨gain, s, e, hgain, spos, epos⟩, ?_⟩
    have hts : times.map truth ≠ [] := by
      intro h0
      rw [h0] at hs
      rw [hs] at spos
      simp [Tcol.sampleCov] at spos
    funext i j
    rw [Tcol.npCov_observe off gain _ hts, u1, u1]
    simp only [Tcol.ErrorModel.cov]
    by_cases hij : i = j
    · subst hij; simp [hs, he]
    · rw [u2 i j hij, if_neg hij, hs]; ring
  have hrec := fun i => Tcol.tcol_metrics_recovers off gain hgain (times.map truth) (hs ▸ spos) (fun i => he i ▸ epos i) u1 u2 0 i
  have hrow : ∀ i : Fin 3, times.map (fun u => some (val (q i) u)) =
      ((times.map truth).map (Tcol.observe off gain)).map (fun r => some (r i)) := by
    intro i
    rw [List.map_map, List.map_map]
    refine List.map_congr_left (fun t ht => ?_)
    rw [hval t ht i]
    rfl
  obtain ⟨k1, -, -, -, k5, k6⟩ := h4 hge (q 0) (q 1) (q 2) hq hq0 hq12 (tcOf (Tcol.tcolMetrics ((times.map truth).map (Tcol.observe off gain)) 0)) (by
    simp only [List.map_cons, List.map_nil, hrow]
    exact (hT _ hcov).symm)
  refine ⟨k1, k5, ?_⟩
  intro i
  obtain ⟨m1, m2, m3⟩ := k6 i (q i) (by fin_cases i <;> rfl)
  obtain ⟨r1, r2, r3⟩ := hrec i
  simp only [tcOf, Fin.is_lt, dite_true, Fin.eta] at m1 m2 m3
  rw [r3, ← hs, ← he] at m1
  rw [r2, ← he] at m2
  rw [r1] at m3
  exact ⟨m3, m2, m1⟩

/-! ### Without `only_with_reference` -/

theorem tripleCalculator_no_reference (tcol : List (List (Option ℝ)) → Tc ℝ) (ref : String) (minObs : ℕ) (f : Frame String ℝ ℝ)
    (info : Calculators.Info ℝ) (names : List String) (hf : f.columns.map Prod.fst = names.map Label.ds) (hr : ref ∉ names) :
    tripleCalculator tcol ref minObs f info = .error .other := by
  unfold tripleCalculator
  obtain ⟨T, h1, h2⟩ := Calculators.tc_no_reference (K := ℝ) ⟨fun l => .ok (tcol l), fun _ => .error .valueError⟩ false minObs none (toCalc f) info
    ref.toList (by
      rw [labels_toCalc f names hf]
      intro h
      obtain ⟨x, hx, he⟩ := List.mem_map.mp h
      exact hr (String.toList_inj.mp he ▸ hx)) ⟨List.nodup_nil, by intro e he; cases he⟩ (.inl rfl)
  rw [h1]
  show (match Calculators.tcCalc _ _ _ _ T _ _ _ with | .error _ => _ | .ok d => _) = _
  rw [h2]

theorem performKeys_error {α T V W Info : Type} [DecidableEq α] [LinearOrder α] (S : Setup α T V W Info) (raising : Bool) (info : Info)
    (mc : Frame α T V → Info → Except Exc (Metrics W)) (matched : List (List α × MFrame α T V)) (key : Key α) (keys : List (Key α))
    (hk : key ∈ keys) (he : ∀ m, performKey S raising info mc matched key ≠ .ok m) (res r : Results (Key α) (Metrics W)) :
    performKeys S raising info mc matched keys res ≠ .ok r := by
  induction keys generalizing res with
  | nil => cases hk
  | cons k keys ih =>
    intro h
    unfold performKeys at h
    simp only [bind, Except.bind] at h
    split at h
    · cases h
    rename_i m hm
    have hne : key ≠ k := fun hh => he m (hh ▸ hm)
    have hk' : key ∈ keys := by simpa [hne] using hk
    split at h <;> exact ih hk' _ h

theorem dummyKeys_error {α T V W Info : Type} [DecidableEq α] [LinearOrder α] (S : Setup α T V W Info) (info : Info)
    (mc : Frame α T V → Info → Except Exc (Metrics W)) (key : Key α) (keys : List (Key α))
    (hk : key ∈ keys) (ho : S.onlyWithReference = false) (he : ∀ m, dummy mc info key ≠ .ok m) (res r : Results (Key α) (Metrics W)) :
    dummyKeys S info mc keys res ≠ .ok r := by
  induction keys generalizing res with
  | nil => cases hk
  | cons k keys ih =>
    intro h
    unfold dummyKeys at h
    rw [ho] at h
    simp only [bind, Except.bind, Bool.false_and, Bool.false_eq_true, if_false] at h
    split at h
    · cases h
    rename_i m hm
    have hne : key ≠ k := fun hh => he m (hh ▸ hm)
    exact ih (by simpa [hne] using hk) _ h

/-- **C97, negation of the claim without `only_with_reference=True` (the default is False).** If a triple of columns of different data sets exists
that does not hold the reference (always so with four data sets), `calc` raises at the first location, whatever data are read there, also with
`handle_errors='ignore'`: the calculator cannot build the row of this result, not even the empty one. -/
theorem triple_without_reference (hds : (P.ds.map Prod.fst).Nodup) (hcols : ∀ e ∈ P.ds, e.2.Nodup) (hren : P.renameCols = false)
    (ho : P.onlyWithReference = false) (key : Key String) (h3 : key.length = 3) (hs : key.Pairwise (· ≤ ·)) (hn : (dsNames key).Nodup)
    (hm : ∀ x ∈ key, ∃ cols, ((ofLex x).1, cols) ∈ P.ds ∧ (ofLex x).2 ∈ cols) (href : P.reference ∉ dsNames key)
    (infos : List (Calculators.Info ℝ)) (hne : infos ≠ []) (raising : Bool) (out) : calcAll P.setup raising infos ≠ .ok out := by
  obtain ⟨names, hN⟩ := resultNames_exist P.setup hds hcols
  have hk : key ∈ names 3 := by
    obtain ⟨x, key', rfl⟩ : ∃ x key', key = x :: key' := by
      match key, h3 with
      | x :: key', _ => exact ⟨x, key', rfl⟩
    exact ((hN 3 (by omega)).2.2 _).mpr ⟨(ofLex x).1, hs, h3, hn, hm, by simp⟩
  have hnames := (hN 3 (by omega)).1
  have hdummy : ∀ info m, dummy (tripleCalculator P.tcol P.reference P.minObs) info key ≠ .ok m := by
    intro info m h
    unfold dummy at h
    rw [tripleCalculator_no_reference _ _ _ _ _ (dsNames key) (by simp [List.map_map]) href] at h
    cases h
  have hkey : ∀ r info M m, performKey P.setup r info (tripleCalculator P.tcol P.reference P.minObs) M key ≠ .ok m := by
    intro r info M m h
    unfold performKey at h
    simp only [bind, Except.bind] at h
    split at h
    · cases h
    rename_i data hdata
    rw [show P.setup.onlyWithReference = false from ho] at h
    simp only [Bool.false_and, Bool.false_eq_true, if_false] at h
    by_cases hz : data.index.length = 0
    · rw [if_pos hz] at h
      by_cases hr : r = true
      · rw [if_pos hr] at h; cases h
      rw [if_neg hr] at h
      cases hd : dummy (tripleCalculator P.tcol P.reference P.minObs) info key with
      | ok m' => exact hdummy _ _ hd
      | error e => rw [hd] at h; cases h
    · rw [if_neg hz] at h
      have hl := getData_labels _ _ _ _ (show getDataForResultTuple P.temporalRef M key = .ok data from hdata) (fun h0 => hz (by rw [h0]; rfl))
      have hsc : scaled P.setup info key data = .ok data := rfl
      have hrn : renamed P.setup key data = data := by
        unfold renamed
        rw [show P.setup.renameCols = false from hren]
        rfl
      rw [hsc] at h
      simp only [hrn] at h
      rw [tripleCalculator_no_reference _ _ _ _ _ (dsNames key) hl href] at h
      simp only at h
      by_cases hr : r = true
      · rw [if_pos hr] at h; cases h
      rw [if_neg hr] at h
      cases hd : dummy (tripleCalculator P.tcol P.reference P.minObs) info key with
      | ok m' => exact hdummy _ _ hd
      | error e => rw [hd] at h; cases h
  have hone : ∀ info r, processOne P.setup raising info ≠ .ok r := by
    intro info r h
    unfold processOne at h
    split at h
    · rename_i r' hr'
      unfold attempt at hr'
      split at hr'
      · cases hr'
      split_ifs at hr'
      unfold performValidation at hr'
      simp only [bind, Except.bind] at hr'
      split at hr'
      · cases hr'
      rename_i mm hmm
      obtain rfl := Except.ok.inj (show Except.ok (some _) = .ok mm from hmm)
      simp only at hr'
      split at hr'
      · cases hr'
      split at hr'
      · cases hr'
      rename_i matched hmat
      obtain ⟨M, rfl⟩ : ∃ M, matched = [M] := by
        unfold matchAll at hmat
        split at hmat
        · rename_i l hl
          obtain rfl := Except.ok.inj hmat
          have := mapM_length _ _ _ hl
          match l, this with
          | [M], _ => exact ⟨M, rfl⟩
        · cases hmat
      unfold performCalcs at hr'
      simp only [TripleJob.setup, List.zip_cons_cons, List.zip_nil_right] at hr'
      split_ifs at hr'
      simp only [bind, Except.bind] at hr'
      split at hr'
      · cases hr'
      rename_i nm hnm
      obtain rfl : names 3 = nm := Except.ok.inj (hnames.symm.trans hnm)
      split at hr'
      · cases hr'
      rename_i res' hres
      exact performKeys_error P.setup raising info _ M key _ hk (hkey _ _ _) _ _ hres
    · split_ifs at h
      simp only [bind, Except.bind] at h
      split at h
      · cases h
      rename_i d hd
      change dummyValidationResult P.setup info [_] [] = .ok d at hd
      unfold dummyValidationResult at hd
      simp only [bind, Except.bind] at hd
      rw [hnames] at hd
      simp only at hd
      split at hd
      · cases hd
      rename_i d' hd'
      exact dummyKeys_error P.setup info _ key _ hk ho (hdummy info) _ _ hd'
  intro h
  unfold calcAll at h
  simp only [bind, Except.bind] at h
  match infos, hne with
  | i :: infos, _ =>
    unfold collect at h
    simp only [bind, Except.bind] at h
    cases hp : processOne P.setup raising i with
    | ok r => exact hone _ _ hp
    | error e => rw [hp] at h; cases h

/-! ### Cases -/

/-- three data sets, one with two columns; the reference is the second one, the temporal reference the first one -/
def exTriple : TripleJob where
  ds := [("a", ["x"]), ("b", ["x"]), ("c", ["y", "z"])]
  reference := "b"
  temporalRef := "a"
  getData := fun _ => .ok
    [("a", ⟨["x"], [(1, fun _ => some 1), (2, fun _ => some 2), (3, fun _ => some 4)]⟩),
     ("b", ⟨["x", "flag"], [(1, fun _ => some 10), (2.1, fun _ => some 30), (3, fun _ => some 20)]⟩),
     ("c", ⟨["y", "z"], [(0.9, fun _ => some 5), (2, fun _ => some 6), (3, fun _ => some 8), (9, fun _ => some 0)]⟩)]
  hour := 1
  window := some 0.5
  tcol := fun l => ⟨fun i => (l[i]?.bind (·[0]?)).join, fun _ => none, fun _ => none⟩
  minObs := 2
  renameCols := false
  onlyWithReference := true

/-- the hypotheses of C97 hold; the result of "a", "b" and column "z" of "c" with the reference first -/
example : exTriple.Sound ∧ (∃ dfs, exTriple.getData ⟨1, 2, 3, none⟩ = .ok dfs ∧ AllRead exTriple.ds "a" dfs) ∧
    [col "b" "x", col "a" "x", col "c" "z"].Perm [col "a" "x", col "b" "x", col "c" "z"] ∧ col "a" "x" ≤ col "c" "z" := by
  refine ⟨⟨by decide, by decide, by norm_num [exTriple], by decide, by decide, rfl, rfl⟩, ⟨_, rfl, ?_⟩, by decide, by decide⟩
  refine ⟨by decide, ?_, ?_, ?_⟩
  · intro e he
    fin_cases he
    · exact ⟨["x"], by decide⟩
    · exact ⟨["x"], by decide⟩
    · exact ⟨["y", "z"], by decide⟩
  · intro e he
    fin_cases he
    · exact ⟨_, List.mem_cons_self, by simp⟩
    · exact ⟨_, List.mem_cons_of_mem _ List.mem_cons_self, by simp⟩
    · exact ⟨_, List.mem_cons_of_mem _ (List.mem_cons_of_mem _ List.mem_cons_self), by simp⟩
  · intro e he hne
    fin_cases he
    · exact absurd rfl hne
    · norm_num
    · norm_num

/-- four data sets and `only_with_reference=False`: no location can be validated -/
example (getData tcol) (infos : List (Calculators.Info ℝ)) (hne : infos ≠ []) (out) :
    calcAll (TripleJob.setup ⟨[("a", ["x"]), ("b", ["x"]), ("c", ["y"]), ("d", ["y"])], "b", "b", getData, 1, none, tcol, 10, false, false⟩) false infos
      ≠ .ok out :=
  triple_without_reference _
    (show ([("a", ["x"]), ("b", ["x"]), ("c", ["y"]), ("d", ["y"])].map Prod.fst : List String).Nodup by decide)
    (show ∀ e ∈ ([("a", ["x"]), ("b", ["x"]), ("c", ["y"]), ("d", ["y"])] : List (String × List String)), e.2.Nodup by decide)
    rfl rfl [col "a" "x", col "c" "y", col "d" "y"] rfl (by decide) (by decide)
    (by
      intro x hx
      have : x = col "a" "x" ∨ x = col "c" "y" ∨ x = col "d" "y" := by simpa using hx
      rcases this with rfl | rfl | rfl
      · exact ⟨["x"], by simp [col], by simp [col]⟩
      · exact ⟨["y"], by simp [col], by simp [col]⟩
      · exact ⟨["y"], by simp [col], by simp [col]⟩)
    (show "b" ∉ dsNames [col "a" "x", col "c" "y", col "d" "y"] by decide) infos hne false out

/-- `tcol_metrics` of the rows of three arrays of numbers -/
def tcolOfArrays (l : List (List (Option ℝ))) : Tc ℝ :=
  match l with
  | [x, y, z] => tcOf (Tcol.tcolMetrics ((x.zip (y.zip z)).map (fun r => ![r.1.getD 0, r.2.1.getD 0, r.2.2.getD 0])) 0)
  | _ => ⟨fun _ => none, fun _ => none, fun _ => none⟩

/-- `IsTcol` is met by `tcol_metrics` itself -/
example : IsTcol tcolOfArrays := by
  intro rows h
  clear h
  unfold tcolOfArrays
  simp only
  have : ((rows.map (fun r => some (r 0))).zip ((rows.map (fun r => some (r 1))).zip (rows.map (fun r => some (r 2))))).map
      (fun r => ![r.1.getD 0, r.2.1.getD 0, r.2.2.getD 0]) = rows := by
    induction rows with
    | nil => rfl
    | cons r rows ih =>
      simp only [List.map_cons, List.zip_cons_cons]
      refine congrArg₂ _ ?_ ih
      funext i
      fin_cases i <;> rfl
  rw [this]

end

theorem exTriple_sound : exTriple.Sound := ⟨by decide, by decide, by norm_num [exTriple], by decide, by decide, rfl, rfl⟩
example := triple_tables exTriple exTriple_sound [⟨1, 2, 3, none⟩, ⟨2, 2, 3, none⟩] (by simp)
example (hT : IsTcol tcolOfArrays) (infos out) (hout : calcAll ({ exTriple with tcol := tcolOfArrays } : TripleJob).setup false infos = .ok out) (key tbl) (hk : (key, tbl) ∈ out) (n : ℕ) (info)
    (hi : infos[n]? = some info) (dfs) (hg : exTriple.getData info = .ok dfs) (hr : AllRead exTriple.ds "a" dfs) :=
  triple_recovers { exTriple with tcol := tcolOfArrays } ⟨by decide, by decide, by norm_num [exTriple], by decide, by decide, rfl, rfl⟩ hT infos out hout key tbl hk n info hi dfs hg hr

end Verif.Validation
