import Verif.Validation.PairLemmas

/-! C87: a validation of pairs from the data as read to the result table. -/

set_option linter.unusedSectionVars false
set_option synthInstance.maxSize 1000

noncomputable section

namespace Verif.Validation

open DataManager (Col col Admissible)
open Pairwise (Pairs)
open Calculators (Dict Val PairFuncs PairOptions)

/-! ### Scaling by mean and standard deviation -/

theorem meanStd_compared (s : Col String) (times : List ℝ) (ht : times ≠ []) (val : Col String → ℝ → ℝ) (x : Col String) (hx : x ≠ s) :
    Scaling.meanStd (times.map (fun t => some (val x t))) (times.map (fun t => some (val s t))) = times.map (compared (some s) times val x) := by
  have e : ∀ x, times.map (fun t => some (val x t)) = (times.map (val x)).map some := by
    intro x
    rw [List.map_map]
    rfl
  by_cases h0 : Moments.pvar (times.map (val x)) = 0
  · rw [e x, Scaling.mean_std_constant _ _ h0, List.map_map]
    refine List.map_congr_left (fun t _ => ?_)
    simp only [compared, if_neg hx, if_pos h0, Function.comp_apply]
  · rw [e x, e s]
    unfold Scaling.meanStd
    rw [Scaling.allSome_map, Scaling.allSome_map]
    simp only
    rw [if_neg (by
      rw [Scaling.npStd_eq, Real.sqrt_eq_zero (Moments.pvar_nonneg _)]
      simp [h0, ht]), List.map_map]
    refine List.map_congr_left (fun t _ => ?_)
    simp only [compared, if_neg hx, if_neg h0, Function.comp_apply, standardised, Scaling.npStd_eq]
    rfl

section
variable (P : PairJob)

theorem scalingCol_none (h : P.scaling = none) : P.scalingCol = none := by
  unfold PairJob.scalingCol
  rw [h]

theorem scalingCol_some (hP : P.Sound) {kw c} (h : P.scaling = some kw) (hc : (P.scalingRef, [c]) ∈ P.ds) :
    P.scalingCol = some (col P.scalingRef c) := by
  unfold PairJob.scalingCol
  rw [h, lookup_of_mem P.ds hP.ds hc]

/-- the selection of columns of a result -/
theorem needed_ok (hP : P.Sound) (key : Key String) (hk : key ≠ []) (hn : (dsNames key).Nodup)
    (hc : ∀ x ∈ key, ∃ cols, ((ofLex x).1, cols) ∈ P.ds ∧ (ofLex x).2 ∈ cols) :
    P.needed key ≠ [] ∧ (dsNames (P.needed key)).Nodup ∧ (∀ x ∈ P.needed key, ∃ cols, ((ofLex x).1, cols) ∈ P.ds ∧ (ofLex x).2 ∈ cols) ∧
      (∀ M, dataForKey P.setup M key = getDataForResultTuple P.temporalRef M (P.needed key)) := by
  rcases hP.scaling with h0 | ⟨⟨kw, h0⟩, c, hcc⟩
  · have e : P.needed key = key := by unfold PairJob.needed; rw [scalingCol_none P h0]
    rw [e]
    refine ⟨hk, hn, hc, ?_⟩
    intro M
    unfold dataForKey
    have : P.setup.scale = none := by
      show P.scaling.map _ = _
      rw [h0]; rfl
    rw [this]
    rfl
  · have e : P.needed key = if col P.scalingRef c ∈ key then key else key ++ [col P.scalingRef c] := by
      unfold PairJob.needed; rw [scalingCol_some P hP h0 hcc]
    have hsingle : P.scalingRef ∈ dsNames key → col P.scalingRef c ∈ key := by
      intro h
      obtain ⟨x, hx, h1⟩ := mem_dsNames.mp h
      obtain ⟨cols, h2, h3⟩ := hc x hx
      rw [h1] at h2
      have : cols = [c] := by
        have := lookup_of_mem P.ds hP.ds h2
        rw [lookup_of_mem P.ds hP.ds hcc] at this
        exact (Option.some.inj this).symm
      rw [this, List.mem_singleton] at h3
      have : x = col P.scalingRef c := by
        rw [← h1, ← h3]; rfl
      rwa [← this]
    rw [e]
    refine ⟨?_, ?_, ?_, ?_⟩
    · split
      · exact hk
      · simp
    · split
      · exact hn
      · rename_i h
        unfold dsNames at hn hsingle ⊢
        rw [List.map_append, List.map_singleton, List.nodup_append]
        refine ⟨hn, by simp, ?_⟩
        intro a ha b hb
        simp only [List.mem_singleton] at hb
        rw [hb]
        rintro rfl
        exact h (hsingle ha)
    · intro x hx
      split at hx
      · exact hc x hx
      · rcases List.mem_append.mp hx with hx | hx
        · exact hc x hx
        · rw [List.mem_singleton] at hx
          subst hx
          exact ⟨[c], hcc, by simp [col]⟩
    · intro M
      unfold dataForKey
      have : P.setup.scale = some (defaultScaler kw "mean_std") := by
        show P.scaling.map _ = _
        rw [h0]; rfl
      rw [this]
      have hl : P.setup.ds.lookup P.setup.scalingRef = some [c] := lookup_of_mem P.ds hP.ds hcc
      simp only [hl]
      rfl

/-- the scaled data of a result -/
theorem scaled_ok (hP : P.Sound) (info : Calculators.Info ℝ) (key : Key String) (hn : (dsNames key).Nodup)
    (hc : ∀ x ∈ key, ∃ cols, ((ofLex x).1, cols) ∈ P.ds ∧ (ofLex x).2 ∈ cols) (times : List ℝ) (ht : times ≠ []) (val : Col String → ℝ → ℝ) :
    scaled P.setup info key (framed times (P.needed key) (fun x t => some (val x t))) = .ok (framed times key (compared P.scalingCol times val)) := by
  rcases hP.scaling with h0 | ⟨⟨kw, h0⟩, c, hcc⟩
  · have e : P.needed key = key := by unfold PairJob.needed; rw [scalingCol_none P h0]
    rw [e, scalingCol_none P h0]
    unfold scaled
    have : P.setup.scale = none := by
      show P.scaling.map _ = _
      rw [h0]; rfl
    rw [this]
    rfl
  · have hs := scalingCol_some P hP h0 hcc
    have e : P.needed key = if col P.scalingRef c ∈ key then key else key ++ [col P.scalingRef c] := by
      unfold PairJob.needed; rw [hs]
    have hsingle : P.scalingRef ∈ dsNames key → col P.scalingRef c ∈ key := by
      intro h
      obtain ⟨x, hx, h1⟩ := mem_dsNames.mp h
      obtain ⟨cols, h2, h3⟩ := hc x hx
      rw [h1] at h2
      have : cols = [c] := by
        have := lookup_of_mem P.ds hP.ds h2
        rw [lookup_of_mem P.ds hP.ds hcc] at this
        exact (Option.some.inj this).symm
      rw [this, List.mem_singleton] at h3
      have : x = col P.scalingRef c := by
        rw [← h1, ← h3]; rfl
      rwa [← this]
    rw [e, hs]
    refine scaled_framed P info kw "mean_std" h0 (fun s r => .ok (Scaling.meanStd s r)) rfl
      (fun a => Scaling.meanStd a (times.map (fun t => some (val (col P.scalingRef c) t)))) times key hn (col P.scalingRef c) rfl hsingle _ _ ?_ ?_
    · intro t
      simp only [compared, if_true]
    · intro x _ hxs
      exact ⟨rfl, meanStd_compared _ times ht val x hxs⟩

/-- Matching and selection for all results of one location. -/
theorem pair_location (hP : P.Sound) (names : ℕ → List (Key String)) (hN : AreNames P.setup names) (info : Calculators.Info ℝ)
    (dfs : List (String × DF String ℝ ℝ)) (hg : P.getData info = .ok dfs) (hr : AllRead P.ds P.temporalRef dfs) :
    ∃ M, onlyColumns P.setup dfs = .ok (restricted P.ds dfs) ∧ dfs ≠ [] ∧
      basicMatcher P.window (restricted P.ds dfs) P.temporalRef P.ds.length 2 = .ok M ∧
      (M = [] → firstFailure P.setup names info = some NO_TEMP_MATCHED_DATA) ∧ (M ≠ [] → firstFailure P.setup names info = none) ∧
      ∀ key, key ∈ names 2 → ∃ times val, Matched P.window dfs P.temporalRef (P.needed key) times val ∧ (M = [] → times = []) ∧
        (M ≠ [] → dataForKey P.setup M key = .ok (framed times (P.needed key) (fun x t => some (val x t)))) := by
  obtain ⟨M, hM, hsel⟩ := pair_matcher P hP.ds hP.window hP.temporal dfs hr
  have hoc : onlyColumns P.setup dfs = .ok (restricted P.ds dfs) := onlyColumns_ok dfs (allRead_cols hP.ds hr)
  have hdne : dfs ≠ [] := by
    rintro rfl
    have := allRead_length hP.ds hr
    obtain ⟨e, he, -⟩ := List.mem_map.mp hP.temporal
    have := List.length_pos_of_mem he
    simp at *
    omega
  have hkeys : ∀ key, key ∈ names 2 → ∃ times val, Matched P.window dfs P.temporalRef (P.needed key) times val ∧ (M = [] → times = []) ∧
        (M ≠ [] → dataForKey P.setup M key = .ok (framed times (P.needed key) (fun x t => some (val x t)))) := by
    intro key hkey
    obtain ⟨ref, hA⟩ := ((hN 2 (by omega)).2.2 key).mp hkey
    have hkne : key ≠ [] := by
      rintro rfl
      have := hA.2.1
      simp at this
    obtain ⟨n1, n2, n3, n4⟩ := needed_ok P hP key hkne hA.2.2.1 hA.2.2.2.1
    obtain ⟨c1, c2⟩ := hsel (P.needed key) n1 n2 n3
    by_cases h0 : M = []
    · exact ⟨[], _, c1 h0, fun _ => rfl, fun h => absurd h0 h⟩
    · obtain ⟨data, val, d1, d2, d3⟩ := c2 h0
      refine ⟨data.index, val, d2, fun h => absurd h h0, fun _ => ?_⟩
      rw [n4 M, d1]
      unfold framed
      rw [← d3]
  have hff : firstFailure P.setup names info = if M = [] then some NO_TEMP_MATCHED_DATA else (names 2).findSome? (keyFailure P.setup info M) := by
    unfold firstFailure
    have hg' : P.setup.getData info = .ok dfs := hg
    have hmm : P.setup.calcs.mapM (fun c => P.setup.matcher (restricted P.ds dfs) P.setup.temporalRef c.1.1 c.1.2) = .ok [M] := by
      show List.mapM _ [_] = _
      rw [List.mapM_cons]
      have : P.setup.matcher (restricted P.ds dfs) P.setup.temporalRef P.ds.length 2 = .ok M := hM
      simp only [this]
      rfl
    rw [hg']
    obtain ⟨d, ds, rfl⟩ := List.exists_cons_of_ne_nil hdne
    have hmask : masked P.setup info (d :: ds) = .ok (some (d :: ds)) := rfl
    simp only [hmask, hoc, hmm]
    have hz : P.setup.calcs.zip [M] = [(((P.ds.length, 2), pairCalculator P.F P.o P.minObs), M)] := rfl
    rw [hz, List.findSome?_cons]
    simp only [List.findSome?_nil]
    split <;> simp_all
  refine ⟨M, hoc, hdne, hM, ?_, ?_, hkeys⟩
  · intro h0
    rw [hff, if_pos h0]
  · intro h0
    rw [hff, if_neg h0, List.findSome?_eq_none_iff]
    intro key hkey
    obtain ⟨times, val, -, -, h2⟩ := hkeys key hkey
    obtain ⟨ref, hA⟩ := ((hN 2 (by omega)).2.2 key).mp hkey
    unfold keyFailure
    rw [h2 h0]
    simp only
    split
    · rfl
    · split
      · rfl
      · rename_i ht
        rw [scaled_ok P hP info key hA.2.2.1 hA.2.2.2.1 times ht val]

theorem countP_pairs (times : List ℝ) (a b : ℝ → Option ℝ) :
    (times.map (fun t => ((0 : ℕ), [a t, b t]))).countP (fun r => r.2.all Option.isSome) = (pairsOf times a b).length := by
  unfold pairsOf
  induction times with
  | nil => rfl
  | cons t times ih =>
    rw [List.map_cons, List.countP_cons, ih, List.filterMap_cons]
    cases a t <;> cases b t <;> simp

theorem completePairs_pairs (times : List ℝ) (a b : ℝ → Option ℝ) :
    Calculators.completePairs (times.map (fun t => ((0 : ℕ), [a t, b t]))) = pairsOf times a b := by
  unfold pairsOf Calculators.completePairs
  rw [List.filterMap_map]
  apply List.filterMap_congr
  intro t _
  simp only [Function.comp_apply]
  cases a t <;> cases b t <;> rfl

/-- **C87.** A validation of pairs of data sets with the default temporal matcher, without scaling or with scaling to mean and standard
deviation, `handle_errors='ignore'`: at every location where all data sets were read, the row of a result is determined by the values of its two
columns (and of the scaling reference) at the times of the temporal reference at which all of them have a value: no such time: status
NO_TEMP_MATCHED_DATA; fewer than `min_obs` pairs: status INSUFFICIENT_DATA, the number of pairs and no metrics; else status OK and the values the
functions of `pytesmo.metrics` have on the pairs. -/
theorem pair_validation (hP : P.Sound) (infos : List (Calculators.Info ℝ))
    (out : List (Key String × List (Field × List (Val ℝ)))) (hout : calcAll P.setup false infos = .ok out) (x y : Col String)
    (tbl : List (Field × List (Val ℝ))) (hk : ([x, y], tbl) ∈ out) (n : ℕ) (info : Calculators.Info ℝ) (hi : infos[n]? = some info)
    (dfs : List (String × DF String ℝ ℝ)) (hg : P.getData info = .ok dfs) (hr : AllRead P.ds P.temporalRef dfs) :
    ∃ times val, Matched P.window dfs P.temporalRef (P.needed [x, y]) times val ∧
      (times = [] → EntryIs tbl (.plain "status") n (.int NO_TEMP_MATCHED_DATA)) ∧
      (times ≠ [] → ∀ l, l = pairsOf times (compared P.scalingCol times val x) (compared P.scalingCol times val y) →
        (l.length < P.minObs → EntryIs tbl (.plain "status") n (.int INSUFFICIENT_DATA) ∧ EntryIs tbl (.plain "gpi") n (.int info.gpi) ∧
          EntryIs tbl (.plain "n_obs") n (.int l.length) ∧ ∀ m ∈ Calculators.pairwiseNames P.o, EntryIs tbl (.plain m) n (.num none)) ∧
        (P.minObs ≤ l.length → 2 ≤ l.length → ∀ boot : (Pairs → ℝ) → ℝ × ℝ, (P.o.bootstrap = true → ∀ f, P.F.boot f l = .ok (boot f)) →
          EntryIs tbl (.plain "status") n (.int OK) ∧ EntryIs tbl (.plain "gpi") n (.int info.gpi) ∧
          EntryIs tbl (.plain "lon") n (.num (some info.lon)) ∧ EntryIs tbl (.plain "lat") n (.num (some info.lat)) ∧
          ∀ e ∈ Calculators.expectedPairwise P.F P.o boot l, EntryIs tbl (fieldOf e.1) n e.2)) := by
  have H := pair_good P hP.ds hP.cols hP.minObs
  have hM := pair_neverMasked P
  obtain ⟨names, hN⟩ := resultNames_exist P.setup H.dsNodup H.colsNodup
  obtain ⟨hE, -, -⟩ := calc_columns P.setup _ H hM infos out hout [x, y] tbl hk
  have hkey : [x, y] ∈ names 2 := by
    obtain ⟨c, hc, hA, -⟩ := hE
    obtain rfl := List.mem_singleton.mp hc
    exact ((hN 2 (by omega)).2.2 _).mpr hA
  obtain ⟨ref, hA⟩ := ((hN 2 (by omega)).2.2 _).mp hkey
  obtain ⟨M, hoc, hdne, hMM, hf1, hf2, hkeys⟩ := pair_location P hP names hN info dfs hg hr
  obtain ⟨times, val, t1, t2, t3⟩ := hkeys _ hkey
  refine ⟨times, val, t1, ?_, ?_⟩
  · intro h0
    refine calc_status_value P.setup _ names H hM hN infos out hout _ tbl hk n info hi _ ?_
    rintro w (⟨code, k1, rfl⟩ | ⟨k1, dfs1, dfs2, dfs3, g1, -, g2, g3, c, hc, -, M', hM', hne', data, d1, d2⟩)
    · by_cases hm : M = []
      · rw [hf1 hm] at k1
        rw [← Option.some.inj k1]
        rfl
      · rw [hf2 hm] at k1
        cases k1
    · obtain rfl := List.mem_singleton.mp hc
      have hg' : P.setup.getData info = .ok dfs := hg
      rw [hg'] at g1
      obtain rfl := Except.ok.inj g1
      have hmask : masked P.setup info dfs = .ok (some dfs) := rfl
      rw [hmask] at g2
      obtain rfl := Option.some.inj (Except.ok.inj g2)
      rw [hoc] at g3
      obtain rfl := Except.ok.inj g3
      have hMM' : P.setup.matcher (restricted P.ds dfs) P.setup.temporalRef P.ds.length 2 = .ok M := hMM
      simp only at hM'
      rw [hMM'] at hM'
      obtain rfl := Except.ok.inj hM'
      rw [t3 hne'] at d1
      obtain rfl := Except.ok.inj d1
      rcases d2 with ⟨-, rfl⟩ | ⟨hne, -⟩
      · rfl
      · exact absurd h0 hne
  · rintro hne l rfl
    have hm : M ≠ [] := fun h => hne (t2 h)
    have hsc := scaled_ok P hP info [x, y] hA.2.2.1 hA.2.2.2.1 times hne val
    set f := renamed P.setup [x, y] (framed times [x, y] (compared P.scalingCol times val)) with hf
    have hrows := toCalc_rows P [x, y] times x y (compared P.scalingCol times val)
    rw [← hf] at hrows
    have hval : ∀ m, pairCalculator P.F P.o P.minObs f info = .ok m → ∀ fld w, HasValue m fld w → EntryIs tbl fld n w := by
      intro m hmm fld w hw
      exact calc_value P.setup _ names H hM hN infos out hout _ tbl hk n info hi (hf2 hm) dfs dfs _ hg hdne rfl hoc _
        (List.mem_singleton.mpr rfl) rfl M hMM _ (t3 hm) hne _ hsc m hmm fld w hw
    constructor
    · intro hlt
      rw [← countP_pairs, ← hrows] at hlt
      obtain ⟨m, m1, m2, m3, -, -, m6⟩ := pairCalculator_reports (Calculators.pairwise_insufficient P.F P.o P.minObs none (toCalc f) info
        (fieldsOk_nil _) (.inl rfl) hlt)
      refine ⟨hval m m1 _ _ m2, hval m m1 _ _ m3, ?_, ?_⟩
      · have := m6 (Calculators.key "n_obs", _) (List.mem_append_right _ (List.mem_singleton.mpr rfl))
        rw [fieldOf_key, hrows, countP_pairs] at this
        exact hval m m1 _ _ this
      · intro name hname
        have := m6 (Calculators.key name, .num none) (List.mem_append_left _ (List.mem_map.mpr ⟨name, hname, rfl⟩))
        rw [fieldOf_key] at this
        exact hval m m1 _ _ this
    · intro hge h2 boot hboot
      obtain ⟨m, m1, m2, m3, m4, m5, m6⟩ := pairCalculator_reports (Calculators.pairwise_result P.F P.o P.minObs none (toCalc f) info
        (fieldsOk_nil _) (.inl rfl) (by
          rw [hrows]
          intro r hr
          obtain ⟨t, -, rfl⟩ := List.mem_map.mp hr
          rfl) _ (by rw [hrows, completePairs_pairs]) h2 hge boot hboot)
      exact ⟨hval m m1 _ _ m2, hval m m1 _ _ m3, hval m m1 _ _ m4, hval m m1 _ _ m5, fun e he => hval m m1 _ _ (m6 e he)⟩


/-! ### Consequences -/

/-- every pair of columns of different data sets (with the reference, if asked for) has a table, and `calc` returns -/
theorem pair_tables (hP : P.Sound) (infos : List (Calculators.Info ℝ)) (hne : infos ≠ []) :
    ∃ out, calcAll P.setup false infos = .ok out ∧ ∀ x y : Col String, (∃ tbl, ([x, y], tbl) ∈ out) ↔
      x ≤ y ∧ (ofLex x).1 ≠ (ofLex y).1 ∧ (∃ cols, ((ofLex x).1, cols) ∈ P.ds ∧ (ofLex x).2 ∈ cols) ∧
      (∃ cols, ((ofLex y).1, cols) ∈ P.ds ∧ (ofLex y).2 ∈ cols) ∧
      (P.onlyWithReference = true → P.reference = (ofLex x).1 ∨ P.reference = (ofLex y).1) := by
  have H := pair_good P hP.ds hP.cols hP.minObs
  obtain ⟨out, h1, -, h3, -⟩ := calc_table P.setup _ H false infos hne (fun i => (processOne_total P.setup _ H i).choose)
    (fun i _ => (processOne_total P.setup _ H i).choose_spec)
    (fun i _ => processOne_shape P.setup _ H (pair_neverMasked P) false i _ (processOne_total P.setup _ H i).choose_spec)
  refine ⟨out, h1, fun x y => ?_⟩
  have e : (∃ tbl, ([x, y], tbl) ∈ out) ↔ [x, y] ∈ out.map Prod.fst := by
    rw [List.mem_map]
    constructor
    · rintro ⟨tbl, h⟩
      exact ⟨_, h, rfl⟩
    · rintro ⟨⟨k, tbl⟩, h, rfl⟩
      exact ⟨tbl, h⟩
  rw [e, h3]
  constructor
  · rintro ⟨c, hc, ⟨ref, hA⟩, hr⟩
    obtain ⟨a1, a2, a3, a4, a5⟩ := hA
    refine ⟨by simpa using a1, by simpa using a3, a4 x (by simp), a4 y (by simp), ?_⟩
    intro h
    have := hr h
    simpa [dsNames, PairJob.setup] using this
  · rintro ⟨h1, h2, h3, h4, h5⟩
    refine ⟨_, List.mem_singleton.mpr rfl, ⟨(ofLex x).1, by simpa using h1, rfl, by simpa using h2, ?_, by simp⟩, ?_⟩
    · intro p hp
      rcases List.mem_pair.mp hp with rfl | rfl
      · exact h3
      · exact h4
    · intro h
      simpa [dsNames, PairJob.setup] using h5 h

theorem pairsOf_some (times : List ℝ) (a b : ℝ → ℝ) : pairsOf times (fun t => some (a t)) (fun t => some (b t)) = times.map (fun t => (a t, b t)) := by
  unfold pairsOf
  rw [← List.filterMap_eq_map]
  rfl

/-- **C87, without scaling.** The metrics of a result are those of the pairs of values at the common times. -/
theorem unscaled_validation (hP : P.Sound) (hsc : P.scaling = none) (infos : List (Calculators.Info ℝ))
    (out : List (Key String × List (Field × List (Val ℝ)))) (hout : calcAll P.setup false infos = .ok out) (x y : Col String)
    (tbl : List (Field × List (Val ℝ))) (hk : ([x, y], tbl) ∈ out) (n : ℕ) (info : Calculators.Info ℝ) (hi : infos[n]? = some info)
    (dfs : List (String × DF String ℝ ℝ)) (hg : P.getData info = .ok dfs) (hr : AllRead P.ds P.temporalRef dfs) :
    ∃ times val, Matched P.window dfs P.temporalRef [x, y] times val ∧
      (P.minObs ≤ times.length → 2 ≤ times.length → P.o.bootstrap = false →
        EntryIs tbl (.plain "n_obs") n (.int times.length) ∧
        EntryIs tbl (.plain "R") n (.num (Pairwise.pearson (times.map (fun t => (val x t, val y t))))) ∧
        EntryIs tbl (.plain "BIAS") n (.num (some (Moments.mean (times.map (val x)) - Moments.mean (times.map (val y))))) ∧
        EntryIs tbl (.plain "mse") n (.num (some (Moments.mean (times.map (fun t => (val x t - val y t) ^ 2))))) ∧
        EntryIs tbl (.plain "status") n (.int OK)) := by
  obtain ⟨times, val, h1, -, h3⟩ := pair_validation P hP infos out hout x y tbl hk n info hi dfs hg hr
  have hn : P.needed [x, y] = [x, y] := by unfold PairJob.needed; rw [scalingCol_none P hsc]
  rw [hn] at h1
  refine ⟨times, val, h1, ?_⟩
  intro hm h2 hb
  have hne : times ≠ [] := by rintro rfl; simp at h2
  obtain ⟨-, h4⟩ := h3 hne _ rfl
  rw [scalingCol_none P hsc] at h4
  have hl : pairsOf times (compared none times val x) (compared none times val y) = times.map (fun t => (val x t, val y t)) := pairsOf_some _ _ _
  rw [hl] at h4
  obtain ⟨s1, -, -, -, s5⟩ := h4 (by simpa using hm) (by simpa using h2) (fun _ => (0, 0)) (by simp [hb])
  have hlne : times.map (fun t => (val x t, val y t)) ≠ [] := by simpa using hne
  obtain ⟨d1, -, -, -, -, d6, -⟩ := Pairwise.difference_metrics_consistent _ hlne
  have ex : ∀ {k v}, (Calculators.key k, v) ∈ Calculators.expectedPairwise P.F P.o (fun _ => (0, 0)) (times.map (fun t => (val x t, val y t))) →
      EntryIs tbl (.plain k) n v := by
    intro k v h
    have := s5 _ h
    rwa [fieldOf_key] at this
  refine ⟨?_, ?_, ?_, ?_, s1⟩
  · have := ex (k := "n_obs") (v := .int (times.map (fun t => (val x t, val y t))).length) (by unfold Calculators.expectedPairwise; simp)
    simpa using this
  · exact ex (by unfold Calculators.expectedPairwise; simp)
  · have := ex (k := "BIAS") (v := .num (some (Pairwise.bias (times.map (fun t => (val x t, val y t)))))) (by
      unfold Calculators.expectedPairwise; simp)
    rw [d6, List.map_map, List.map_map] at this
    exact this
  · have := ex (k := "mse") (v := .num (some (Pairwise.msd (times.map (fun t => (val x t, val y t)))))) (by
      unfold Calculators.expectedPairwise; simp)
    rw [d1, Pairwise.meanSqDiff, List.map_map] at this
    exact this

theorem pcov_affine (l : List (ℝ × ℝ)) (hl : l ≠ []) (a b c d : ℝ) :
    Moments.pcov (l.map (fun p => (a * p.1 + b, c * p.2 + d))) = a * c * Moments.pcov l := by
  unfold Moments.pcov
  have e1 : (l.map (fun p => (a * p.1 + b, c * p.2 + d))).map Prod.fst = (l.map Prod.fst).map (fun v => a * v + b) := by
    rw [List.map_map, List.map_map]; rfl
  have e2 : (l.map (fun p => (a * p.1 + b, c * p.2 + d))).map Prod.snd = (l.map Prod.snd).map (fun v => c * v + d) := by
    rw [List.map_map, List.map_map]; rfl
  rw [e1, e2, Scaling.mean_affine _ (by simpa using hl), Scaling.mean_affine _ (by simpa using hl), List.map_map]
  generalize Moments.mean (l.map Prod.fst) = mx
  generalize Moments.mean (l.map Prod.snd) = my
  rw [Moments.mean_map, Moments.mean_map, ← mul_div_assoc, ← Moments.S_mul]
  congr 1
  apply Moments.S_congr
  intro p _
  simp only [Function.comp_apply]
  ring

/-- a positive affine change of both series does not change the correlation -/
theorem pearson_affine (l : List (ℝ × ℝ)) (hl : l ≠ []) (a b c d : ℝ) (ha : 0 < a) (hc : 0 < c) :
    Pairwise.pearson (l.map (fun p => (a * p.1 + b, c * p.2 + d))) = Pairwise.pearson l := by
  unfold Pairwise.pearson
  have e1 : (l.map (fun p => (a * p.1 + b, c * p.2 + d))).map Prod.fst = (l.map Prod.fst).map (fun v => a * v + b) := by
    rw [List.map_map, List.map_map]; rfl
  have e2 : (l.map (fun p => (a * p.1 + b, c * p.2 + d))).map Prod.snd = (l.map Prod.snd).map (fun v => c * v + d) := by
    rw [List.map_map, List.map_map]; rfl
  rw [e1, e2, Scaling.pvar_affine _ (by simpa using hl), Scaling.pvar_affine _ (by simpa using hl), pcov_affine l hl]
  have h1 : (a ^ 2 * Moments.pvar (l.map Prod.fst) = 0 ∨ c ^ 2 * Moments.pvar (l.map Prod.snd) = 0) ↔
      (Moments.pvar (l.map Prod.fst) = 0 ∨ Moments.pvar (l.map Prod.snd) = 0) := by
    simp [ha.ne', hc.ne']
  by_cases h : Moments.pvar (l.map Prod.fst) = 0 ∨ Moments.pvar (l.map Prod.snd) = 0
  · rw [if_pos (h1.mpr h), if_pos h]
  · rw [if_neg (fun h' => h (h1.mp h')), if_neg h, Real.sqrt_mul (sq_nonneg a), Real.sqrt_mul (sq_nonneg c), Real.sqrt_sq ha.le, Real.sqrt_sq hc.le]
    push Not at h
    have p1 : 0 < Real.sqrt (Moments.pvar (l.map Prod.fst)) := Real.sqrt_pos.mpr (lt_of_le_of_ne (Moments.pvar_nonneg _) (Ne.symm h.1))
    have p2 : 0 < Real.sqrt (Moments.pvar (l.map Prod.snd)) := Real.sqrt_pos.mpr (lt_of_le_of_ne (Moments.pvar_nonneg _) (Ne.symm h.2))
    congr 1
    field_simp

/-- the scaled series of a column: an increasing affine function of the series, with mean and variance of the scaling reference -/
theorem compared_affine (s : Col String) (times : List ℝ) (hne : times ≠ []) (val : Col String → ℝ → ℝ) (x : Col String)
    (hx : Moments.pvar (times.map (val x)) ≠ 0) (hs : Moments.pvar (times.map (val s)) ≠ 0) :
    ∃ a b, 0 < a ∧ (compared (some s) times val x = fun t => some (a * val x t + b)) ∧
      Moments.mean (times.map (fun t => a * val x t + b)) = Moments.mean (times.map (val s)) ∧
      Moments.pvar (times.map (fun t => a * val x t + b)) = Moments.pvar (times.map (val s)) := by
  by_cases h : x = s
  · subst h
    refine ⟨1, 0, one_pos, ?_, ?_, ?_⟩
    · funext t
      simp [compared]
    · simp
    · simp
  · have q1 := Moments.pvar_nonneg (times.map (val x))
    have q2 := Moments.pvar_nonneg (times.map (val s))
    have p1 : 0 < Real.sqrt (Moments.pvar (times.map (val x))) := Real.sqrt_pos.mpr (lt_of_le_of_ne q1 (Ne.symm hx))
    have p2 : 0 < Real.sqrt (Moments.pvar (times.map (val s))) := Real.sqrt_pos.mpr (lt_of_le_of_ne q2 (Ne.symm hs))
    set σ := Real.sqrt (Moments.pvar (times.map (val x))) with hσ
    set τ := Real.sqrt (Moments.pvar (times.map (val s))) with hτ
    have e : ∀ a b : ℝ, times.map (fun t => a * val x t + b) = (times.map (val x)).map (fun v => a * v + b) := by
      intro a b
      rw [List.map_map]
      rfl
    refine ⟨τ / σ, Moments.mean (times.map (val s)) - Moments.mean (times.map (val x)) * (τ / σ), div_pos p2 p1, ?_, ?_, ?_⟩
    · funext t
      simp only [compared, if_neg h, if_neg hx, standardised, Option.some.injEq]
      rw [← hσ, ← hτ]
      ring
    · rw [e, Scaling.mean_affine _ (by simpa using hne)]
      ring
    · rw [e, Scaling.pvar_affine _ (by simpa using hne), div_pow, hσ, hτ, Real.sq_sqrt q1, Real.sq_sqrt q2]
      field_simp

/-- **C87, scaling to mean and standard deviation.** If no matched series is constant, then the results of the scaled data show no bias and no
difference of variances (also if the scaling reference is not part of the result), the correlation is that of the data before scaling, and the mean
squared difference is twice the variance of the scaling reference times one minus the correlation. -/
theorem scaled_validation (hP : P.Sound) (s : Col String) (hs : P.scalingCol = some s) (infos : List (Calculators.Info ℝ))
    (out : List (Key String × List (Field × List (Val ℝ)))) (hout : calcAll P.setup false infos = .ok out) (x y : Col String)
    (tbl : List (Field × List (Val ℝ))) (hk : ([x, y], tbl) ∈ out) (n : ℕ) (info : Calculators.Info ℝ) (hi : infos[n]? = some info)
    (dfs : List (String × DF String ℝ ℝ)) (hg : P.getData info = .ok dfs) (hr : AllRead P.ds P.temporalRef dfs) :
    ∃ times val, Matched P.window dfs P.temporalRef (if s ∈ [x, y] then [x, y] else [x, y, s]) times val ∧
      (P.minObs ≤ times.length → 2 ≤ times.length → P.o.bootstrap = false →
        (∀ z ∈ [x, y, s], Moments.pvar (times.map (val z)) ≠ 0) →
        ∃ R, Pairwise.pearson (times.map (fun t => (val x t, val y t))) = some R ∧
          EntryIs tbl (.plain "n_obs") n (.int times.length) ∧ EntryIs tbl (.plain "status") n (.int OK) ∧
          EntryIs tbl (.plain "BIAS") n (.num (some 0)) ∧ EntryIs tbl (.plain "mse_bias") n (.num (some 0)) ∧
          EntryIs tbl (.plain "mse_var") n (.num (some 0)) ∧ EntryIs tbl (.plain "R") n (.num (some R)) ∧
          EntryIs tbl (.plain "mse") n (.num (some (2 * Moments.pvar (times.map (val s)) * (1 - R)))) ∧
          EntryIs tbl (.plain "mse_corr") n (.num (some (2 * Moments.pvar (times.map (val s)) * (1 - R))))) ∧
      (times ≠ [] → (∃ z ∈ [x, y], z ≠ s ∧ Moments.pvar (times.map (val z)) = 0) →
        EntryIs tbl (.plain "n_obs") n (.int 0) ∧ EntryIs tbl (.plain "status") n (.int INSUFFICIENT_DATA)) := by
  obtain ⟨times, val, h1, -, h3⟩ := pair_validation P hP infos out hout x y tbl hk n info hi dfs hg hr
  have hn : P.needed [x, y] = if s ∈ [x, y] then [x, y] else [x, y, s] := by unfold PairJob.needed; rw [hs]; rfl
  rw [hn] at h1
  rw [hs] at h3
  refine ⟨times, val, h1, ?_, ?_⟩
  · intro hm h2 hb hvar
    have hne : times ≠ [] := by rintro rfl; simp at h2
    obtain ⟨-, h4⟩ := h3 hne _ rfl
    have vs := hvar s (by simp)
    obtain ⟨a, b, ha, ea, ma, pa⟩ := compared_affine s times hne val x (hvar x (by simp)) vs
    obtain ⟨c, d, hc, ec, mc, pc⟩ := compared_affine s times hne val y (hvar y (by simp)) vs
    rw [ea, ec, pairsOf_some] at h4
    set l := times.map (fun t => (val x t, val y t)) with hl
    have hlne : l ≠ [] := by simpa [hl] using hne
    have hl' : times.map (fun t => (a * val x t + b, c * val y t + d)) = l.map (fun p => (a * p.1 + b, c * p.2 + d)) := by
      rw [hl, List.map_map]
      rfl
    have hR := pearson_affine l hlne a b c d ha hc
    rw [← hl'] at hR
    set l' := times.map (fun t => (a * val x t + b, c * val y t + d)) with hl''
    have hlne' : l' ≠ [] := by simpa [hl''] using hne
    have f1 : l'.map Prod.fst = times.map (fun t => a * val x t + b) := by rw [hl'', List.map_map]; rfl
    have f2 : l'.map Prod.snd = times.map (fun t => c * val y t + d) := by rw [hl'', List.map_map]; rfl
    obtain ⟨d1, -, -, -, -, d6, -⟩ := Pairwise.difference_metrics_consistent l' hlne'
    obtain ⟨-, -, m3, m4, m5, -, -, -, m9, m10, m11⟩ := Pairwise.mse_decomposition_exact l' hlne'
    rw [m3] at m9
    rw [m4] at m10
    rw [m5] at m11
    rw [f1, f2, ma, mc] at m10 d6
    rw [f1, f2, pa, pc] at m11 m9
    have hdec := Pairwise.meanSqDiff_decomp l' hlne'
    rw [f1, f2, ma, mc, pa, pc] at hdec
    have hss : Real.sqrt (Moments.pvar (times.map (val s))) * Real.sqrt (Moments.pvar (times.map (val s))) = Moments.pvar (times.map (val s)) :=
      Real.mul_self_sqrt (Moments.pvar_nonneg _)
    have hpear : Pairwise.pearson l' = some (Moments.pcov l' / Moments.pvar (times.map (val s))) := by
      unfold Pairwise.pearson
      rw [f1, f2, pa, pc, if_neg (by simp [vs]), hss]
    set R := Moments.pcov l' / Moments.pvar (times.map (val s)) with hRd
    have hcovR : Moments.pcov l' = Moments.pvar (times.map (val s)) * R := by rw [hRd]; field_simp
    obtain ⟨s1, -, -, -, s5⟩ := h4 (by simpa [hl''] using hm) (by simpa [hl''] using h2) (fun _ => (0, 0)) (by simp [hb])
    have ex : ∀ {k v}, (Calculators.key k, v) ∈ Calculators.expectedPairwise P.F P.o (fun _ => (0, 0)) l' → EntryIs tbl (.plain k) n v := by
      intro k v h
      have := s5 _ h
      rwa [fieldOf_key] at this
    refine ⟨R, by rw [← hR, hpear], ?_, s1, ?_, ?_, ?_, ?_, ?_, ?_⟩
    · have := ex (k := "n_obs") (v := .int l'.length) (by unfold Calculators.expectedPairwise; simp)
      simpa [hl''] using this
    · have := ex (k := "BIAS") (v := .num (some (Pairwise.bias l'))) (by unfold Calculators.expectedPairwise; simp)
      rw [d6, sub_self] at this
      exact this
    · have := ex (k := "mse_bias") (v := .num (some (Pairwise.mseBias l'))) (by unfold Calculators.expectedPairwise; simp)
      rw [m10, sub_self, sq, mul_zero] at this
      exact this
    · have := ex (k := "mse_var") (v := .num (some (Pairwise.mseVar l'))) (by unfold Calculators.expectedPairwise; simp)
      rw [m11, sub_self, sq, mul_zero] at this
      exact this
    · have := ex (k := "R") (v := .num (Pairwise.pearson l')) (by unfold Calculators.expectedPairwise; simp)
      rwa [hpear] at this
    · have := ex (k := "mse") (v := .num (some (Pairwise.msd l'))) (by unfold Calculators.expectedPairwise; simp)
      rw [d1, hdec, hcovR] at this
      convert this using 4
      ring
    · have := ex (k := "mse_corr") (v := .num (some (Pairwise.mseCorr l'))) (by unfold Calculators.expectedPairwise; simp)
      rw [m9, hcovR, mul_assoc, hss] at this
      convert this using 4
      ring
  · intro hne hz
    obtain ⟨h4, -⟩ := h3 hne _ rfl
    have h0 : pairsOf times (compared (some s) times val x) (compared (some s) times val y) = [] := by
      unfold pairsOf
      rw [List.filterMap_eq_nil_iff]
      intro t _
      obtain ⟨z, hz1, hz2, hz3⟩ := hz
      have hc : compared (some s) times val z t = none := by simp only [compared, if_neg hz2, if_pos hz3]
      rcases List.mem_pair.mp hz1 with rfl | rfl
      · rw [hc]
      · rw [hc]
        cases compared (some s) times val x t <;> rfl
    rw [h0] at h4
    obtain ⟨k1, -, k3, -⟩ := h4 hP.minObs
    exact ⟨k3, k1⟩

/-! ### Case -/

/-- three data sets, the third one is the scaling reference; the temporal reference is the first one -/
def exJob : PairJob where
  ds := [("a", ["x"]), ("b", ["x"]), ("c", ["y"])]
  reference := "a"
  temporalRef := "a"
  scalingRef := "c"
  getData := fun _ => .ok
    [("a", ⟨["x"], [(1, fun _ => some 1), (2, fun _ => some 2), (3, fun _ => some 4)]⟩),
     ("b", ⟨["x", "flag"], [(1, fun _ => some 10), (2.1, fun _ => some 30), (3, fun _ => some 20)]⟩),
     ("c", ⟨["y"], [(0.9, fun _ => some 5), (2, fun _ => some 6), (3, fun _ => some 8), (9, fun _ => some 0)]⟩)]
  window := 0.5
  scaling := some (⟨⟨100, none, none, false, false⟩, none, none⟩, "mean_std")
  F := ⟨fun _ _ _ => 0, fun _ _ => 0, fun _ _ => 0, fun _ => 0, fun _ => none, fun _ => none, fun _ _ => .ok (0, 0)⟩
  o := ⟨false, false, true, false⟩
  minObs := 2
  renameCols := true
  onlyWithReference := true

/-- the hypotheses of C87 hold, the table of "a" and "b" exists, scaled to the third data set -/
example : exJob.Sound ∧ exJob.scalingCol = some (col "c" "y") ∧ (∃ dfs, exJob.getData ⟨1, 2, 3, none⟩ = .ok dfs ∧ AllRead exJob.ds "a" dfs) ∧
    (col "a" "x" ≤ col "b" "x" ∧ exJob.needed [col "a" "x", col "b" "x"] = [col "a" "x", col "b" "x", col "c" "y"]) := by
  refine ⟨⟨by decide, by decide, by norm_num [exJob], by decide, by decide, .inr ⟨⟨_, rfl⟩, "y", by decide⟩⟩, by decide, ⟨_, rfl, ?_⟩, ?_⟩
  · refine ⟨by decide, ?_, ?_, ?_⟩
    · intro e he
      fin_cases he
      · exact ⟨["x"], by decide⟩
      · exact ⟨["x"], by decide⟩
      · exact ⟨["y"], by decide⟩
    · intro e he
      fin_cases he
      · exact ⟨_, List.mem_cons_self, by simp⟩
      · exact ⟨_, List.mem_cons_of_mem _ List.mem_cons_self, by simp⟩
      · exact ⟨_, List.mem_cons_of_mem _ (List.mem_cons_of_mem _ List.mem_cons_self), by simp⟩
    · intro e he hne
      fin_cases he
      · exact absurd rfl hne
      · norm_num
      · norm_num
  · decide

end

theorem exJob_sound : exJob.Sound := ⟨by decide, by decide, by norm_num [exJob], by decide, by decide, .inr ⟨⟨_, rfl⟩, "y", by decide⟩⟩
example := pair_tables exJob exJob_sound [⟨1, 2, 3, none⟩, ⟨2, 2, 3, none⟩] (by simp)
example (infos out) (hout : calcAll ({ exJob with scaling := none } : PairJob).setup false infos = .ok out) (tbl) (hk : ([col "a" "x", col "b" "x"], tbl) ∈ out) (n : ℕ) (info)
    (hi : infos[n]? = some info) (dfs) (hg : exJob.getData info = .ok dfs) (hr : AllRead exJob.ds "a" dfs) :=
  unscaled_validation { exJob with scaling := none } ⟨by decide, by decide, by norm_num [exJob], by decide, by decide, .inl rfl⟩ rfl infos out hout
    (col "a" "x") (col "b" "x") tbl hk n info hi dfs hg hr
end Verif.Validation
