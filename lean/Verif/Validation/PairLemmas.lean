import Verif.Validation.Pair
import Verif.Validation.Values

/-! Lemmas for C87. -/

set_option linter.unusedSectionVars false
set_option synthInstance.maxSize 1000

noncomputable section

namespace Verif.Validation

open DataManager (Col col Admissible)
open Pairwise (Pairs)
open Calculators (Dict Val PairFuncs PairOptions)

/-! ### The calculator -/

theorem fieldOf_injective : Function.Injective fieldOf := by
  intro a b h
  cases a <;> cases b <;> simp only [fieldOf, Field.plain.injEq, Field.tup.injEq, List.cons.injEq, and_true, reduceCtorEq] at h
  · rw [String.ofList_injective h]
  · rw [String.ofList_injective h.1, String.ofList_injective h.2]

theorem fieldOf_key (s : String) : fieldOf (Calculators.key s) = .plain s := by
  simp [fieldOf, Calculators.key]

theorem set_keys {d d' : Dict ℝ} {kv} (h : Calculators.set d kv = .ok d') : d'.map Prod.fst = d.map Prod.fst := by
  unfold Calculators.set at h
  split at h
  · rename_i hk
    rw [← Except.ok.inj h]
    exact Calculators.keys_put_mem d kv.1 kv.2 hk
  · cases h

theorem setAll_keys {d d' : Dict ℝ} {ws} (h : Calculators.setAll d ws = .ok d') : d'.map Prod.fst = d.map Prod.fst := by
  unfold Calculators.setAll at h
  induction ws generalizing d with
  | nil => rw [show d = d' from Except.ok.inj h]
  | cons w ws ih =>
    rw [List.foldlM_cons] at h
    simp only [bind, Except.bind] at h
    split at h
    · cases h
    · rename_i d1 h1
      rw [ih h, set_keys h1]

theorem pairwiseCalc_keys {F : PairFuncs} {o : PairOptions} {minObs : ℕ} {T d : Dict ℝ} {data info}
    (h : Calculators.pairwiseCalc F o minObs T none data info = .ok d) : d.map Prod.fst = T.map Prod.fst := by
  unfold Calculators.pairwiseCalc at h
  simp only [bind, Except.bind] at h
  split at h
  · cases h
  rename_i d1 h1
  have k1 : d1.map Prod.fst = T.map Prod.fst := by
    unfold Calculators.metadataCalc at h1
    simp only [bind, Except.bind] at h1
    split at h1
    · cases h1
    · rename_i d0 h0
      rw [← Except.ok.inj h1]
      exact setAll_keys h0
  split at h
  · cases h
  rename_i d2 h2
  have k2 := set_keys h2
  split at h
  · rw [set_keys h, k2, k1]
  · split at h
    · cases h
    · split at h
      · cases h
      · split at h
        · cases h
        · rename_i d3 h3
          rw [set_keys h, setAll_keys h3, k2, k1]

/-- the fields of a result -/
def pairFields (o : PairOptions) : List Field :=
  ((Calculators.update (Calculators.metadataTemplate none) (Calculators.missingPairwise o) : Dict ℝ).map Prod.fst).map fieldOf

theorem fieldsOk_nil (names : List Calculators.Key) : Calculators.FieldsOk ((none : Option (Dict ℝ)).getD []) names :=
  ⟨by simp, by simp⟩

theorem pairCalculator_ok {F : PairFuncs} {o : PairOptions} {minObs : ℕ} {f info m}
    (h : pairCalculator F o minObs f info = .ok m) : ∃ d, Calculators.pairwiseCalc F o minObs
      (Calculators.update (Calculators.metadataTemplate none) (Calculators.missingPairwise o)) none (toCalc f) info = .ok d ∧
      m = d.map (fun e => (fieldOf e.1, .arr e.2)) := by
  unfold pairCalculator at h
  rw [Calculators.pairwiseTemplate_eq] at h
  simp only [Except.bind] at h
  split at h
  · cases h
  · rename_i d hd
    exact ⟨d, hd, (Except.ok.inj h).symm⟩

theorem pairCalculator_row {F : PairFuncs} {o : PairOptions} {minObs : ℕ} {f info m}
    (h : pairCalculator F o minObs f info = .ok m) : IsRow (pairFields o) m := by
  obtain ⟨d, hd, rfl⟩ := pairCalculator_ok h
  constructor
  · rw [List.map_map]
    unfold pairFields
    rw [← pairwiseCalc_keys hd, List.map_map]
    rfl
  · intro e he
    obtain ⟨x, -, rfl⟩ := List.mem_map.mp he
    exact ⟨_, rfl⟩

/-- the calculator of a validation reports what the calculator of pairs reports -/
theorem pairCalculator_reports {F : PairFuncs} {o : PairOptions} {minObs : ℕ} {f : Frame String ℝ ℝ} {info : Calculators.Info ℝ} {s : Val ℝ}
    {vals : Dict ℝ} (h : ∃ T d, Calculators.pairwiseTemplate o none = .ok T ∧ Calculators.pairwiseCalc F o minObs T none (toCalc f) info = .ok d ∧
      Calculators.Reports [] info s vals d) :
    ∃ m, pairCalculator F o minObs f info = .ok m ∧ HasValue m (.plain "status") s ∧ HasValue m (.plain "gpi") (.int info.gpi) ∧
      HasValue m (.plain "lon") (.num (some info.lon)) ∧ HasValue m (.plain "lat") (.num (some info.lat)) ∧
      ∀ e ∈ vals, HasValue m (fieldOf e.1) e.2 := by
  obtain ⟨T, d, h1, h2, R⟩ := h
  have hv : ∀ k v, d.lookup k = some v → HasValue (d.map (fun e => (fieldOf e.1, Cell.arr e.2))) (fieldOf k) v := by
    intro k v hl
    exact List.mem_map.mpr ⟨(k, v), mem_of_lookup d hl, rfl⟩
  refine ⟨d.map (fun e => (fieldOf e.1, .arr e.2)), ?_, ?_, ?_, ?_, ?_, ?_⟩
  · unfold pairCalculator
    rw [h1]
    simp only [Except.bind, h2]
  · rw [← fieldOf_key]; exact hv _ _ R.status
  · rw [← fieldOf_key]; exact hv _ _ R.gpi
  · rw [← fieldOf_key]; exact hv _ _ R.lon
  · rw [← fieldOf_key]; exact hv _ _ R.lat
  · intro e he
    exact hv _ _ (R.values e he)

theorem pair_good (P : PairJob) (hn : (P.ds.map Prod.fst).Nodup) (hc : ∀ e ∈ P.ds, e.2.Nodup) (hmin : 1 ≤ P.minObs) :
    GoodCalculators P.setup (fun _ => pairFields P.o) := by
  have hk : ∀ k, k ∈ (Calculators.update (Calculators.metadataTemplate none) (Calculators.missingPairwise P.o) : Dict ℝ).map Prod.fst ↔
      k ∈ Calculators.reserved ∨ k ∈ (Calculators.missingPairwise P.o).map Prod.fst := by
    intro k
    rw [Calculators.mem_keys_update, Calculators.keys_metadataTemplate]
    simp
  constructor
  · exact hn
  · exact hc
  · intro c h
    obtain rfl := List.mem_singleton.mp h
    simp
  · simp [PairJob.setup]
  · intro c _
    exact (Calculators.nodup_update _ _ (Calculators.nodup_metadataTemplate none)).map fieldOf_injective
  · intro c _
    rw [← fieldOf_key]
    exact List.mem_map_of_mem ((hk _).mpr (.inl (by decide)))
  · intro c h _ _ _ frame info m _ hm
    obtain rfl := List.mem_singleton.mp h
    exact pairCalculator_row hm
  · intro c h key _ _ info
    generalize (dsNames key).map (fun a => ((Label.ds a, []) : Label String × List (Option ℝ))) = cols
    obtain rfl := List.mem_singleton.mp h
    obtain ⟨m, h1, -⟩ := pairCalculator_reports (f := ⟨[], cols⟩) (Calculators.pairwise_insufficient P.F P.o P.minObs none (toCalc ⟨[], cols⟩) info
      (fieldsOk_nil _) (.inl rfl) (by
        show 0 < P.minObs
        omega))
    exact ⟨m, h1⟩

theorem pair_neverMasked (P : PairJob) : NeverAllMasked P.setup := by
  intro mask h
  cases h

/-! ### Reading and matching -/

theorem onlyColumns_ok {T V W Info : Type} {S : Setup String T V W Info} (dfs : List (String × DF String T V))
    (h : ∀ e ∈ dfs, ∃ cols, S.ds.lookup e.1 = some cols ∧ ∀ c ∈ cols, c ∈ e.2.cols) :
    onlyColumns S dfs = .ok (dfs.map (fun e => (e.1, ⟨(S.ds.lookup e.1).getD [], e.2.rows⟩))) := by
  induction dfs with
  | nil => rfl
  | cons e dfs ih =>
    obtain ⟨n, d⟩ := e
    obtain ⟨cols, h1, h2⟩ := h (n, d) (by simp)
    unfold onlyColumns
    simp only at h1 h2
    simp only [h1]
    rw [if_pos (by simpa using h2), ih (fun e he => h e (by simp [he]))]
    simp only [bind, Except.bind, List.map_cons, h1, Option.getD_some]

/-- the data sets as they go to the matcher -/
def restricted (ds : List (String × List String)) (dfs : List (String × DF String ℝ ℝ)) : List (String × DF String ℝ ℝ) :=
  dfs.map (fun e => (e.1, ⟨(ds.lookup e.1).getD [], e.2.rows⟩))

theorem seenAt_restricted (ds : List (String × List String)) (dfs : List (String × DF String ℝ ℝ)) (window : ℝ) (tref : String) (t : ℝ)
    (d c : String) (v : Option ℝ) : SeenAt window (restricted ds dfs) tref t d c v ↔ SeenAt window dfs tref t d c v := by
  unfold SeenAt restricted
  constructor
  · rintro ⟨df, hdf, h⟩
    obtain ⟨e, he, heq⟩ := List.mem_map.mp hdf
    obtain ⟨rfl, rfl⟩ := Prod.mk.inj heq
    exact ⟨e.2, he, h⟩
  · rintro ⟨df, hdf, h⟩
    exact ⟨_, List.mem_map.mpr ⟨(d, df), hdf, rfl⟩, h⟩

theorem allRead_length {ds : List (String × List String)} {tref : String} {dfs : List (String × DF String ℝ ℝ)} (hds : (ds.map Prod.fst).Nodup)
    (h : AllRead ds tref dfs) : dfs.length = ds.length := by
  have hp : (dfs.map Prod.fst).Perm (ds.map Prod.fst) := by
    rw [List.perm_ext_iff_of_nodup h.nodup hds]
    intro a
    constructor
    · intro ha
      obtain ⟨e, he, rfl⟩ := List.mem_map.mp ha
      obtain ⟨cols, hc⟩ := h.known e he
      exact List.mem_map.mpr ⟨_, hc, rfl⟩
    · intro ha
      obtain ⟨e, he, rfl⟩ := List.mem_map.mp ha
      obtain ⟨df, hd, -⟩ := h.all e he
      exact List.mem_map.mpr ⟨_, hd, rfl⟩
  simpa using hp.length_eq

theorem allRead_cols {ds : List (String × List String)} {tref : String} {dfs : List (String × DF String ℝ ℝ)} (hds : (ds.map Prod.fst).Nodup)
    (h : AllRead ds tref dfs) : ∀ e ∈ dfs, ∃ cols, ds.lookup e.1 = some cols ∧ ∀ c ∈ cols, c ∈ e.2.cols := by
  intro e he
  obtain ⟨cols, hc⟩ := h.known e he
  refine ⟨cols, lookup_of_mem ds hds hc, ?_⟩
  obtain ⟨df, hd, hcc⟩ := h.all _ hc
  have : e = (e.1, df) := List.inj_on_of_nodup_map h.nodup he hd rfl
  rw [this]
  exact hcc

/-- matched data of the columns `sel`, as columns of numbers -/
theorem matched_of_data {window : ℝ} {dfs : List (String × DF String ℝ ℝ)} (hn : (dfs.map Prod.fst).Nodup) {tref : String}
    {sel : List (Col String)} {data : Frame String ℝ ℝ} (h : IsMatchedData window dfs tref (fun d c => toLex (d, c) ∈ sel) sel data) :
    ∃ val, Matched window dfs tref sel data.index val ∧
      data.columns = sel.map (fun x => (.ds (ofLex x).1, data.index.map (fun t => some (val x t)))) := by
  obtain ⟨h1, h2, value, h3, h4⟩ := h
  have hv : ∀ t ∈ data.index, ∀ x ∈ sel, value x t = some ((value x t).getD 0) := by
    intro t ht x hx
    obtain ⟨v, hv⟩ := ((h2 t).mp ht).2 (ofLex x).1 (ofLex x).2 hx
    rw [seenAt_unique hn (h3 t ht x hx) hv]
    rfl
  refine ⟨fun x t => (value x t).getD 0, ⟨h1, ?_, ?_⟩, ?_⟩
  · intro t
    rw [h2 t]
    exact and_congr_right (fun _ => ⟨fun h x hx => h _ _ hx, fun h d c hdc => h _ hdc⟩)
  · intro t ht x hx
    rw [← hv t ht x hx]
    exact h3 t ht x hx
  · rw [h4]
    refine List.map_congr_left (fun x hx => congrArg _ (List.map_congr_left (fun t ht => hv t ht x hx)))

theorem matched_restricted {ds : List (String × List String)} {window : ℝ} {dfs : List (String × DF String ℝ ℝ)} {tref : String}
    {sel : List (Col String)} {times : List ℝ} {val : Col String → ℝ → ℝ} (h : Matched window (restricted ds dfs) tref sel times val) :
    Matched window dfs tref sel times val := by
  obtain ⟨h1, h2, h3⟩ := h
  refine ⟨h1, ?_, ?_⟩
  · intro t
    rw [h2 t]
    simp only [seenAt_restricted]
    refine and_congr_left (fun _ => ?_)
    unfold restricted
    constructor
    · rintro ⟨df, hdf, h⟩
      obtain ⟨e, he, heq⟩ := List.mem_map.mp hdf
      obtain ⟨rfl, rfl⟩ := Prod.mk.inj heq
      exact ⟨e.2, he, h⟩
    · rintro ⟨df, hdf, h⟩
      exact ⟨_, List.mem_map.mpr ⟨(tref, df), hdf, rfl⟩, h⟩
  · intro t ht x hx
    rw [← seenAt_restricted ds]
    exact h3 t ht x hx

/-- The matcher on the data that was read: no time with any value at all, or for every selection of columns its matched data. -/
theorem pair_matcher (P : PairJob) (hn : (P.ds.map Prod.fst).Nodup) (hw : 0 ≤ P.window) (ht : P.temporalRef ∈ P.ds.map Prod.fst)
    (dfs : List (String × DF String ℝ ℝ)) (hr : AllRead P.ds P.temporalRef dfs) :
    ∃ M, basicMatcher P.window (restricted P.ds dfs) P.temporalRef P.ds.length 2 = .ok M ∧
      ∀ sel : List (Col String), sel ≠ [] → (dsNames sel).Nodup → (∀ x ∈ sel, ∃ cols, ((ofLex x).1, cols) ∈ P.ds ∧ (ofLex x).2 ∈ cols) →
        (M = [] → Matched P.window dfs P.temporalRef sel [] (fun _ _ => 0)) ∧
        (M ≠ [] → ∃ data val, getDataForResultTuple P.temporalRef M sel = .ok data ∧
          Matched P.window dfs P.temporalRef sel data.index val ∧
          data.columns = sel.map (fun x => (.ds (ofLex x).1, data.index.map (fun t => some (val x t))))) := by
  have hrn : ((restricted P.ds dfs).map Prod.fst).Nodup := by
    unfold restricted
    rw [List.map_map]
    exact hr.nodup
  have hlen : (restricted P.ds dfs).length = P.ds.length := by
    unfold restricted
    rw [List.length_map, allRead_length hn hr]
  obtain ⟨e, he, htn⟩ := List.mem_map.mp ht
  obtain ⟨ref, href, -⟩ := hr.all e he
  rw [htn] at href
  have href' : (P.temporalRef, (⟨(P.ds.lookup P.temporalRef).getD [], ref.rows⟩ : DF String ℝ ℝ)) ∈ restricted P.ds dfs :=
    List.mem_map.mpr ⟨_, href, rfl⟩
  obtain ⟨outc, hout⟩ := Matchers.combinatory_matcher_total P.window hw ((restricted P.ds dfs).map (fun e => (e.1, toM e.2))) P.temporalRef
    (by
      rw [List.map_map]
      exact List.mem_map.mpr ⟨_, href', rfl⟩) P.ds.length (List.length_pos_of_mem he) (by
      intro x hx hxn
      obtain ⟨y, hy, rfl⟩ := List.mem_map.mp hx
      obtain ⟨z, hz, rfl⟩ := List.mem_map.mp hy
      left
      have := hr.sorted z hz hxn
      rw [List.pairwise_map] at this
      simp only [toM]
      rw [List.pairwise_map]
      exact this)
  have hM : basicMatcher P.window (restricted P.ds dfs) P.temporalRef P.ds.length 2 = .ok (outc.map (fun e => (e.1, ofM e.2))) := by
    unfold basicMatcher viaM
    simp only [hout]
  refine ⟨_, hM, ?_⟩
  intro sel hs1 hs2 hs3
  have hM' := hM
  rw [← hlen] at hM'
  obtain ⟨c1, c2⟩ := basic_matched_data_partial P.window hw (restricted P.ds dfs) hrn P.temporalRef _ href' 2 _ hM'
  have hcol : ∀ x ∈ sel, ∃ df, ((ofLex x).1, df) ∈ restricted P.ds dfs ∧ (ofLex x).2 ∈ df.cols := by
    intro x hx
    obtain ⟨cols, hc1, hc2⟩ := hs3 x hx
    obtain ⟨df, hd, -⟩ := hr.all _ hc1
    refine ⟨_, List.mem_map.mpr ⟨_, hd, rfl⟩, ?_⟩
    simp only
    rw [lookup_of_mem P.ds hn hc1]
    exact hc2
  constructor
  · intro h0
    refine ⟨by simp, ?_, by simp⟩
    intro t
    simp only [List.not_mem_nil, false_iff, not_and]
    rintro ⟨df, hdf, r, hr1, hr2⟩ hall
    obtain ⟨x, xs, rfl⟩ := List.exists_cons_of_ne_nil hs1
    obtain ⟨v, hv⟩ := hall x (by simp)
    obtain rfl : df = ref := (Prod.mk.inj (List.inj_on_of_nodup_map hr.nodup hdf href rfl)).2
    have := c1 h0 t _ _ _ ⟨r, hr1, hr2⟩ (hcol x (by simp)) ((seenAt_restricted P.ds dfs _ _ _ _ _ _).mpr hv)
    cases this
  · intro h0
    obtain ⟨data, hd, hm⟩ := c2 h0 sel hs1 hs2 hcol
    obtain ⟨val, k1, k2⟩ := matched_of_data hrn hm
    exact ⟨data, val, hd, matched_restricted k1, k2⟩

/-! ### Scaling -/

theorem mem_dsNames {key : Key String} {a : String} : a ∈ dsNames key ↔ ∃ x ∈ key, (ofLex x).1 = a := by
  unfold dsNames
  rw [List.mem_map]

/-- the columns of a frame with the values `u x t` -/
def framed (times : List ℝ) (sel : List (Col String)) (u : Col String → ℝ → Option ℝ) : Frame String ℝ ℝ :=
  ⟨times, sel.map (fun x => (.ds (ofLex x).1, times.map (u x)))⟩

/-- `scale` on named columns -/
theorem scale_framed (f : Scaling.Method) (g : Scaling.Arr → Scaling.Arr) (times : List ℝ) (sel : List (Col String)) (hn : (dsNames sel).Nodup)
    (u u' : Col String → ℝ → Option ℝ) (s : Col String) (i : ℕ) (hi : sel[i]? = some s) (hs : ∀ t, u' s t = u s t)
    (hf : ∀ x ∈ sel, x ≠ s → f (times.map (u x)) (times.map (u s)) = .ok (g (times.map (u x))) ∧ g (times.map (u x)) = times.map (u' x)) :
    Scaling.scale (.ok f) (sel.map (fun x => ((ofLex x).1, times.map (u x)))) i = .ok (sel.map (fun x => ((ofLex x).1, times.map (u' x)))) := by
  have hsm : s ∈ sel := List.mem_of_getElem? hi
  have hrows : Scaling.nRows (sel.map (fun x => ((ofLex x).1, times.map (u x)))) = times.length := by
    unfold Scaling.nRows
    cases sel with
    | nil => simp at hsm
    | cons x sel => simp
  obtain ⟨out, h1, h2, h3, h4⟩ := Scaling.scale_spec f g (sel.map (fun x => ((ofLex x).1, times.map (u x)))) (by
      rw [List.map_map]
      exact hn) i ((ofLex s).1, times.map (u s)) (by rw [List.getElem?_map, hi]; rfl) (by
      intro c hc hne
      obtain ⟨x, hx, rfl⟩ := List.mem_map.mp hc
      obtain ⟨k1, k2⟩ := hf x hx (fun h => hne (by rw [h]))
      refine ⟨k1, ?_⟩
      rw [k2, hrows, List.length_map])
  rw [h1]
  congr 1
  apply List.ext_getElem?
  intro j
  by_cases hj : j = i
  · subst hj
    rw [h3, List.getElem?_map, hi]
    simp only [Option.map_some, Option.some.injEq, Prod.mk.injEq, true_and]
    exact List.map_congr_left (fun t _ => (hs t).symm)
  · rw [List.getElem?_map]
    cases hx : sel[j]? with
    | none =>
      have hlen : out.length = sel.length := by
        have := congrArg List.length h2
        simpa using this
      rw [Option.map_none, List.getElem?_eq_none_iff, hlen]
      exact List.getElem?_eq_none_iff.mp hx
    | some x =>
      have hxm : x ∈ sel := List.mem_of_getElem? hx
      have hxs : x ≠ s := by
        rintro rfl
        apply hj
        have hnd : sel.Nodup := hn.of_map
        obtain ⟨l1, g1⟩ := List.getElem?_eq_some_iff.mp hx
        obtain ⟨l2, g2⟩ := List.getElem?_eq_some_iff.mp hi
        exact (List.Nodup.getElem_inj_iff hnd).mp (g1.trans g2.symm)
      rw [h4 j ((ofLex x).1, times.map (u x)) hj (by rw [List.getElem?_map, hx]; rfl), (hf x hxm hxs).2]
      rfl

/-- the scaler of a validation on matched data, and what is left of it for the calculator -/
theorem scaled_framed (P : PairJob) (info : Calculators.Info ℝ) (kw : Scaling.Kwargs) (method : String) (hsc : P.scaling = some (kw, method))
    (f : Scaling.Method) (hmethod : Scaling.scalingFunction kw method = .ok f) (g : Scaling.Arr → Scaling.Arr) (times : List ℝ)
    (key : Key String) (hkey : (dsNames key).Nodup) (s : Col String) (hs : (ofLex s).1 = P.scalingRef)
    (hfirst : P.scalingRef ∈ dsNames key → s ∈ key) (u u' : Col String → ℝ → Option ℝ) (hu : ∀ t, u' s t = u s t)
    (hf : ∀ x ∈ key, x ≠ s → f (times.map (u x)) (times.map (u s)) = .ok (g (times.map (u x))) ∧ g (times.map (u x)) = times.map (u' x)) :
    scaled P.setup info key (framed times (if s ∈ key then key else key ++ [s]) u) = .ok (framed times key u') := by
  set sel := if s ∈ key then key else key ++ [s] with hsel
  have hin : s ∈ key ↔ P.scalingRef ∈ dsNames key := ⟨fun h => mem_dsNames.mpr ⟨s, h, hs⟩, hfirst⟩
  have hsm : s ∈ sel := by
    rw [hsel]; split
    · assumption
    · simp
  have hmem : ∀ x ∈ sel, x ≠ s → x ∈ key := by
    intro x hx hne
    rw [hsel] at hx
    split at hx
    · exact hx
    · simpa [hne] using hx
  have hn : (dsNames sel).Nodup := by
    rw [hsel]
    split
    · exact hkey
    · rename_i h
      unfold dsNames at hkey ⊢
      rw [List.map_append, List.map_singleton, List.nodup_append]
      refine ⟨hkey, by simp, ?_⟩
      intro a ha b hb
      simp only [List.mem_singleton] at hb
      rw [hb, hs]
      rintro rfl
      exact h (hin.mpr ha)
  have hinj : ∀ x ∈ sel, ∀ y ∈ sel, (ofLex x).1 = (ofLex y).1 → x = y := fun x hx y hy h => List.inj_on_of_nodup_map hn hx hy h
  -- position of the scaling reference
  have hfind : ∃ i, (framed times sel u).columns.findIdx? (fun c => decide (c.1 = .ds P.scalingRef)) = some i ∧ sel[i]? = some s := by
    unfold framed
    simp only
    rw [List.findIdx?_map]
    cases hidx : sel.findIdx? ((fun c : Label String × List (Option ℝ) => decide (c.1 = .ds P.scalingRef)) ∘
        fun x => (.ds (ofLex x).1, times.map (u x))) with
    | none =>
      have := List.findIdx?_eq_none_iff.mp hidx s hsm
      simp [hs] at this
    | some i =>
      obtain ⟨h1, h2, -⟩ := List.findIdx?_eq_some_iff_getElem.mp hidx
      refine ⟨i, rfl, ?_⟩
      simp only [Function.comp_apply, decide_eq_true_eq, Label.ds.injEq] at h2
      rw [List.getElem?_eq_getElem h1, hinj _ (List.getElem_mem h1) s hsm (h2.trans hs.symm)]
  obtain ⟨i, hi1, hi2⟩ := hfind
  have hscale : defaultScaler kw method (framed times sel u) i info = .ok (framed times sel u') := by
    unfold defaultScaler
    rw [hmethod]
    have e : toScaling (framed times sel u) = sel.map (fun x => ((ofLex x).1, times.map (u x))) := by
      unfold toScaling framed
      simp only [List.map_map]
      rfl
    rw [e, scale_framed f g times sel hn u u' s i hi2 hu (fun x hx hne => hf x (hmem x hx hne) hne)]
    simp only [framed, List.map_map]
    rfl
  unfold scaled
  have hS : P.setup.scale = some (defaultScaler kw method) := by
    show P.scaling.map _ = _
    rw [hsc]
    rfl
  rw [hS]
  simp only
  have hi1' : (framed times sel u).columns.findIdx? (fun c => decide (c.1 = .ds P.setup.scalingRef)) = some i := hi1
  rw [hi1']
  simp only [hscale]
  by_cases hk : s ∈ key
  · rw [if_pos (show P.setup.scalingRef ∈ dsNames key from hin.mp hk), hsel, if_pos hk]
  · rw [if_neg (show ¬ P.setup.scalingRef ∈ dsNames key from fun h => hk (hin.mpr h))]
    have hsel' : sel = key ++ [s] := by rw [hsel, if_neg hk]
    rw [if_pos (by
      rw [List.any_eq_true]
      exact ⟨_, List.mem_map.mpr ⟨s, hsm, rfl⟩, by simp [hs, PairJob.setup]⟩)]
    congr 1
    unfold framed
    simp only
    rw [hsel', List.map_append, List.filter_append]
    have h1 : (key.map (fun x => ((.ds (ofLex x).1 : Label String), times.map (u' x)))).filter
        (fun c => !decide (c.1 = .ds P.setup.scalingRef)) = key.map (fun x => (.ds (ofLex x).1, times.map (u' x))) := by
      rw [List.filter_eq_self]
      intro c hc
      obtain ⟨x, hx, rfl⟩ := List.mem_map.mp hc
      simp only [Label.ds.injEq, Bool.not_eq_true', decide_eq_false_iff_not]
      intro h
      exact hk (hin.mpr (mem_dsNames.mpr ⟨x, hx, h⟩))
    rw [h1]
    simp [hs, PairJob.setup]

/-! ### The calculator on a frame of two columns -/

theorem toCalc_rows (S : PairJob) (key : Key String) (times : List ℝ) (x y : Col String) (u : Col String → ℝ → Option ℝ) :
    (toCalc (renamed S.setup key (framed times [x, y] u))).rows = times.map (fun t => (0, [u x t, u y t])) := by
  have hcols : (toCalc (renamed S.setup key (framed times [x, y] u))).rows =
      (List.range times.length).map (fun i => (0, [((times.map (u x))[i]?).join, ((times.map (u y))[i]?).join])) := by
    unfold renamed
    split <;> rfl
  rw [hcols]
  apply List.ext_getElem
  · simp
  · intro i h1 h2
    simp at h1 h2 ⊢
    rw [List.getElem?_eq_getElem h1]
    simp

end Verif.Validation
