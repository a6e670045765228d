import Verif.Validation.PairLemmas
import Verif.Calculators.Triple
import Verif.Tcol.Props

/-!
C97: a validation by triple collocation put together from the models of the parts: `make_combined_temporal_matcher`,
`TripleCollocationMetrics` and `tcol_metrics`, with `rename_cols=False` and `only_with_reference=True` as the documentation asks for.
-/

set_option linter.unusedSectionVars false
set_option synthInstance.maxSize 1000

noncomputable section

namespace Verif.Validation

open DataManager (Col col Admissible)
open Calculators (Dict Val Tc)

/-- metric_calculators.py:1754-1813 `TripleCollocationMetrics(refname, min_obs).calc_metrics` without bootstrap and metadata template, as a
calculator of a validation. `tcol` stands for `tcol_metrics`. -/
def tripleCalculator (tcol : List (List (Option ℝ)) → Tc ℝ) (refname : String) (minObs : ℕ) (f : Frame String ℝ ℝ)
    (info : Calculators.Info ℝ) : Except Exc (Metrics (Val ℝ)) :=
  match (Calculators.tcTemplate none).bind (fun T => Calculators.tcCalc ⟨fun l => .ok (tcol l), fun _ => .error .valueError⟩ refname.toList
    false minObs T none (toCalc f) info) with
  | .error _ => .error .other
  | .ok d => .ok (d.map (fun e => (fieldOf e.1, .arr e.2)))

/-- the arguments of `Validation` and `calc`. Used for validation.py:123-186. -/
structure TripleJob where
  ds : List (String × List String)
  reference : String
  temporalRef : String
  getData : Calculators.Info ℝ → Except Exc (List (String × DF String ℝ ℝ))
  /-- one hour and the window of `make_combined_temporal_matcher` -/
  hour : ℝ
  window : Option ℝ
  tcol : List (List (Option ℝ)) → Tc ℝ
  minObs : ℕ
  renameCols : Bool
  onlyWithReference : Bool

/-- validation.py:123-186 with the combined temporal matcher, no masking, no scaling, and one calculator for triples -/
def TripleJob.setup (P : TripleJob) : Setup String ℝ ℝ (Val ℝ) (Calculators.Info ℝ) where
  ds := P.ds
  reference := P.reference
  temporalRef := P.temporalRef
  scalingRef := P.reference
  getData := P.getData
  mask := none
  matcher := oneMatcher P.hour P.window
  scale := none
  calcs := [((P.ds.length, 3), tripleCalculator P.tcol P.reference P.minObs)]
  renameCols := P.renameCols
  onlyWithReference := P.onlyWithReference
  ofCode := .int

/-! ### Specification -/

/-- `times` are the times of the temporal reference at which every column of every data set has a value, `val x t` is the value of column `x`
at time `t` -/
structure MatchedAll (window : ℝ) (ds : List (String × List String)) (dfs : List (String × DF String ℝ ℝ)) (tref : String)
    (times : List ℝ) (val : Col String → ℝ → ℝ) : Prop where
  nodup : times.Nodup
  complete : ∀ t, t ∈ times ↔ (∃ df, (tref, df) ∈ dfs ∧ ∃ r ∈ df.rows, r.1 = t) ∧
    ∀ e ∈ ds, ∀ c ∈ e.2, ∃ v, SeenAt window dfs tref t e.1 c (some v)
  values : ∀ t ∈ times, ∀ e ∈ ds, ∀ c ∈ e.2, SeenAt window dfs tref t e.1 c (some (val (col e.1 c) t))

/-- What the theorems assume about the arguments: distinct names, a window, and the options the documentation asks for. -/
structure TripleJob.Sound (P : TripleJob) : Prop where
  ds : (P.ds.map Prod.fst).Nodup
  cols : ∀ e ∈ P.ds, e.2.Nodup
  window : 0 ≤ P.window.getD P.hour
  temporal : P.temporalRef ∈ P.ds.map Prod.fst
  minObs : 1 ≤ P.minObs
  names : P.renameCols = false
  withRef : P.onlyWithReference = true

/-- the entry of a metric of a data set -/
def metricOf (m : String) (x : Col String) : Field := .tup [m, (ofLex x).1]

/-! ### The fields of a result -/

/-- a list of three with a member in front -/
theorem erase_three {A : Type} [DecidableEq A] (l : List A) (r : A) (hl : l.length = 3) (hr : r ∈ l) : ∃ a b, l.erase r = [a, b] := by
  have h := List.length_erase_of_mem hr
  rw [hl] at h
  match hh : l.erase r, h with
  | [a, b], _ => exact ⟨a, b, rfl⟩

/-- names of the data sets of a result as the calculator sees them, the reference first -/
def tripleNames (ref : String) (key : Key String) : List Calculators.Name :=
  ref.toList :: ((dsNames key).map String.toList).erase ref.toList

def tripleFields (ref : String) (key : Key String) : List Field :=
  ((Calculators.update (Calculators.update (Calculators.metadataTemplate none) [(Calculators.key "n_obs", .int 0)])
    (Calculators.tcNamesTemplate false (tripleNames ref key)) : Dict ℝ).map Prod.fst).map fieldOf

theorem labels_toCalc (f : Frame String ℝ ℝ) (names : List String) (h : f.columns.map Prod.fst = names.map Label.ds) :
    (toCalc f).cols = names.map String.toList := by
  unfold toCalc
  simp only
  have : f.columns.map (fun c => (labelName c.1).toList) = (f.columns.map Prod.fst).map (fun l => (labelName l).toList) := by
    rw [List.map_map]; rfl
  rw [this, h, List.map_map]
  rfl

theorem metadataCalc_none_keys {T d : Dict ℝ} {info} (h : Calculators.metadataCalc T none info = .ok d) : d.map Prod.fst = T.map Prod.fst := by
  unfold Calculators.metadataCalc at h
  simp only [bind, Except.bind] at h
  split at h
  · cases h
  · rename_i d0 h0
    rw [← Except.ok.inj h]
    exact setAll_keys h0

/-- the keys after an update depend on the keys only -/
theorem update_keys_congr (d d' e : Dict ℝ) (h : d.map Prod.fst = d'.map Prod.fst) :
    (Calculators.update d e).map Prod.fst = (Calculators.update d' e).map Prod.fst := by
  unfold Calculators.update
  induction e generalizing d d' with
  | nil => exact h
  | cons f e ih =>
    rw [List.foldl_cons, List.foldl_cons]
    apply ih
    by_cases hk : f.1 ∈ d.map Prod.fst
    · rw [Calculators.keys_put_mem d f.1 f.2 hk, Calculators.keys_put_mem d' f.1 f.2 (h ▸ hk), h]
    · have hk' : f.1 ∉ d'.map Prod.fst := h ▸ hk
      unfold Calculators.put
      rw [if_neg hk, if_neg hk', List.map_append, List.map_append, h]

theorem tcCalc_keys {F : Calculators.TcFuncs ℝ} {r : Calculators.Name} {bootstrap : Bool} {minObs : ℕ} {T d : Dict ℝ} {data info}
    (hF : ∀ l, F.tcol l ≠ .error .valueError) (hb : bootstrap = false)
    (h : Calculators.tcCalc F r bootstrap minObs T none data info = .ok d) :
    r ∈ data.cols ∧ d.map Prod.fst = (Calculators.update T (Calculators.tcNamesTemplate bootstrap (r :: data.cols.erase r))).map Prod.fst := by
  unfold Calculators.tcCalc at h
  simp only [bind, Except.bind] at h
  split at h
  · cases h
  rename_i d1 h1
  split at h
  · cases h
  rename_i d2 h2
  have k2 : d2.map Prod.fst = T.map Prod.fst := by rw [set_keys h2, metadataCalc_none_keys h1]
  split at h
  · cases h
  rename_i others h3
  have h4 : r ∈ data.cols ∧ others = data.cols.erase r := by
    unfold Calculators.removeName at h3
    split at h3
    · rename_i hr
      exact ⟨hr, (Except.ok.inj h3).symm⟩
    · cases h3
  obtain ⟨hr, rfl⟩ := h4
  refine ⟨hr, ?_⟩
  have k3 := update_keys_congr d2 T (Calculators.tcNamesTemplate bootstrap (r :: data.cols.erase r)) k2
  split at h
  · rw [set_keys h, k3]
  · split at h
    · cases h
    · subst hb
      unfold Calculators.tcFill at h
      simp only [Bool.false_eq_true, if_false] at h
      split at h
      · rw [setAll_keys h, k3]
      · rename_i hv
        exfalso
        simp only [Except.map] at hv
        split at hv
        · rename_i e he
          cases hv
          exact hF _ he
        · cases hv
      · cases h

theorem tripleCalculator_ok {tcol : List (List (Option ℝ)) → Tc ℝ} {ref : String} {minObs : ℕ} {f info m}
    (h : tripleCalculator tcol ref minObs f info = .ok m) : ∃ d, Calculators.tcCalc ⟨fun l => .ok (tcol l), fun _ => .error .valueError⟩ ref.toList
      false minObs (Calculators.update (Calculators.metadataTemplate none) [(Calculators.key "n_obs", .int 0)]) none (toCalc f) info = .ok d ∧
      m = d.map (fun e => (fieldOf e.1, .arr e.2)) := by
  unfold tripleCalculator at h
  rw [Calculators.tcTemplate_eq] at h
  simp only [Except.bind] at h
  split at h
  · cases h
  · rename_i d hd
    exact ⟨d, hd, (Except.ok.inj h).symm⟩

theorem tripleCalculator_row {tcol : List (List (Option ℝ)) → Tc ℝ} {ref : String} {minObs : ℕ} {f info m} {key : Key String}
    (hf : f.columns.map Prod.fst = (dsNames key).map Label.ds)
    (h : tripleCalculator tcol ref minObs f info = .ok m) : IsRow (tripleFields ref key) m := by
  obtain ⟨d, hd, rfl⟩ := tripleCalculator_ok h
  obtain ⟨-, hk⟩ := tcCalc_keys (by simp) rfl hd
  constructor
  · rw [List.map_map]
    unfold tripleFields tripleNames
    rw [← labels_toCalc f _ hf, ← hk, List.map_map]
    rfl
  · intro e he
    obtain ⟨x, -, rfl⟩ := List.mem_map.mp he
    exact ⟨_, rfl⟩

/-- the calculator of a validation reports what the calculator of triples reports -/
theorem tripleCalculator_reports {tcol : List (List (Option ℝ)) → Tc ℝ} {ref : String} {minObs : ℕ} {f : Frame String ℝ ℝ}
    {info : Calculators.Info ℝ} {s : Val ℝ} {vals : Dict ℝ} (h : ∃ T d, Calculators.tcTemplate none = .ok T ∧
      Calculators.tcCalc ⟨fun l => .ok (tcol l), fun _ => .error .valueError⟩ ref.toList false minObs T none (toCalc f) info = .ok d ∧
      Calculators.Reports [] info s vals d) :
    ∃ m, tripleCalculator tcol ref minObs f info = .ok m ∧ HasValue m (.plain "status") s ∧ HasValue m (.plain "gpi") (.int info.gpi) ∧
      HasValue m (.plain "lon") (.num (some info.lon)) ∧ HasValue m (.plain "lat") (.num (some info.lat)) ∧
      ∀ e ∈ vals, HasValue m (fieldOf e.1) e.2 := by
  obtain ⟨T, d, h1, h2, R⟩ := h
  have hv : ∀ k v, d.lookup k = some v → HasValue (d.map (fun e => (fieldOf e.1, Cell.arr e.2))) (fieldOf k) v := by
    intro k v hl
    exact List.mem_map.mpr ⟨(k, v), mem_of_lookup d hl, rfl⟩
  refine ⟨d.map (fun e => (fieldOf e.1, .arr e.2)), ?_, ?_, ?_, ?_, ?_, ?_⟩
  · unfold tripleCalculator
    rw [h1]
    simp only [Except.bind, h2]
  · rw [← fieldOf_key]; exact hv _ _ R.status
  · rw [← fieldOf_key]; exact hv _ _ R.gpi
  · rw [← fieldOf_key]; exact hv _ _ R.lon
  · rw [← fieldOf_key]; exact hv _ _ R.lat
  · intro e he
    exact hv _ _ (R.values e he)

/-- labels of the data of a result -/
theorem getData_labels {T V : Type} (tref : String) (M : List (List String × MFrame String T V)) (sel : List (Col String)) (data : Frame String T V)
    (h : getDataForResultTuple tref M sel = .ok data) (hne : data.index ≠ []) : data.columns.map Prod.fst = (dsNames sel).map Label.ds := by
  have hs : ∀ m : MFrame String T V, select m sel = .ok data → data.columns.map Prod.fst = (dsNames sel).map Label.ds := by
    intro m hm
    unfold select at hm
    split at hm
    · rw [← Except.ok.inj hm]
      simp only [List.map_map, dsNames]
      rfl
    · cases hm
  unfold getDataForResultTuple at h
  split at h
  · cases h
  · split at h
    · split at h
      · rw [← Except.ok.inj h] at hne
        exact absurd rfl hne
      · exact hs _ h
    · split at h
      · cases h
      · exact hs _ h

theorem triple_arises (P : TripleJob) (hP : P.Sound) {info key frame} (h : Arises P.setup info key frame) :
    frame.columns.map Prod.fst = (dsNames key).map Label.ds := by
  rcases h with rfl | ⟨M, data, d, h1, h2, h3, rfl⟩
  · simp only [List.map_map]
    rfl
  · have h4 : d = data := (Except.ok.inj h3).symm
    subst h4
    have h5 : renamed P.setup key d = d := by
      unfold renamed
      rw [show P.setup.renameCols = false from hP.names]
      rfl
    rw [h5]
    exact getData_labels _ M key d h1 h2

theorem toList_erase (l : List String) (r : String) : (l.map String.toList).erase r.toList = (l.erase r).map String.toList := by
  have hinj : Function.Injective String.toList := fun a b h => String.toList_injective h
  exact (List.map_erase hinj l).symm

theorem triple_expected (P : TripleJob) (hP : P.Sound) {key : Key String} (hE : Expected P.setup key) :
    key.length = 3 ∧ (dsNames key).Nodup ∧ P.reference ∈ dsNames key ∧ key.Pairwise (· ≤ ·) ∧
      ∀ x ∈ key, ∃ cols, ((ofLex x).1, cols) ∈ P.ds ∧ (ofLex x).2 ∈ cols := by
  obtain ⟨c, hc, ⟨ref, hA⟩, hr⟩ := hE
  obtain rfl := List.mem_singleton.mp hc
  exact ⟨hA.2.1, hA.2.2.1, hr hP.withRef, hA.1, hA.2.2.2.1⟩

/-- the names of the calculator: the reference and two others -/
theorem triple_names (P : TripleJob) (hP : P.Sound) {key : Key String} (hE : Expected P.setup key) : ∃ a b : String,
    ((dsNames key).map String.toList).erase P.reference.toList = [a.toList, b.toList] ∧ [P.reference, a, b].Perm (dsNames key) := by
  obtain ⟨h1, h2, h3, -⟩ := triple_expected P hP hE
  obtain ⟨a, b, hab⟩ := erase_three (dsNames key) P.reference (by unfold dsNames; simpa using h1) h3
  refine ⟨a, b, by rw [toList_erase, hab]; rfl, ?_⟩
  rw [← hab]
  exact (List.perm_cons_erase h3).symm

theorem nodup_toList {l : List String} (h : l.Nodup) : (l.map String.toList).Nodup := h.map (fun _ _ h => String.toList_injective h)

theorem triple_good (P : TripleJob) (hP : P.Sound) : GoodCalculators P.setup (tripleFields P.reference) := by
  constructor
  · exact hP.ds
  · exact hP.cols
  · intro c h
    obtain rfl := List.mem_singleton.mp h
    simp
  · simp [TripleJob.setup]
  · intro key _
    exact (Calculators.nodup_update _ _ (Calculators.nodup_update _ _ (Calculators.nodup_metadataTemplate none))).map fieldOf_injective
  · intro key _
    rw [← fieldOf_key]
    refine List.mem_map_of_mem ?_
    rw [Calculators.mem_keys_update, Calculators.mem_keys_update, Calculators.keys_metadataTemplate]
    left; left; left
    decide
  · intro c h key hE _ frame info m ha hm
    obtain rfl := List.mem_singleton.mp h
    exact tripleCalculator_row (triple_arises P hP ha) hm
  · intro c h key hE _ info
    obtain rfl := List.mem_singleton.mp h
    obtain ⟨a, b, h1, h2⟩ := triple_names P hP hE
    have hcols : (toCalc (⟨[], (dsNames key).map (fun a => (Label.ds a, []))⟩ : Frame String ℝ ℝ)).cols = (dsNames key).map String.toList :=
      labels_toCalc _ _ (by simp only [List.map_map]; rfl)
    obtain ⟨m, hm, -⟩ := tripleCalculator_reports (tcol := P.tcol) (Calculators.tc_insufficient ⟨fun l => .ok (P.tcol l), fun _ => .error .valueError⟩
      false P.minObs none (toCalc ⟨[], (dsNames key).map (fun a => (Label.ds a, []))⟩) info P.reference.toList a.toList b.toList
      (by rw [hcols]; exact List.mem_map_of_mem (triple_expected P hP hE).2.2.1)
      (by rw [hcols]; exact h1) (nodup_toList (h2.nodup_iff.mpr (triple_expected P hP hE).2.1)) (fieldsOk_nil _) (.inl rfl)
      (by
        show 0 < P.minObs
        exact hP.minObs))
    exact ⟨m, hm⟩

theorem triple_neverMasked (P : TripleJob) : NeverAllMasked P.setup := by
  intro mask h
  cases h

end Verif.Validation
