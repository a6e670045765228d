import Verif.Validation.Lemmas
import Verif.Common.ListAux
import Mathlib.Data.List.Pairwise
import Mathlib.Tactic.NormNum
import Mathlib.Data.Rat.Defs

/-! C29-C32, C38, C40, C52: validation of many locations. -/

set_option linter.unusedSectionVars false

namespace Verif.Validation

open DataManager (Col Admissible)

variable {α : Type} [LinearOrder α] {T V W Info : Type}

/-! ### One location -/

section One

variable (S : Setup α T V W Info) (F : Key α → List Field) (names : ℕ → List (Key α))

theorem select_error (m : MFrame α T V) (sel : List (Col α)) (e : Exc) (h : select m sel = .error e) : e = .other := by
  unfold select at h
  split at h
  · simp at h
  · exact (Except.error.inj h).symm

theorem getData_error (tref : α) (matched : List (List α × MFrame α T V)) (sel : List (Col α)) (e : Exc)
    (h : getDataForResultTuple tref matched sel = .error e) : e = .other := by
  unfold getDataForResultTuple at h
  split at h
  · exact (Except.error.inj h).symm
  · split at h
    · split at h
      · simp at h
      · exact select_error _ _ _ h
    · split at h
      · exact (Except.error.inj h).symm
      · exact select_error _ _ _ h

theorem dataForKey_error (matched : List (List α × MFrame α T V)) (key : Key α) (e : Exc)
    (h : dataForKey S matched key = .error e) : e = .other := by
  unfold dataForKey at h
  split at h
  · exact getData_error _ _ _ _ h
  · split at h
    · exact (Except.error.inj h).symm
    · exact (Except.error.inj h).symm
    · exact getData_error _ _ _ _ h

/-- left out because of `only_with_reference` -/
def Skipped (key : Key α) : Prop := S.onlyWithReference = true ∧ S.reference ∉ dsNames key

theorem skip_iff (key : Key α) : (S.onlyWithReference && !decide (S.reference ∈ dsNames key)) = true ↔ Skipped S key := by
  unfold Skipped
  simp

theorem expected_of {c} (hc : c ∈ S.calcs) {key : Key α} (hk : ∃ ref, Admissible S.ds ref c.1.2 key) (hs : ¬Skipped S key) :
    Expected S key ∧ key.length = c.1.2 := by
  refine ⟨⟨c, hc, hk, fun h => ?_⟩, ?_⟩
  · by_contra hn
    exact hs ⟨h, hn⟩
  · obtain ⟨ref, hA⟩ := hk
    exact hA.2.1

theorem dummy_status (H : GoodCalculators S F) {c} (hc : c ∈ S.calcs) (info : Info) (key : Key α) (hk : Expected S key ∧ key.length = c.1.2)
    (code : ℤ) :
    ∃ m, (do let m ← dummy c.2 info key
             let m' ← setStatus (S.ofCode code) m
             (.ok (some m') : Except Exc (Option (Metrics W)))) = .ok (some m) ∧ IsRow (F key) m ∧
      HasValue m (.plain "status") (S.ofCode code) := by
  obtain ⟨m, hm⟩ := H.template c hc key hk.1 hk.2 info
  obtain ⟨m', h1, h2, h3⟩ := setStatus_ok (F key) (H.status key hk.1) (S.ofCode code) m (H.row c hc key hk.1 hk.2 _ _ _ (.inl rfl) hm)
  refine ⟨m', ?_, h2, h3⟩
  unfold dummy
  rw [hm]
  simp only [bind, Except.bind]
  rw [h1]

/-- What one pass of the inner loop does with `handle_errors='ignore'`. -/
theorem performKey_ignore (H : GoodCalculators S F) {c} (hc : c ∈ S.calcs) (info : Info)
    (matched : List (List α × MFrame α T V)) (key : Key α) (hk : ∃ ref, Admissible S.ds ref c.1.2 key) :
    (∃ e, performKey S false info c.2 matched key = .error e ∧ keyFailure S info matched key = some e.retcode) ∨
    (keyFailure S info matched key = none ∧ ∃ data, dataForKey S matched key = .ok data ∧
      ((Skipped S key ∧ performKey S false info c.2 matched key = .ok none) ∨
       (¬Skipped S key ∧ ∃ m, performKey S false info c.2 matched key = .ok (some m) ∧ IsRow (F key) m ∧
        ((data.index = [] ∧ HasValue m (.plain "status") (S.ofCode NO_TEMP_MATCHED_DATA)) ∨
         (data.index ≠ [] ∧ ∃ d, scaled S info key data = .ok d ∧
          ((∃ e, c.2 (renamed S key d) info = .error e ∧ HasValue m (.plain "status") (S.ofCode METRICS_CALCULATION_FAILED)) ∨
           c.2 (renamed S key d) info = .ok m)))))) := by
  unfold performKey keyFailure
  cases hd : dataForKey S matched key with
  | error e =>
    left
    refine ⟨e, rfl, ?_⟩
    rw [dataForKey_error S _ _ _ hd]; rfl
  | ok data =>
    simp only [bind, Except.bind]
    by_cases hs : Skipped S key
    · right
      rw [if_pos ((skip_iff S key).mpr hs), if_pos (show S.onlyWithReference = true ∧ S.reference ∉ dsNames key from hs)]
      exact ⟨rfl, data, rfl, .inl ⟨hs, rfl⟩⟩
    · rw [if_neg (fun h => hs ((skip_iff S key).mp h)), if_neg (show ¬(S.onlyWithReference = true ∧ S.reference ∉ dsNames key) from hs)]
      by_cases hi : data.index = []
      · rw [if_pos (by rw [hi]; rfl), if_pos hi]
        right
        refine ⟨rfl, data, rfl, .inr ⟨hs, ?_⟩⟩
        obtain ⟨m, h1, h2, h3⟩ := dummy_status S F H hc info key (expected_of S hc hk hs) NO_TEMP_MATCHED_DATA
        exact ⟨m, h1, h2, .inl ⟨hi, h3⟩⟩
      · rw [if_neg (by rwa [List.length_eq_zero_iff]), if_neg hi]
        cases hsc : scaled S info key data with
        | error e => left; exact ⟨e, rfl, rfl⟩
        | ok d =>
          right
          refine ⟨rfl, data, rfl, .inr ⟨hs, ?_⟩⟩
          simp only
          cases hmc : c.2 (renamed S key d) info with
          | ok m =>
            have hE := expected_of S hc hk hs
            exact ⟨m, rfl, H.row c hc key hE.1 hE.2 _ _ _ (.inr ⟨_, _, _, hd, hi, hsc, rfl⟩) hmc, .inr ⟨hi, d, hsc, .inr hmc⟩⟩
          | error e =>
            obtain ⟨m, h1, h2, h3⟩ := dummy_status S F H hc info key (expected_of S hc hk hs) METRICS_CALCULATION_FAILED
            exact ⟨m, h1, h2, .inr ⟨hi, d, hsc, .inl ⟨e, hmc, h3⟩⟩⟩

/-- In both modes an entry has the fields of the template, and there is one unless the key is skipped. -/
theorem performKey_row (H : GoodCalculators S F) {c} (hc : c ∈ S.calcs) (raising : Bool) (info : Info)
    (matched : List (List α × MFrame α T V)) (key : Key α) (hk : ∃ ref, Admissible S.ds ref c.1.2 key) (o : Option (Metrics W))
    (h : performKey S raising info c.2 matched key = .ok o) :
    (Skipped S key ∧ o = none) ∨ (¬Skipped S key ∧ ∃ m, o = some m ∧ IsRow (F key) m) := by
  cases raising with
  | false =>
    rcases performKey_ignore S F H hc info matched key hk with ⟨e, h1, -⟩ | ⟨-, data, -, ⟨hs, h1⟩ | ⟨hs, m, h1, h2, -⟩⟩
    · rw [h1] at h; simp at h
    · rw [h1] at h; exact .inl ⟨hs, (Except.ok.inj h).symm⟩
    · rw [h1] at h; exact .inr ⟨hs, m, (Except.ok.inj h).symm, h2⟩
  | true =>
    unfold performKey at h
    cases hd : dataForKey S matched key with
    | error e => rw [hd] at h; simp [bind, Except.bind] at h
    | ok data =>
      rw [hd] at h
      simp only [bind, Except.bind] at h
      by_cases hs : Skipped S key
      · rw [if_pos ((skip_iff S key).mpr hs)] at h
        exact .inl ⟨hs, (Except.ok.inj h).symm⟩
      · rw [if_neg (fun h => hs ((skip_iff S key).mp h))] at h
        split at h
        · simp at h
        · rename_i hi
          split at h
          · simp at h
          · rename_i d hsc
            simp only [if_true] at h
            split at h
            · rename_i m hm
              have hE := expected_of S hc hk hs
              exact .inr ⟨hs, m, (Except.ok.inj h).symm, H.row c hc key hE.1 hE.2 _ _ _
                (.inr ⟨_, _, _, hd, by rwa [List.length_eq_zero_iff] at hi, hsc, rfl⟩) hm⟩
            · simp at h

/-- The result of one location has one row for each expected key and nothing else. -/
def Shape (r : Results (Key α) (Metrics W)) : Prop :=
  (r.map Prod.fst).Nodup ∧ (∀ key, Expected S key → ∃ m, r.lookup key = some [m] ∧ IsRow (F key) m) ∧
    ∀ key, ¬Expected S key → r.lookup key = none

theorem names_length (hN : AreNames S names) {k : ℕ} (hk : 1 ≤ k) {key : Key α} (h : key ∈ names k) : key.length = k := by
  obtain ⟨ref, hA⟩ := ((hN k hk).2.2 key).mp h
  exact hA.2.1

theorem names_nodup (H : GoodCalculators S F) (hN : AreNames S names) :
    (S.calcs.flatMap (fun c => names c.1.2)).Nodup := by
  rw [List.nodup_flatMap]
  refine ⟨fun c hc => (hN _ (H.kPos c hc)).2.1, ?_⟩
  have := H.kNodup
  rw [List.Nodup, List.pairwise_map] at this
  refine this.imp_of_mem ?_
  intro a b ha hb hab
  rw [Function.onFun, List.disjoint_left]
  intro key h1 h2
  exact hab ((names_length S names hN (H.kPos a ha) h1).symm.trans (names_length S names hN (H.kPos b hb) h2))

/-- steps over all calculators with the keys of `names` give a result of the right shape -/
theorem shape_of_steps (H : GoodCalculators S F) (hN : AreNames S names)
    (g : (ℕ × ℕ) × (Frame α T V → Info → Except Exc (Metrics W)) → Key α → Except Exc (Option (Metrics W)))
    (hg : ∀ c ∈ S.calcs, ∀ key ∈ names c.1.2, ∀ o, g c key = .ok o →
      (Skipped S key ∧ o = none) ∨ (¬Skipped S key ∧ ∃ m, o = some m ∧ IsRow (F key) m))
    (steps : List (Key α × Except Exc (Option (Metrics W))))
    (hsteps : steps = S.calcs.flatMap (fun c => (names c.1.2).map (fun key => (key, g c key))))
    (r : Results (Key α) (Metrics W)) (h : runSteps steps [] = .ok r) :
    Shape S F r ∧ ∀ c ∈ S.calcs, ∀ key ∈ names c.1.2, ∃ o, g c key = .ok o ∧ r.lookup key = o.map (fun m => [m]) := by
  have hkeys : steps.map Prod.fst = S.calcs.flatMap (fun c => names c.1.2) := by
    rw [hsteps, List.map_flatMap]
    congr 1
    funext c
    simp [Function.comp_def]
  obtain ⟨h1, h2, h3, h4⟩ := runSteps_ok steps (by rw [hkeys]; exact names_nodup S F names H hN) [] r h (by simp) (by simp)
  have hall : ∀ c ∈ S.calcs, ∀ key ∈ names c.1.2, ∃ o, g c key = .ok o ∧ r.lookup key = o.map (fun m => [m]) := by
    intro c hc key hkey
    have hmem : (key, g c key) ∈ steps := by
      rw [hsteps, List.mem_flatMap]
      exact ⟨c, hc, List.mem_map.mpr ⟨key, hkey, rfl⟩⟩
    cases ho : g c key with
    | error e => rw [ho] at hmem; exact absurd hmem (h4 key e)
    | ok o =>
      rw [ho] at hmem
      exact ⟨o, rfl, h3 key o hmem⟩
  refine ⟨⟨h1, ?_, ?_⟩, hall⟩
  · rintro key ⟨c, hc, hA, href⟩
    have hkey : key ∈ names c.1.2 := ((hN _ (H.kPos c hc)).2.2 key).mpr hA
    obtain ⟨o, ho, hl⟩ := hall c hc key hkey
    rcases hg c hc key hkey o ho with ⟨hs, -⟩ | ⟨-, m, rfl, hm⟩
    · exact absurd (href hs.1) hs.2
    · exact ⟨m, hl, hm⟩
  · intro key hne
    by_cases hk : key ∈ steps.map Prod.fst
    · rw [hkeys, List.mem_flatMap] at hk
      obtain ⟨c, hc, hkey⟩ := hk
      obtain ⟨o, ho, hl⟩ := hall c hc key hkey
      rcases hg c hc key hkey o ho with ⟨-, rfl⟩ | ⟨hs, m, rfl, hm⟩
      · exact hl
      · exfalso
        apply hne
        refine ⟨c, hc, ((hN _ (H.kPos c hc)).2.2 key).mp hkey, ?_⟩
        intro ho
        by_contra hn
        exact hs ⟨ho, hn⟩
    · rw [h2 key hk]; rfl

theorem mapM_length {A B E : Type} (f : A → Except E B) (l : List A) (out : List B) (h : l.mapM f = .ok out) :
    out.length = l.length := by
  induction l generalizing out with
  | nil =>
    rw [List.mapM_nil] at h
    rw [← Except.ok.inj h]; rfl
  | cons a l ih =>
    rw [List.mapM_cons] at h
    simp only [bind, Except.bind] at h
    split at h
    · simp at h
    · split at h
      · simp at h
      · rename_i ys hys
        rw [← Except.ok.inj h, List.length_cons, List.length_cons, ih ys hys]

theorem perform_shape (H : GoodCalculators S F) (hN : AreNames S names) (raising : Bool) (info : Info)
    (matched : List (List (List α × MFrame α T V))) (hm : matched.length = S.calcs.length) (r : Results (Key α) (Metrics W))
    (h : performCalcs S raising info (S.calcs.zip matched) [] = .ok r) :
    Shape S F r ∧ ∀ cm ∈ S.calcs.zip matched, ∀ key ∈ names cm.1.1.2, ∃ o, performKey S raising info cm.1.2 cm.2 key = .ok o ∧
      r.lookup key = o.map (fun m => [m]) := by
  rw [performCalcs_steps S names raising info _ (fun cm hcm => (hN _ (H.kPos _ (List.of_mem_zip hcm).1)).1)] at h
  have hne : ∀ cm ∈ S.calcs.zip matched, cm.2.length ≠ 0 := by
    intro cm hcm h0
    have herr : ∃ e, ((S.calcs.zip matched).flatMap (calcSteps S names raising info)).findSome? stepErr = some e := by
      rw [← Option.isSome_iff_exists, List.findSome?_isSome_iff]
      refine ⟨([], .error (.validation NO_TEMP_MATCHED_DATA)), ?_, rfl⟩
      rw [List.mem_flatMap]
      refine ⟨cm, hcm, ?_⟩
      unfold calcSteps
      rw [if_pos h0]; simp
    obtain ⟨e, he⟩ := herr
    rw [(runSteps_error _ [] e).mpr he] at h
    simp at h
  -- the matched data of a calculator is a function of `k`
  have hfun : ∃ M : ℕ → List (List α × MFrame α T V), ∀ cm ∈ S.calcs.zip matched, M cm.1.1.2 = cm.2 := by
    have hk : ((S.calcs.zip matched).map (fun cm => cm.1.1.2)).Nodup := by
      have : (S.calcs.zip matched).map (fun cm => cm.1.1.2) = S.calcs.map (fun c => c.1.2) := by
        rw [show (fun cm : ((ℕ × ℕ) × (Frame α T V → Info → Except Exc (Metrics W))) × List (List α × MFrame α T V) => cm.1.1.2) =
          (fun c => c.1.2) ∘ Prod.fst from rfl, ← List.map_map, List.map_fst_zip (by omega)]
      rw [this]; exact H.kNodup
    generalize S.calcs.zip matched = l at hk
    clear h hne hm hN H
    induction l with
    | nil => exact ⟨fun _ => [], by simp⟩
    | cons cm l ih =>
      rw [List.map_cons, List.nodup_cons] at hk
      obtain ⟨M, hM⟩ := ih hk.2
      refine ⟨fun k => if k = cm.1.1.2 then cm.2 else M k, ?_⟩
      intro cm' h'
      rcases List.mem_cons.mp h' with rfl | h'
      · simp
      · have : cm'.1.1.2 ≠ cm.1.1.2 := fun heq => hk.1 (heq ▸ List.mem_map.mpr ⟨cm', h', rfl⟩)
        simp only [this, if_false]
        exact hM cm' h'
  obtain ⟨M, hM⟩ := hfun
  have hsteps : (S.calcs.zip matched).flatMap (calcSteps S names raising info) =
      S.calcs.flatMap (fun c => (names c.1.2).map (fun key => (key, performKey S raising info c.2 (M c.1.2) key))) := by
    have h1 : (S.calcs.zip matched).flatMap (calcSteps S names raising info) =
        (S.calcs.zip matched).flatMap (fun cm =>
          (names cm.1.1.2).map (fun key => (key, performKey S raising info cm.1.2 (M cm.1.1.2) key))) := by
      apply List.flatMap_congr
      intro cm hcm
      unfold calcSteps
      rw [if_neg (hne cm hcm), hM cm hcm]
    rw [h1]
    have h2 : S.calcs = (S.calcs.zip matched).map Prod.fst := (List.map_fst_zip (by omega)).symm
    conv_rhs => rw [h2]
    rw [List.flatMap_map]
  obtain ⟨hs, hall⟩ := shape_of_steps S F names H hN (fun c key => performKey S raising info c.2 (M c.1.2) key)
    (fun c hc key hkey o ho => performKey_row S F H hc raising info _ key (((hN _ (H.kPos c hc)).2.2 key).mp hkey) o ho) _ hsteps r h
  refine ⟨hs, ?_⟩
  intro cm hcm key hkey
  have := hall cm.1 (List.of_mem_zip hcm).1 key hkey
  rw [hM cm hcm] at this
  exact this

theorem attempt_cases (raising : Bool) (info : Info) (r : Results (Key α) (Metrics W))
    (h : attempt S raising info = .ok r) :
    (AllMasked S info ∧ r = []) ∨
    ∃ dfs dfs' dfs'' matched, S.getData info = .ok dfs ∧ dfs ≠ [] ∧ masked S info dfs = .ok (some dfs') ∧
      onlyColumns S dfs' = .ok dfs'' ∧
      S.calcs.mapM (fun c => S.matcher dfs'' S.temporalRef c.1.1 c.1.2) = .ok matched ∧
      performCalcs S raising info (S.calcs.zip matched) [] = .ok r := by
  unfold attempt at h
  split at h
  · simp at h
  rename_i dfs hdfs
  split at h
  · simp at h
  rename_i hne
  unfold performValidation at h
  simp only [bind, Except.bind] at h
  split at h
  · simp at h
  rename_i o ho
  cases o with
  | none =>
    left
    simp only [Except.ok.injEq] at h
    refine ⟨?_, h.symm⟩
    unfold masked at ho
    split at ho
    · simp at ho
    rename_i mask hmask
    split at ho
    · simp at ho
    rename_i ref href
    simp only [bind, Except.bind] at ho
    split at ho
    · simp at ho
    rename_i ref' href'
    split at ho
    · rename_i h0
      exact ⟨mask, hmask, ref, ref', href', List.length_eq_zero_iff.mp h0⟩
    · simp at ho
  | some dfs' =>
    simp only at h
    split at h
    · simp at h
    rename_i dfs'' hdfs''
    split at h
    · simp at h
    rename_i matched hmat
    right
    refine ⟨dfs, dfs', dfs'', matched, hdfs, ?_, ho, hdfs'', ?_, h⟩
    · intro hc; exact hne (by rw [hc]; rfl)
    · unfold matchAll at hmat
      split at hmat
      · rename_i l hl
        rw [hl, Except.ok.inj hmat]
      · simp at hmat

theorem dummyStep_row (H : GoodCalculators S F) {c} (hc : c ∈ S.calcs) (info : Info) (key : Key α) (hk : ∃ ref, Admissible S.ds ref c.1.2 key) :
    ∃ o, dummyStep S info c.2 key = .ok o ∧
      ((Skipped S key ∧ o = none) ∨ (¬Skipped S key ∧ ∃ m, o = some m ∧ IsRow (F key) m)) := by
  unfold dummyStep
  by_cases hs : Skipped S key
  · rw [if_pos ((skip_iff S key).mpr hs)]
    exact ⟨none, rfl, .inl ⟨hs, rfl⟩⟩
  · rw [if_neg (fun h => hs ((skip_iff S key).mp h))]
    have hE := expected_of S hc hk hs
    obtain ⟨m, hm⟩ := H.template c hc key hE.1 hE.2 info
    unfold dummy
    rw [hm]
    exact ⟨some m, rfl, .inr ⟨hs, m, rfl, H.row c hc key hE.1 hE.2 _ _ _ (.inl rfl) hm⟩⟩

theorem dummy_shape (H : GoodCalculators S F) (hN : AreNames S names) (info : Info) :
    ∃ d, dummyValidationResult S info S.calcs [] = .ok d ∧ Shape S F d := by
  rw [dummyValidationResult_steps S names info S.calcs (fun c hc => (hN _ (H.kPos c hc)).1)]
  cases h : runSteps (S.calcs.flatMap (fun c => (names c.1.2).map (fun key => (key, dummyStep S info c.2 key)))) [] with
  | error e =>
    exfalso
    rw [runSteps_error] at h
    obtain ⟨s, hs, he⟩ := List.exists_of_findSome?_eq_some h
    rw [List.mem_flatMap] at hs
    obtain ⟨c, hc, hs⟩ := hs
    obtain ⟨key, hkey, rfl⟩ := List.mem_map.mp hs
    obtain ⟨o, ho, -⟩ := dummyStep_row S F H hc info key (((hN _ (H.kPos c hc)).2.2 key).mp hkey)
    unfold stepErr at he
    simp only [ho] at he
    simp at he
  | ok d =>
    refine ⟨d, rfl, ?_⟩
    refine (shape_of_steps S F names H hN (fun c key => dummyStep S info c.2 key) ?_ _ rfl d h).1
    intro c hc key hkey o ho
    obtain ⟨o', ho', hr⟩ := dummyStep_row S F H hc info key (((hN _ (H.kPos c hc)).2.2 key).mp hkey)
    rw [ho] at ho'
    rw [Except.ok.inj ho']
    exact hr

theorem markAll_ok (w : W) (P : Key α → Metrics W → Prop) (hP : ∀ key m, P key m → ∃ F, IsRow F m)
    (d : Results (Key α) (Metrics W)) (h : ∀ e ∈ d, ∃ m, e.2 = [m] ∧ P e.1 m) :
    ∃ d', markAll w d = .ok d' ∧ d'.map Prod.fst = d.map Prod.fst ∧
      ∀ key m, d.lookup key = some [m] → ∃ m', d'.lookup key = some [m'] ∧ setAllStatus w m = .ok m' := by
  induction d with
  | nil => exact ⟨[], rfl, rfl, by simp⟩
  | cons e d ih =>
    obtain ⟨key, ms⟩ := e
    obtain ⟨m, hm, hp⟩ := h (key, ms) List.mem_cons_self
    simp only at hm hp
    subst hm
    obtain ⟨F', hF⟩ := hP key m hp
    obtain ⟨m', h1, h2, h3, -⟩ := setAllStatus_ok F' w m hF
    obtain ⟨d', h4, h5, h6⟩ := ih (fun e he => h e (List.mem_cons_of_mem _ he))
    refine ⟨(key, [m']) :: d', ?_, by simp [h5], ?_⟩
    · unfold markAll
      rw [h1, h4]; rfl
    · intro key' m0 hl
      by_cases hk : key' = key
      · subst hk
        simp only [List.lookup, beq_self_eq_true, Option.some.injEq, List.cons.injEq, and_true] at hl
        subst hl
        exact ⟨m', by simp, h1⟩
      · simp only [List.lookup, beq_false_of_ne hk] at hl ⊢
        exact h6 key' m0 hl

theorem mem_shape {r : Results (Key α) (Metrics W)} (h : Shape S F r) {key : Key α} {ms : List (Metrics W)}
    (hm : (key, ms) ∈ r) : Expected S key ∧ ∃ m, ms = [m] ∧ IsRow (F key) m := by
  have hl := lookup_of_mem r h.1 hm
  by_cases he : Expected S key
  · obtain ⟨m, h1, h2⟩ := h.2.1 key he
    rw [hl] at h1
    exact ⟨he, m, Option.some.inj h1, h2⟩
  · rw [h.2.2 key he] at hl; simp at hl

/-- a failed location: the template with the return code in every status field -/
theorem failed_shape (H : GoodCalculators S F) (hN : AreNames S names) (info : Info) (w : W) :
    ∃ r, (do let d ← dummyValidationResult S info S.calcs []
             markAll w d) = .ok r ∧ Shape S F r ∧
      ∀ key m, r.lookup key = some [m] → ∀ f ∈ F key, f.isStatus = true → HasValue m f w := by
  obtain ⟨d, hd, hsh⟩ := dummy_shape S F names H hN info
  obtain ⟨d', h1, h2, h3⟩ := markAll_ok w (fun key m => IsRow (F key) m) (fun _ _ h => ⟨_, h⟩) d (by
    rintro ⟨key, ms⟩ he
    obtain ⟨-, m, h4, h5⟩ := mem_shape S F hsh he
    exact ⟨m, h4, h5⟩)
  have hrow : ∀ key, Expected S key → ∃ m, d'.lookup key = some [m] ∧ IsRow (F key) m ∧
      ∀ f ∈ F key, f.isStatus = true → HasValue m f w := by
    intro key he
    obtain ⟨m, h4, h5⟩ := hsh.2.1 key he
    obtain ⟨m', h6, h7⟩ := h3 key m h4
    obtain ⟨m'', h8, h9, h10, -⟩ := setAllStatus_ok _ w m h5
    rw [h7] at h8
    obtain rfl := Except.ok.inj h8
    exact ⟨m', h6, h9, h10⟩
  refine ⟨d', ?_, ⟨by rw [h2]; exact hsh.1, ?_, ?_⟩, ?_⟩
  · rw [hd]; exact h1
  · intro key he
    obtain ⟨m, h4, h5, -⟩ := hrow key he
    exact ⟨m, h4, h5⟩
  · intro key he
    have : key ∉ d'.map Prod.fst := by
      rw [h2, lookup_isSome, hsh.2.2 key he]; simp
    rw [lookup_isSome] at this
    exact Option.not_isSome_iff_eq_none.mp this
  · intro key m hl f hf hst
    have he : Expected S key := by
      by_contra hne
      have : key ∉ d'.map Prod.fst := by
        rw [h2, lookup_isSome, hsh.2.2 key hne]; simp
      rw [lookup_isSome, hl] at this
      simp at this
    obtain ⟨m', h4, -, h6⟩ := hrow key he
    rw [hl] at h4
    obtain rfl : m = m' := by simpa using h4
    exact h6 f hf hst

theorem processOne_shape' (H : GoodCalculators S F) (raising : Bool) (info : Info)
    (r : Results (Key α) (Metrics W)) (h : processOne S raising info = .ok r) : (AllMasked S info ∧ r = []) ∨ Shape S F r := by
  obtain ⟨names, hN⟩ := resultNames_exist S H.dsNodup H.colsNodup
  unfold processOne at h
  split at h
  · rename_i r' hr'
    obtain rfl := Except.ok.inj h
    rcases attempt_cases S raising info r' hr' with h0 | ⟨_, _, dfs'', matched, -, -, -, -, hm, hp⟩
    · exact .inl h0
    refine .inr ?_
    exact (perform_shape S F names H hN raising info matched (mapM_length _ _ _ hm) r' hp).1
  · split at h
    · simp at h
    · rename_i e he _
      obtain ⟨r', h1, h2, -⟩ := failed_shape S F names H hN info (S.ofCode e.retcode)
      rw [h1] at h
      rw [← Except.ok.inj h]
      exact .inr h2

theorem processOne_shape (H : GoodCalculators S F) (hM : NeverAllMasked S) (raising : Bool) (info : Info)
    (r : Results (Key α) (Metrics W)) (h : processOne S raising info = .ok r) : Shape S F r := by
  rcases processOne_shape' S F H raising info r h with ⟨⟨mask, h1, ref, ref', h2, h3⟩, -⟩ | h
  · exact absurd h3 (hM mask h1 ref info ref' h2)
  · exact h

theorem processOne_total (H : GoodCalculators S F) (info : Info) : ∃ r, processOne S false info = .ok r := by
  obtain ⟨names, hN⟩ := resultNames_exist S H.dsNodup H.colsNodup
  unfold processOne
  cases h : attempt S false info with
  | ok r => exact ⟨r, rfl⟩
  | error e =>
    obtain ⟨r', h1, -, -⟩ := failed_shape S F names H hN info (S.ofCode e.retcode)
    exact ⟨r', by simpa using h1⟩

end One

/-! ### C29, C31: many locations -/

section Many

variable (S : Setup α T V W Info) (F : Key α → List Field)

/-- the lists of entries after the loop over the locations -/
theorem collect_spec (raising : Bool) (g : Info → Results (Key α) (Metrics W)) (hg : ∀ i, ((g i).map Prod.fst).Nodup)
    (infos : List Info) (h : ∀ i ∈ infos, processOne S raising i = .ok (g i)) (acc : Results (Key α) (Metrics W))
    (hacc : (acc.map Prod.fst).Nodup) :
    ∃ out, collect S raising infos acc = .ok out ∧ (out.map Prod.fst).Nodup ∧
      (∀ key, out.lookup key = if (∃ i ∈ infos, ((g i).lookup key).isSome) ∨ (acc.lookup key).isSome then
        some ((acc.lookup key).getD [] ++ infos.flatMap (fun i => ((g i).lookup key).getD [])) else none) := by
  induction infos generalizing acc with
  | nil =>
    refine ⟨acc, rfl, hacc, ?_⟩
    intro key
    cases hl : acc.lookup key with
    | none => simp
    | some l => simp
  | cons i infos ih =>
    obtain ⟨out, h1, h2, h3⟩ := ih (fun j hj => h j (List.mem_cons_of_mem _ hj)) (merge acc (g i)) (nodup_merge _ _ hacc)
    refine ⟨out, ?_, h2, ?_⟩
    · unfold collect
      rw [h i List.mem_cons_self]
      exact h1
    · intro key
      rw [h3 key, lookup_merge _ _ (hg i)]
      cases hl : (g i).lookup key with
      | none =>
        simp only [List.exists_mem_cons_iff, hl, Option.isSome_none, Bool.false_eq_true, false_or, List.flatMap_cons,
          Option.getD_none, List.nil_append]
      | some l =>
        rw [if_pos (.inr rfl), if_pos (.inl ⟨i, List.mem_cons_self, by rw [hl]; rfl⟩), List.flatMap_cons, hl]
        simp only [Option.getD_some, List.append_assoc]

theorem collect_error (infos : List Info) (acc : Results (Key α) (Metrics W)) (raising : Bool) (out : Results (Key α) (Metrics W))
    (h : collect S raising infos acc = .ok out) : ∀ i ∈ infos, ∃ r, processOne S raising i = .ok r := by
  induction infos generalizing acc with
  | nil => simp
  | cons i infos ih =>
    unfold collect at h
    simp only [bind, Except.bind] at h
    split at h
    · simp at h
    rename_i r hr
    intro j hj
    rcases List.mem_cons.mp hj with rfl | hj
    · exact ⟨r, hr⟩
    · exact ih _ h j hj

/-- the value of a field of a row -/
theorem entry_row (Fk : List Field) (hF : Fk.Nodup) (m : Metrics W) (hm : IsRow Fk m) (f : Field) (hf : f ∈ Fk) :
    ∃ w, entry f m = .ok w ∧ HasValue m f w := by
  rw [← hm.1, List.mem_map] at hf
  obtain ⟨⟨f', c⟩, he, rfl⟩ := hf
  obtain ⟨w, hw⟩ := hm.2 _ he
  simp only at hw
  subst hw
  refine ⟨w, ?_, he⟩
  unfold entry
  rw [lookup_of_mem m (by rw [hm.1]; exact hF) he]

theorem compactKey_spec (Fk : List Field) (hF : Fk.Nodup) (ms : List (Metrics W)) (hne : ms ≠ []) (hm : ∀ m ∈ ms, IsRow Fk m) :
    ∃ tbl, compactKey ms = .ok tbl ∧ tbl.map Prod.fst = Fk ∧
      ∀ f col, (f, col) ∈ tbl → List.Forall₂ (fun m w => HasValue m f w) ms col := by
  obtain ⟨m, ms', rfl⟩ := List.exists_cons_of_ne_nil hne
  have hcol : ∀ f ∈ Fk, ∃ col, (m :: ms').mapM (entry f) = .ok col ∧
      List.Forall₂ (fun m w => HasValue m f w) (m :: ms') col := by
    intro f hf
    generalize m :: ms' = l at hm
    induction l with
    | nil => exact ⟨[], rfl, .nil⟩
    | cons a l ih =>
      obtain ⟨col, h1, h2⟩ := ih (fun m h => hm m (List.mem_cons_of_mem _ h))
      obtain ⟨w, h3, h4⟩ := entry_row Fk hF a (hm a List.mem_cons_self) f hf
      refine ⟨w :: col, ?_, .cons h4 h2⟩
      rw [List.mapM_cons, h3]
      simp only [bind, Except.bind]
      rw [h1]; rfl
  classical
  let g : Field → Field × List W := fun f => (f, if hf : f ∈ Fk then (hcol f hf).choose else [])
  have hmap : Fk.mapM (fun f => do
      let col ← (m :: ms').mapM (entry f)
      (.ok (f, col) : Except Exc (Field × List W))) = .ok (Fk.map g) := by
    refine mapM_except_map g Fk ?_
    intro f hf
    rw [(hcol f hf).choose_spec.1]
    simp only [g, hf, dif_pos]
    rfl
  refine ⟨Fk.map g, ?_, ?_, ?_⟩
  · unfold compactKey
    simp only
    rw [(hm m List.mem_cons_self).1]
    exact hmap
  · rw [List.map_map]
    exact List.map_id _
  · intro f col hfc
    obtain ⟨f', hf', heq⟩ := List.mem_map.mp hfc
    simp only [g, hf', dif_pos, Prod.mk.injEq] at heq
    obtain ⟨rfl, rfl⟩ := heq
    exact (hcol f' hf').choose_spec.2

/-- The whole table in terms of the rows of the single locations. -/
theorem calc_table (H : GoodCalculators S F) (raising : Bool) (infos : List Info) (hne : infos ≠ [])
    (g : Info → Results (Key α) (Metrics W)) (hg : ∀ i ∈ infos, processOne S raising i = .ok (g i))
    (hshape : ∀ i ∈ infos, Shape S F (g i)) :
    ∃ out, calcAll S raising infos = .ok out ∧ (out.map Prod.fst).Nodup ∧ (∀ key, key ∈ out.map Prod.fst ↔ Expected S key) ∧
      ∀ key tbl, (key, tbl) ∈ out → tbl.map Prod.fst = F key ∧ ∀ f col, (f, col) ∈ tbl →
        List.Forall₂ (fun i w => ∃ m, (g i).lookup key = some [m] ∧ HasValue m f w) infos col := by
  classical
  let g' : Info → Results (Key α) (Metrics W) := fun i => if i ∈ infos then g i else []
  have hg' : ∀ i ∈ infos, g' i = g i := fun i hi => by simp only [g', hi, if_true]
  obtain ⟨res, h1, h2, h3⟩ := collect_spec S raising g' (by
      intro i
      by_cases hi : i ∈ infos
      · rw [hg' i hi]; exact (hshape i hi).1
      · simp [g', hi]) infos (fun i hi => by rw [hg' i hi]; exact hg i hi) [] (by simp)
  have hlook : ∀ key, (Expected S key → ∃ ms, res.lookup key = some ms ∧
        List.Forall₂ (fun i m => (g i).lookup key = some [m] ∧ IsRow (F key) m) infos ms) ∧
      (¬Expected S key → res.lookup key = none) := by
    intro key
    constructor
    · intro he
      have hrow : ∀ i ∈ infos, ∃ m, (g i).lookup key = some [m] ∧ IsRow (F key) m := fun i hi => (hshape i hi).2.1 key he
      rw [h3 key, if_pos]
      · refine ⟨_, rfl, ?_⟩
        simp only [List.lookup_nil, Option.getD_none, List.nil_append]
        have hfm : infos.flatMap (fun i => ((g' i).lookup key).getD []) = infos.flatMap (fun i => ((g i).lookup key).getD []) :=
          List.flatMap_congr (fun i hi => by rw [hg' i hi])
        rw [hfm]
        clear hne hg hg' hshape h1 h3 hfm
        induction infos with
        | nil => exact .nil
        | cons i infos ih =>
          obtain ⟨m, h5, h6⟩ := hrow i List.mem_cons_self
          rw [List.flatMap_cons, h5]
          exact .cons ⟨h5, h6⟩ (ih (fun j hj => hrow j (List.mem_cons_of_mem _ hj)))
      · left
        obtain ⟨i, hi⟩ := List.exists_mem_of_ne_nil _ hne
        obtain ⟨m, h5, -⟩ := hrow i hi
        exact ⟨i, hi, by rw [hg' i hi, h5]; rfl⟩
    · intro he
      rw [h3 key, if_neg]
      rintro (⟨i, hi, h5⟩ | h5)
      · rw [hg' i hi, (hshape i hi).2.2 key he] at h5; simp at h5
      · simp at h5
  have hmemres : ∀ e ∈ res, Expected S e.1 ∧ List.Forall₂ (fun i m => (g i).lookup e.1 = some [m] ∧ IsRow (F e.1) m) infos e.2 := by
    rintro ⟨key, ms⟩ he
    have hl := lookup_of_mem res h2 he
    by_cases hE : Expected S key
    · obtain ⟨ms', h5, h6⟩ := (hlook key).1 hE
      rw [hl] at h5
      obtain rfl := Option.some.inj h5
      exact ⟨hE, h6⟩
    · rw [(hlook key).2 hE] at hl; simp at hl
  have hnF : ∀ key, Expected S key → (F key).Nodup := by
    exact fun key hE => H.fieldsNodup key hE
  have hcomp : ∀ e ∈ res, ∃ tbl, compactKey e.2 = .ok tbl ∧ tbl.map Prod.fst = F e.1 ∧
      ∀ f col, (f, col) ∈ tbl → List.Forall₂ (fun m w => HasValue m f w) e.2 col := by
    intro e he
    obtain ⟨hE, hf⟩ := hmemres e he
    refine compactKey_spec (F e.1) (hnF _ hE) e.2 ?_ ?_
    · intro hc
      rw [hc] at hf
      exact hne (List.forall₂_nil_right_iff.mp hf)
    · intro m hm
      clear hne hg hg' hshape h1 h3
      rw [List.forall₂_iff_get] at hf
      obtain ⟨n, hn, rfl⟩ := List.getElem_of_mem hm
      have := (hf.2 n (by omega) hn).2
      simpa using this
  let k : Key α × List (Metrics W) → Key α × List (Field × List W) :=
    fun e => (e.1, if he : e ∈ res then (hcomp e he).choose else [])
  have hmap : res.mapM (fun e => do
      let c ← compactKey e.2
      (.ok (e.1, c) : Except Exc (Key α × List (Field × List W)))) = .ok (res.map k) := by
    refine mapM_except_map k res ?_
    intro e he
    rw [(hcomp e he).choose_spec.1]
    simp only [k, he, dif_pos]
    rfl
  have hkeys : (res.map k).map Prod.fst = res.map Prod.fst := by
    rw [List.map_map]; rfl
  refine ⟨res.map k, ?_, ?_, ?_, ?_⟩
  · unfold calcAll
    rw [h1]
    exact hmap
  · rw [hkeys]; exact h2
  · intro key
    rw [hkeys, lookup_isSome]
    constructor
    · intro h
      by_contra hE
      rw [(hlook key).2 hE] at h; simp at h
    · intro hE
      obtain ⟨ms, h5, -⟩ := (hlook key).1 hE
      rw [h5]; rfl
  · intro key tbl hm
    obtain ⟨e, he, heq⟩ := List.mem_map.mp hm
    simp only [k, he, dif_pos, Prod.mk.injEq] at heq
    obtain ⟨rfl, rfl⟩ := heq
    obtain ⟨-, h6, h7⟩ := (hcomp e he).choose_spec
    refine ⟨h6, ?_⟩
    intro f col hfc
    have h8 := h7 f col hfc
    have h9 := (hmemres e he).2
    rw [List.forall₂_iff_get] at h8 h9 ⊢
    refine ⟨by omega, ?_⟩
    intro n hn1 hn2
    exact ⟨e.2.get ⟨n, by omega⟩, (h9.2 n hn1 (by omega)).1, h8.2 n (by omega) hn2⟩

/-- **C29.** With `handle_errors='ignore'`, whatever fails: `calc` does not raise, it returns exactly the expected result keys, every
key has the fields of its calculator, and every field has one entry for each location. Partial: the calculators have to behave
(`GoodCalculators`: one calculator for each `k`, a "status" array, the template for an empty frame), and masking must not remove all
reference data of a location. What happens otherwise: `calc_masked_location_missing`, `calc_same_k_repeats`,
`calc_bare_status_raises`. -/
theorem calc_one_entry_per_location_partial (H : GoodCalculators S F) (hM : NeverAllMasked S) (infos : List Info) (hne : infos ≠ []) :
    ∃ out, calcAll S false infos = .ok out ∧ (out.map Prod.fst).Nodup ∧ (∀ key, key ∈ out.map Prod.fst ↔ Expected S key) ∧
      ∀ key tbl, (key, tbl) ∈ out → tbl.map Prod.fst = F key ∧ ∀ f col, (f, col) ∈ tbl → col.length = infos.length := by
  classical
  obtain ⟨out, h1, h2, h3, h4⟩ := calc_table S F H false infos hne (fun i => (processOne_total S F H i).choose)
    (fun i _ => (processOne_total S F H i).choose_spec)
    (fun i _ => processOne_shape S F H hM false i _ (processOne_total S F H i).choose_spec)
  refine ⟨out, h1, h2, h3, ?_⟩
  intro key tbl hm
  obtain ⟨h5, h6⟩ := h4 key tbl hm
  exact ⟨h5, fun f col hfc => (h6 f col hfc).length_eq.symm⟩

/-- A location without any entry does not change the result. -/
theorem calc_skip (raising : Bool) (g : Info → Results (Key α) (Metrics W)) (infos : List Info)
    (hg : ∀ i ∈ infos, processOne S raising i = .ok (g i)) [DecidablePred (fun i => g i ≠ [])] :
    calcAll S raising infos = calcAll S raising (infos.filter (fun i => g i ≠ [])) := by
  have : ∀ acc, collect S raising infos acc = collect S raising (infos.filter (fun i => g i ≠ [])) acc := by
    induction infos with
    | nil => simp
    | cons i infos ih =>
      intro acc
      have hi := hg i List.mem_cons_self
      have ih' := ih (fun j hj => hg j (List.mem_cons_of_mem _ hj))
      by_cases h0 : g i = []
      · rw [List.filter_cons_of_neg (by simp [h0])]
        rw [← ih']
        conv_lhs => unfold collect
        rw [hi, h0]
        rfl
      · rw [List.filter_cons_of_pos (by simp [h0])]
        unfold collect
        rw [hi]
        exact ih' _
  unfold calcAll
  rw [this []]

/-- **C31.** If `calc` (in either mode) succeeds, then every column of the table consists, in the order of the locations, of the entries
obtained for each location alone. A location whose own result is empty (all reference data masked) has no entry. -/
theorem calc_independent (H : GoodCalculators S F) (raising : Bool) (infos : List Info)
    (out : List (Key α × List (Field × List W))) (h : calcAll S raising infos = .ok out) (key : Key α)
    (tbl : List (Field × List W)) (hk : (key, tbl) ∈ out) (f : Field) (col : List W) (hf : (f, col) ∈ tbl)
    [DecidablePred (fun i => calcAll S raising [i] ≠ .ok [])] :
    List.Forall₂ (fun i w => ∃ out' tbl', calcAll S raising [i] = .ok out' ∧ (key, tbl') ∈ out' ∧ (f, [w]) ∈ tbl')
      (infos.filter (fun i => calcAll S raising [i] ≠ .ok [])) col := by
  classical
  have hall : ∀ i ∈ infos, ∃ r, processOne S raising i = .ok r := by
    unfold calcAll at h
    simp only [bind, Except.bind] at h
    split at h
    · simp at h
    rename_i res hres
    exact collect_error S infos [] raising res hres
  let g : Info → Results (Key α) (Metrics W) := fun i => if hi : i ∈ infos then (hall i hi).choose else []
  have hg : ∀ i ∈ infos, processOne S raising i = .ok (g i) := by
    intro i hi
    simp only [g, hi, dif_pos]
    exact (hall i hi).choose_spec
  have hsh : ∀ i ∈ infos, g i ≠ [] → Shape S F (g i) := by
    intro i hi h0
    rcases processOne_shape' S F H raising i _ (hg i hi) with ⟨-, h1⟩ | h1
    · exact absurd h1 h0
    · exact h1
  have hsingle : ∀ i ∈ infos, (g i = [] ↔ calcAll S raising [i] = .ok []) := by
    intro i hi
    constructor
    · intro h0
      unfold calcAll collect
      rw [hg i hi, h0]
      rfl
    · intro h0
      by_contra hne
      obtain ⟨out', k1, -, k3, -⟩ := calc_table S F H raising [i] (by simp) g
        (fun j hj => by rw [List.mem_singleton] at hj; rw [hj]; exact hg i hi)
        (fun j hj => by rw [List.mem_singleton] at hj; rw [hj]; exact hsh i hi hne)
      rw [h0] at k1
      obtain rfl := Except.ok.inj k1
      obtain ⟨⟨key', ms⟩, hmem⟩ := List.exists_mem_of_ne_nil _ hne
      have := (k3 key').mpr (mem_shape S F (hsh i hi hne) hmem).1
      simp at this
  have hfilter : infos.filter (fun i => calcAll S raising [i] ≠ .ok []) = infos.filter (fun i => g i ≠ []) := by
    apply List.filter_congr
    intro i hi
    rw [decide_eq_decide, not_iff_not]
    exact (hsingle i hi).symm
  rw [hfilter]
  rw [calc_skip S raising g infos hg] at h
  set kept := infos.filter (fun i => g i ≠ []) with hkept
  have hkm : ∀ i ∈ kept, i ∈ infos ∧ g i ≠ [] := by
    intro i hi
    rw [hkept, List.mem_filter, decide_eq_true_eq] at hi
    exact hi
  have hne : kept ≠ [] := by
    intro h0
    rw [h0] at h
    have : out = [] := by
      have h' : (Except.ok ([] : List (Key α × List (Field × List W))) : Except Exc _) = .ok out := h
      exact (Except.ok.inj h').symm
    rw [this] at hk; simp at hk
  obtain ⟨out', h1, h2, h3, h4⟩ := calc_table S F H raising kept hne g (fun i hi => hg i (hkm i hi).1)
    (fun i hi => hsh i (hkm i hi).1 (hkm i hi).2)
  rw [h] at h1
  obtain rfl := Except.ok.inj h1
  obtain ⟨h5, h6⟩ := h4 key tbl hk
  have h7 := h6 f col hf
  have hE : Expected S key := (h3 key).mp (List.mem_map.mpr ⟨_, hk, rfl⟩)
  have hnF : (F key).Nodup := by
    exact H.fieldsNodup key hE
  rw [List.forall₂_iff_get] at h7 ⊢
  refine ⟨h7.1, ?_⟩
  intro n hn1 hn2
  obtain ⟨m, h8, h9⟩ := h7.2 n hn1 hn2
  obtain ⟨hi, hi0⟩ := hkm (kept.get ⟨n, hn1⟩) (List.get_mem _ _)
  obtain ⟨out1, k1, k2, k3, k4⟩ := calc_table S F H raising [kept.get ⟨n, hn1⟩] (by simp) g (by
    intro i hi'
    rw [List.mem_singleton] at hi'
    rw [hi']; exact hg _ hi) (by
    intro i hi'
    rw [List.mem_singleton] at hi'
    rw [hi']; exact hsh _ hi hi0)
  have hk1 : key ∈ out1.map Prod.fst := (k3 key).mpr hE
  obtain ⟨⟨key', tbl'⟩, hm1, rfl⟩ := List.mem_map.mp hk1
  obtain ⟨k5, k6⟩ := k4 key' tbl' hm1
  have hf1 : f ∈ tbl'.map Prod.fst := by
    rw [k5, ← h5]; exact List.mem_map.mpr ⟨_, hf, rfl⟩
  obtain ⟨⟨f', col'⟩, hm2, rfl⟩ := List.mem_map.mp hf1
  have k7 := k6 f' col' hm2
  cases k7 with
  | cons hx hnil =>
    rename_i w' l
    cases hnil
    obtain ⟨m', k8, k9⟩ := hx
    simp only at h8
    rw [h8] at k8
    obtain rfl : m = m' := by simpa using k8
    have hrow : IsRow (F key') m := by
      obtain ⟨m2, h10, h11⟩ := (hsh _ hi hi0).2.1 key' hE
      rw [h8] at h10
      obtain rfl : m = m2 := by simpa using h10
      exact h11
    have : w' = col.get ⟨n, hn2⟩ := by
      have e1 := lookup_of_mem m (by rw [hrow.1]; exact hnF) k9
      have e2 := lookup_of_mem m (by rw [hrow.1]; exact hnF) h9
      rw [e1] at e2
      simpa using e2
    exact ⟨out1, tbl', k1, hm1, by rw [← this]; exact hm2⟩

end Many

/-! ### C30: the status of a location -/

section Status

variable (S : Setup α T V W Info) (F : Key α → List Field) (names : ℕ → List (Key α))

theorem performKey_failure (H : GoodCalculators S F) {c} (hc : c ∈ S.calcs) (info : Info)
    (matched : List (List α × MFrame α T V)) (key : Key α) (hk : ∃ ref, Admissible S.ds ref c.1.2 key) :
    (stepErr (key, performKey S false info c.2 matched key)).map Exc.retcode = keyFailure S info matched key := by
  unfold stepErr
  rcases performKey_ignore S F H hc info matched key hk with ⟨e, h1, h2⟩ | ⟨h2, data, -, ⟨-, h1⟩ | ⟨-, m, h1, -⟩⟩
  · simp only [h1, h2, Option.map_some]
  · simp only [h1, h2, Option.map_none]
  · simp only [h1, h2, Option.map_none]

theorem perform_failure (H : GoodCalculators S F) (hN : AreNames S names) (info : Info)
    (matched : List (List (List α × MFrame α T V))) (code : ℤ) :
    (∃ e, performCalcs S false info (S.calcs.zip matched) [] = .error e ∧ e.retcode = code) ↔
      (S.calcs.zip matched).findSome? (fun cm =>
            if cm.2 = [] then some NO_TEMP_MATCHED_DATA
            else (names cm.1.1.2).findSome? (keyFailure S info cm.2)) = some code := by
  rw [performCalcs_steps S names false info _ (fun cm hcm => (hN _ (H.kPos _ (List.of_mem_zip hcm).1)).1)]
  simp only [runSteps_error]
  have h1 : (∃ e, ((S.calcs.zip matched).flatMap (calcSteps S names false info)).findSome? stepErr = some e ∧ e.retcode = code) ↔
      (((S.calcs.zip matched).flatMap (calcSteps S names false info)).findSome? stepErr).map Exc.retcode = some code := by
    rw [Option.map_eq_some_iff]
  rw [h1]
  have h2 : ∀ l : List (((ℕ × ℕ) × (Frame α T V → Info → Except Exc (Metrics W))) × List (List α × MFrame α T V)),
      (∀ cm ∈ l, cm.1 ∈ S.calcs) →
      ((l.flatMap (calcSteps S names false info)).findSome? stepErr).map Exc.retcode =
      l.findSome? (fun cm => if cm.2 = [] then some NO_TEMP_MATCHED_DATA
            else (names cm.1.1.2).findSome? (keyFailure S info cm.2)) := by
    intro l hl
    induction l with
    | nil => rfl
    | cons cm l ih =>
      rw [List.flatMap_cons, List.findSome?_append, List.findSome?_cons]
      have hstep : ((calcSteps S names false info cm).findSome? stepErr).map Exc.retcode =
          if cm.2 = [] then some NO_TEMP_MATCHED_DATA else (names cm.1.1.2).findSome? (keyFailure S info cm.2) := by
        unfold calcSteps
        by_cases h0 : cm.2 = []
        · rw [if_pos (by rw [h0]; rfl), if_pos h0]
          rfl
        · rw [if_neg (by rwa [List.length_eq_zero_iff]), if_neg h0]
          have hks : ∀ key ∈ names cm.1.1.2, ∃ ref, Admissible S.ds ref cm.1.1.2 key :=
            fun key h => ((hN _ (H.kPos _ (hl cm List.mem_cons_self))).2.2 key).mp h
          generalize names cm.1.1.2 = ks at hks
          induction ks with
          | nil => rfl
          | cons key ks ihk =>
            rw [List.map_cons, List.findSome?_cons, List.findSome?_cons,
              ← performKey_failure S F H (hl cm List.mem_cons_self) info cm.2 key (hks key List.mem_cons_self)]
            replace ihk := ihk (fun key h => hks key (List.mem_cons_of_mem _ h))
            cases h3 : stepErr (key, performKey S false info cm.1.2 cm.2 key) with
            | some e => rfl
            | none => exact ihk
      rw [← hstep, ← ih (fun cm h => hl cm (List.mem_cons_of_mem _ h))]
      cases h3 : (calcSteps S names false info cm).findSome? stepErr with
      | some e => rfl
      | none => rfl
  rw [h2 _ (fun cm h => (List.of_mem_zip h).1)]

theorem attempt_failure (H : GoodCalculators S F) (hN : AreNames S names) (info : Info) (code : ℤ) :
    (∃ e, attempt S false info = .error e ∧ e.retcode = code) ↔ firstFailure S names info = some code := by
  unfold attempt firstFailure
  cases hd : S.getData info with
  | error e =>
    constructor
    · rintro ⟨e', h1, h2⟩
      obtain rfl := Except.error.inj h1
      exact congrArg some h2
    · intro h
      exact ⟨_, rfl, Option.some.inj h⟩
  | ok dfs =>
    cases dfs with
    | nil =>
      constructor
      · rintro ⟨e', h1, h2⟩
        obtain rfl := Except.error.inj h1
        exact congrArg some h2
      · intro h
        exact ⟨_, rfl, Option.some.inj h⟩
    | cons d dfs =>
      simp only [List.length_cons, Nat.add_eq_zero_iff, one_ne_zero, and_false, if_false]
      unfold performValidation
      simp only [bind, Except.bind]
      cases hm : masked S info (d :: dfs) with
      | error e =>
        simp only [Except.error.injEq, exists_eq_left', Option.some.injEq]
      | ok o =>
        cases o with
        | none => simp
        | some dfs' =>
          simp only
          cases hc : onlyColumns S dfs' with
          | error e => simp only [Except.error.injEq, exists_eq_left', Option.some.injEq]
          | ok dfs'' =>
            simp only
            unfold matchAll
            cases hmm : S.calcs.mapM (fun c => S.matcher dfs'' S.temporalRef c.1.1 c.1.2) with
            | error e =>
              simp only [Except.error.injEq, exists_eq_left', Option.some.injEq, Exc.retcode]
            | ok matched =>
              simp only
              exact perform_failure S F names H hN info matched code

/-- The status of the row of one location. -/
theorem processOne_status (H : GoodCalculators S F) (hN : AreNames S names) (info : Info) (hm : ¬AllMasked S info)
    (r : Results (Key α) (Metrics W)) (h : processOne S false info = .ok r) (key : Key α) (hE : Expected S key) (m : Metrics W)
    (hl : r.lookup key = some [m]) :
    (∃ code, firstFailure S names info = some code ∧ HasValue m (.plain "status") (S.ofCode code)) ∨
    (firstFailure S names info = none ∧ ∃ w, KeyStatus S info key w ∧ HasValue m (.plain "status") w) := by
  have hstF : Field.plain "status" ∈ F key := by
    exact H.status key hE
  unfold processOne at h
  cases ha : attempt S false info with
  | error e =>
    left
    rw [ha] at h
    simp only [Bool.false_eq_true, if_false] at h
    obtain ⟨r', h1, -, h3⟩ := failed_shape S F names H hN info (S.ofCode e.retcode)
    rw [h1] at h
    obtain rfl := Except.ok.inj h
    exact ⟨e.retcode, (attempt_failure S F names H hN info _).mp ⟨e, ha, rfl⟩, h3 key m hl _ hstF rfl⟩
  | ok r' =>
    right
    rw [ha] at h
    obtain rfl := Except.ok.inj h
    refine ⟨?_, ?_⟩
    · cases hf : firstFailure S names info with
      | none => rfl
      | some code =>
        obtain ⟨e, he, -⟩ := (attempt_failure S F names H hN info code).mpr hf
        rw [ha] at he; simp at he
    · rcases attempt_cases S false info r' ha with ⟨h0, -⟩ | ⟨dfs, dfs', dfs'', matched, h1, h2, h3, h4, h5, h6⟩
      · exact absurd h0 hm
      have hlen := mapM_length _ _ _ h5
      obtain ⟨hsh, hall⟩ := perform_shape S F names H hN false info matched hlen r' h6
      obtain ⟨c, hc, hA, href⟩ := id hE
      obtain ⟨n, hn, rfl⟩ := List.getElem_of_mem hc
      have hn' : n < matched.length := by omega
      have hzip : (S.calcs[n], matched[n]) ∈ S.calcs.zip matched := by
        rw [List.mem_iff_getElem]
        exact ⟨n, by rw [List.length_zip]; omega, by simp⟩
      have hmat : S.matcher dfs'' S.temporalRef S.calcs[n].1.1 S.calcs[n].1.2 = .ok matched[n] := by
        have := mapM_except_ok h5
        rw [List.forall₂_iff_get] at this
        exact this.2 n hn hn'
      have hkey : key ∈ names S.calcs[n].1.2 := ((hN _ (H.kPos _ hc)).2.2 key).mpr hA
      obtain ⟨o, ho, hlo⟩ := hall _ hzip key hkey
      have hskip : ¬Skipped S key := fun hs => hs.2 (href hs.1)
      rw [hl] at hlo
      have hom : o = some m := by
        cases o with
        | none => simp at hlo
        | some m' => simp at hlo; rw [hlo]
      subst hom
      have hMne : matched[n] ≠ [] := by
        intro h0
        have : ∃ e, performCalcs S false info (S.calcs.zip matched) [] = .error e := by
          have hs : ((S.calcs.zip matched).findSome? (fun cm =>
            if cm.2 = [] then some NO_TEMP_MATCHED_DATA
            else (names cm.1.1.2).findSome? (keyFailure S info cm.2))).isSome := by
            rw [List.findSome?_isSome_iff]
            exact ⟨_, hzip, by simp [h0]⟩
          obtain ⟨code, hcode⟩ := Option.isSome_iff_exists.mp hs
          obtain ⟨e, he, -⟩ := (perform_failure S F names H hN info matched code).mpr hcode
          exact ⟨e, he⟩
        obtain ⟨e, he⟩ := this
        rw [h6] at he; simp at he
      have hlenk : S.calcs[n].1.2 = key.length := (names_length S names hN (H.kPos _ hc) hkey).symm
      rcases performKey_ignore S F H hc info matched[n] key hA with ⟨e, k1, -⟩ | ⟨-, data, k1, ⟨hs, -⟩ | ⟨-, m', k2, k3, k4⟩⟩
      · rw [ho] at k1; simp at k1
      · exact absurd hs hskip
      · simp only at ho
        rw [ho] at k2
        obtain rfl : m = m' := by simpa using k2
        rcases k4 with ⟨k5, k6⟩ | ⟨k5, d, k6, ⟨e, k7, k8⟩ | k7⟩
        · exact ⟨_, ⟨dfs, dfs', dfs'', h1, h2, h3, h4, _, hc, hlenk, _, hmat, hMne, data, k1, .inl ⟨k5, rfl⟩⟩, k6⟩
        · exact ⟨_, ⟨dfs, dfs', dfs'', h1, h2, h3, h4, _, hc, hlenk, _, hmat, hMne, data, k1,
            .inr ⟨k5, d, k6, .inl ⟨e, k7, rfl⟩⟩⟩, k8⟩
        · obtain ⟨w, -, hw⟩ := entry_row (F key) (H.fieldsNodup _ hE) m k3 (.plain "status") (H.status _ hE)
          exact ⟨w, ⟨dfs, dfs', dfs'', h1, h2, h3, h4, _, hc, hlenk, _, hmat, hMne, data, k1,
            .inr ⟨k5, d, k6, .inr ⟨m, k7, hw⟩⟩⟩, hw⟩

/-- **C30.** The status column with `handle_errors='ignore'`: a location that fails as a whole has the code of its first failure in every
result; otherwise a result has "no matched data", "metrics calculation failed" or the status reported by its calculator. Partial: under
the conditions of C29; with subsets the codes are lost (`status_with_subsets`, `status_joined_subsets`). -/
theorem calc_status_partial (H : GoodCalculators S F) (hM : NeverAllMasked S) (hN : AreNames S names) (infos : List Info)
    (out : List (Key α × List (Field × List W))) (h : calcAll S false infos = .ok out) (key : Key α)
    (tbl : List (Field × List W)) (hk : (key, tbl) ∈ out) (col : List W) (hf : (.plain "status", col) ∈ tbl) :
    List.Forall₂ (fun i w => (∃ code, firstFailure S names i = some code ∧ w = S.ofCode code) ∨
      (firstFailure S names i = none ∧ KeyStatus S i key w)) infos col := by
  have hne : infos ≠ [] := by
    rintro rfl
    have : out = [] := by
      have h' : (Except.ok ([] : List (Key α × List (Field × List W))) : Except Exc _) = .ok out := h
      exact (Except.ok.inj h').symm
    rw [this] at hk; simp at hk
  obtain ⟨out', h1, -, h3, h4⟩ := calc_table S F H false infos hne (fun i => (processOne_total S F H i).choose)
    (fun i _ => (processOne_total S F H i).choose_spec)
    (fun i _ => processOne_shape S F H hM false i _ (processOne_total S F H i).choose_spec)
  rw [h] at h1
  obtain rfl := Except.ok.inj h1
  have hE : Expected S key := (h3 key).mp (List.mem_map.mpr ⟨_, hk, rfl⟩)
  have hnF : (F key).Nodup := by
    exact H.fieldsNodup key hE
  refine ((h4 key tbl hk).2 _ col hf).imp ?_
  rintro i w ⟨m, h5, h6⟩
  have hmask : ¬AllMasked S i := by
    rintro ⟨mask, k1, ref, ref', k2, k3⟩
    exact hM mask k1 ref i ref' k2 k3
  have hrow : IsRow (F key) m := by
    obtain ⟨m', k1, k2⟩ := (processOne_shape S F H hM false i _ (processOne_total S F H i).choose_spec).2.1 key hE
    rw [h5] at k1
    obtain rfl : m = m' := by simpa using k1
    exact k2
  have huniq : ∀ w', HasValue m (.plain "status") w' → w = w' := by
    intro w' hw'
    have e1 := lookup_of_mem m (by rw [hrow.1]; exact hnF) h6
    have e2 := lookup_of_mem m (by rw [hrow.1]; exact hnF) hw'
    rw [e1] at e2
    simpa using e2
  rcases processOne_status S F names H hN i hmask _ (processOne_total S F H i).choose_spec key hE m h5 with
    ⟨code, k1, k2⟩ | ⟨k1, w', k2, k3⟩
  · exact .inl ⟨code, k1, huniq _ k2⟩
  · rw [← huniq _ k3] at k2
    exact .inr ⟨k1, k2⟩

theorem onlyColumns_error (l : List (α × DF α T V)) (e : Exc) (he : onlyColumns S l = .error e) : e = .other := by
  induction l with
  | nil => simp [onlyColumns] at he
  | cons d l ih =>
    obtain ⟨n, d⟩ := d
    unfold onlyColumns at he
    split at he
    · exact (Except.error.inj he).symm
    · split at he
      · simp only [bind, Except.bind] at he
        split at he
        · rename_i e' he'
          obtain rfl := Except.error.inj he
          exact ih he'
        · simp at he
      · exact (Except.error.inj he).symm

theorem firstFailure_ne_ok (hmask : ∀ mask, S.mask = some mask → ∀ ref info e, mask ref info = .error e → e.retcode ≠ OK)
    (info : Info) : firstFailure S names info ≠ some OK := by
  have hkey : ∀ M key, keyFailure S info M key ≠ some OK := by
    intro M key
    unfold keyFailure
    split
    · simp [VALIDATION_FAILED, OK]
    · split
      · simp
      · split
        · simp
        · split
          · rename_i e he
            unfold scaled at he
            split at he
            · simp at he
            · split at he
              · obtain rfl := Except.error.inj he; simp [Exc.retcode, VALIDATION_FAILED, OK]
              · split at he
                · obtain rfl := Except.error.inj he; simp [Exc.retcode, SCALING_FAILED, OK]
                · split at he
                  · simp at he
                  · split at he
                    · simp at he
                    · obtain rfl := Except.error.inj he; simp [Exc.retcode, VALIDATION_FAILED, OK]
          · simp
  unfold firstFailure
  split
  · simp [DATA_MANAGER_FAILED, OK]
  · simp [NO_GPI_DATA, OK]
  · split
    · rename_i e he
      unfold masked at he
      split at he
      · simp at he
      · rename_i mask hm
        split at he
        · obtain rfl := Except.error.inj he; simp [Exc.retcode, VALIDATION_FAILED, OK]
        · simp only [bind, Except.bind] at he
          split at he
          · rename_i e' he'
            obtain rfl := Except.error.inj he
            have := hmask mask hm _ info _ he'
            simpa using this
          · split at he <;> simp at he
    · simp
    · split
      · rename_i e he
        have := onlyColumns_error S _ _ he
        subst this
        simp [Exc.retcode, VALIDATION_FAILED, OK]
      · split
        · simp [TEMPORAL_MATCHING_FAILED, OK]
        · intro hc
          obtain ⟨cm, -, h2⟩ := List.exists_of_findSome?_eq_some hc
          split at h2
          · simp [NO_TEMP_MATCHED_DATA, OK] at h2
          · obtain ⟨key, -, h3⟩ := List.exists_of_findSome?_eq_some h2
            exact hkey _ _ h3

/-- **C30.** "OK" appears only if nothing failed: the data was read, matched and scaled and the calculator itself reported OK. -/
theorem calc_status_ok_partial (H : GoodCalculators S F) (hM : NeverAllMasked S)
    (hmask : ∀ mask, S.mask = some mask → ∀ ref info e, mask ref info = .error e → e.retcode ≠ OK)
    (hinj : Function.Injective S.ofCode) (infos : List Info)
    (out : List (Key α × List (Field × List W))) (h : calcAll S false infos = .ok out) (key : Key α)
    (tbl : List (Field × List W)) (hk : (key, tbl) ∈ out) (col : List W) (hf : (.plain "status", col) ∈ tbl) :
    List.Forall₂ (fun i w => w = S.ofCode OK → ∃ dfs, S.getData i = .ok dfs ∧ dfs ≠ [] ∧ ∃ c ∈ S.calcs, c.1.2 = key.length ∧
      ∃ frame m, frame.index ≠ [] ∧ (∃ d, scaled S i key frame = .ok d ∧ c.2 (renamed S key d) i = .ok m) ∧
        HasValue m (.plain "status") (S.ofCode OK)) infos col := by
  obtain ⟨names, hN⟩ := resultNames_exist S H.dsNodup H.colsNodup
  refine (calc_status_partial S F names H hM hN infos out h key tbl hk col hf).imp ?_
  rintro i w h1 rfl
  rcases h1 with ⟨code, h1, h2⟩ | ⟨-, dfs, dfs', dfs'', h1, h2, -, -, c, h3, h4, M, -, -, data, -, h5⟩
  · rw [← hinj h2] at h1
    exact absurd h1 (firstFailure_ne_ok S names hmask i)
  · refine ⟨dfs, h1, h2, c, h3, h4, ?_⟩
    rcases h5 with ⟨-, h5⟩ | ⟨h5, d, h6, ⟨e, -, h7⟩ | ⟨m, h7, h8⟩⟩
    · have := hinj h5; simp [OK, NO_TEMP_MATCHED_DATA] at this
    · have := hinj h7; simp [OK, METRICS_CALCULATION_FAILED] at this
    · exact ⟨data, m, h5, ⟨d, h6, h7⟩, h8⟩

/-- **C30.** The return codes are pairwise different. -/
theorem codes_distinct : [UNCAUGHT, OK, INSUFFICIENT_DATA, METRICS_CALCULATION_FAILED, TEMPORAL_MATCHING_FAILED, NO_TEMP_MATCHED_DATA,
    SCALING_FAILED, VALIDATION_FAILED, NO_GPI_DATA, DATA_MANAGER_FAILED].Nodup := by decide

end Status

end Verif.Validation
