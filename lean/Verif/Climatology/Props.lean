import Verif.Climatology.Lemmas
import Mathlib.Tactic.IntervalCases
import Mathlib.Tactic.NormNum

/-! C23, C24: climatologies and anomalies. -/

set_option linter.unusedSectionVars false

namespace Verif.Climatology

open Filters (boxcarFilter boxcarSpec)

variable {K : Type} [Field K] [LinearOrder K] [IsStrictOrderedRing K]

/-- The day of the year by the table is the one found by counting. -/
theorem doy_correct (month day : ℕ) (h1 : 1 ≤ month) (h2 : month ≤ 12) (y : ℕ) :
    doy month day none = dayOfYear true month day ∧ (1 ≤ day → doy month day (some y) = dayOfYear (isLeap y) month day) := by
  interval_cases month <;> cases hl : isLeap y <;>
    simp [doy, hl, dayOfYear, daysPast, List.range_succ, monthLength] <;> omega

/-! ### C23 -/

/-- The unit of an observation by the calendar. -/
def unitOf (freq : Freq) (respect : Bool) (o : Obs K) : ℕ :=
  match freq with
  | .day => dayOfYear (if respect then isLeap o.year else true) o.month o.day
  | _ => o.month

/-- The long term value of unit `i + 1`: the aggregate of the smoothed observations of that unit. -/
def longTermSpec (A : Args K) (respect : Bool) (ser : List (Obs K)) (i : ℕ) : Option K :=
  let obs := ser.map (fun o => (o.jd, o.value))
  let vs := (ser.filter (fun o => decide (unitOf A.freq respect o = i + 1))).filterMap
    (fun o => boxcarSpec obs A.movingAvgOrig noData A.fillna A.minObsOrig (o.jd, o.value))
  if vs = [] then none else some (A.agg vs)

/-- a calendar date -/
def ValidDate (o : Obs K) : Prop := 1 ≤ o.month ∧ o.month ≤ 12 ∧ 1 ≤ o.day

theorem indexUnit_eq (freq : Freq) (respect : Bool) (o : Obs K) (h : ValidDate o) :
    indexUnit freq respect o = unitOf freq respect o := by
  obtain ⟨h1, h2, h3⟩ := h
  cases freq with
  | day =>
    unfold indexUnit unitOf
    cases respect with
    | false => exact (doy_correct o.month o.day h1 h2 o.year).1
    | true => exact (doy_correct o.month o.day h1 h2 o.year).2 h3
  | month => rfl
  | other => rfl

theorem longTerm_eq (A : Args K) (respect : Bool) (n : ℕ) (ser : List (Obs K)) (hs : ser.Pairwise (fun o p => o.jd ≤ p.jd))
    (hv : ∀ o ∈ ser, ValidDate o) (i : ℕ) (hi : i < n) :
    ((longTerm A respect n ser).getD i []).headD none = longTermSpec A respect ser i := by
  have hvs : ∀ l : List (Obs K), (∀ o ∈ l, ValidDate o) → ∀ f : Obs K → Option K,
      unitValues (List.zipWith (fun o v => (indexUnit A.freq respect o, v)) l (l.map f)) (i + 1) =
        (l.filter (fun o => decide (unitOf A.freq respect o = i + 1))).filterMap f := by
    intro l
    induction l with
    | nil => intro _ f; rfl
    | cons o l ih =>
      intro hl f
      have ih := ih (fun p hp => hl p (List.mem_cons_of_mem _ hp)) f
      unfold unitValues at ih ⊢
      simp only [List.map_cons, List.zipWith_cons_cons, indexUnit_eq A.freq respect o (hl o (by simp))]
      by_cases hu : unitOf A.freq respect o = i + 1
      · rw [List.filter_cons_of_pos (by simpa using hu), List.filter_cons_of_pos (by simpa using hu)]
        cases hf : f o with
        | none => rw [List.filterMap_cons_none (by simp), List.filterMap_cons_none hf, ih]
        | some v => rw [List.filterMap_cons_some (b := v) (by simp), List.filterMap_cons_some hf, ih]
      · rw [List.filter_cons_of_neg (by simpa using hu), List.filter_cons_of_neg (by simpa using hu), ih]
  have hsm : movingAverage (ser.map (fun o => (o.jd, o.value))) A.movingAvgOrig A.fillna A.minObsOrig =
      ser.map (fun o => boxcarSpec (ser.map (fun o => (o.jd, o.value))) A.movingAvgOrig noData A.fillna A.minObsOrig (o.jd, o.value)) := by
    unfold movingAverage
    rw [Filters.boxcar_filter_correct _ _ _ _ _ (by rw [List.pairwise_map]; exact hs), List.map_map]
    rfl
  unfold longTerm
  simp only [hsm]
  have hgd : ∀ (f : ℕ → List (Option K)), ((index n).map f).getD i [] = f (i + 1) := by
    intro f
    rw [List.getD_eq_getElem?_getD, List.getElem?_map, index_getElem? n i hi]
    rfl
  rw [hgd]
  unfold unitRow longTermSpec
  simp only [hvs ser hv]
  cases A.sd <;> rfl

/-- C23: a climatology has 366 or 12 rows. -/
theorem climatology_length_partial (A : Args K) (ser : List (Obs K)) (out : List (List (Option K))) (h : calcClimatology A ser = .ok out) :
    out.length = (match A.freq with | .day => 366 | _ => 12) ∧ ∀ r ∈ out, r.length = (match A.sd with | none => 1 | some _ => 2) := by
  have hbl : ∀ (w : K) (f : Bool) (mo : Int) (obs : List (K × Option K)) (b : List (K × Option K)),
      (Filters.boxcarLoop noData (w / 2) f mo b obs).length = obs.length := by
    intro w f mo obs
    induction obs with
    | nil => intro b; rfl
    | cons o obs ih => intro b; simp [Filters.boxcarLoop, ih]
  have h3 : ∀ (w : K) (f : Bool) (mo : Int) (idx : List ℕ) (r : List (List (Option K))),
      (smoothFirst w f mo idx r).length = min idx.length r.length := by
    intro w f mo idx r
    unfold smoothFirst movingAverage boxcarFilter
    simp [hbl]
  have h4 : ∀ (k : ℕ), 1 ≤ k → ∀ (w : K) (f : Bool) (mo : Int) (idx : List ℕ) (r : List (List (Option K))),
      (∀ x ∈ r, x.length = k) → ∀ x ∈ smoothFirst w f mo idx r, x.length = k := by
    intro k hk w f mo idx r hr x hx
    unfold smoothFirst at hx
    simp only at hx
    rw [← List.map_uncurry_zip_eq_zipWith] at hx
    obtain ⟨⟨v, y⟩, hvy, rfl⟩ := List.mem_map.mp hx
    have := hr y (List.of_mem_zip hvy).2
    simp only [Function.uncurry, List.length_cons, List.length_drop]
    omega
  set k := (match A.sd with | none => 1 | some _ => 2) with hk
  have hk1 : 1 ≤ k := by rw [hk]; cases A.sd <;> simp
  have hlt : ∀ respect n ser, ∀ x ∈ longTerm A respect n ser, x.length = k := by
    intro respect n ser x hx
    unfold longTerm at hx
    obtain ⟨u, _, rfl⟩ := List.mem_map.mp hx
    unfold unitRow
    rw [hk]
    cases A.sd <;> rfl
  have hsm : ∀ m n respect ser sm, smooth A m n (longTerm A respect n ser) = .ok sm → sm.length = n ∧ ∀ x ∈ sm, x.length = k := by
    intro m n respect ser sm h
    unfold smooth at h
    have hll : (longTerm A respect n ser).length = n := by simp [longTerm, index_length]
    split at h
    · simp only at h
      split at h
      · rename_i hl
        simp only [Except.ok.injEq] at h
        subst h
        refine ⟨hl, ?_⟩
        intro x hx
        have hsub : ∀ l : List (List (Option K)), x ∈ inner m l → x ∈ l := by
          intro l hx
          unfold inner at hx
          split at hx
          · simp at hx
          · exact List.mem_of_mem_drop (List.mem_of_mem_take hx)
        refine h4 k hk1 _ _ _ _ _ ?_ x (hsub _ hx)
        intro y hy
        rcases List.mem_append.mp hy with hy | hy
        · rcases List.mem_append.mp hy with hy | hy
          · refine hlt respect n ser y ?_
            unfold lastRows at hy
            split at hy
            · exact hy
            · exact List.mem_of_mem_drop hy
          · exact hlt respect n ser y hy
        · exact hlt respect n ser y (List.mem_of_mem_take hy)
      · simp at h
    · simp only [Except.ok.injEq] at h
      subst h
      refine ⟨by rw [h3, hll, index_length, min_self], h4 k hk1 _ _ _ _ _ (hlt respect n ser)⟩
  have hleap : ∀ a b (rows : List (List (Option K))), (∀ x ∈ rows, x.length = k) → (leapday a b rows).length = rows.length ∧
      ∀ x ∈ leapday a b rows, x.length = k := by
    intro a b rows hr
    have hi : ∀ t u v, 1 ≤ t → (interpolateRow t u v rows).length = rows.length ∧ ∀ x ∈ interpolateRow t u v rows, x.length = k := by
      intro t u v ht
      unfold interpolateRow
      refine ⟨by simp, ?_⟩
      intro x hx
      rcases Nat.lt_or_ge (t - 1) rows.length with hl | hl
      · rcases List.mem_or_eq_of_mem_set hx with hx | rfl
        · exact hr x hx
        · rw [List.length_map, List.getD_eq_getElem _ _ hl]
          exact hr _ (List.getElem_mem hl)
      · simp only [List.set_eq_of_length_le hl] at hx
        exact hr x hx
    unfold leapday
    split
    · exact hi 60 59 61 (by omega)
    · split
      · exact hi 366 365 1 (by omega)
      · exact ⟨rfl, hr⟩
  unfold calcClimatology at h
  simp only [bind, Except.bind] at h
  split at h
  · simp at h
  · split at h
    · simp at h
    · cases hf : A.freq with
      | other => rw [hf] at h; simp at h
      | day =>
        rw [hf] at h
        simp only at h
        split at h
        · simp at h
        · rename_i sm hsm'
          simp only [Except.ok.injEq] at h
          subst h
          obtain ⟨s1, s2⟩ := hsm _ _ _ _ _ hsm'
          obtain ⟨l1, l2⟩ := hleap (A.interpolateLeapday && true) (A.respectLeapYears && true) sm s2
          refine ⟨by rw [List.length_map, l1, s1]; rfl, ?_⟩
          intro r hr
          obtain ⟨x, hx, rfl⟩ := List.mem_map.mp hr
          rw [List.length_map]
          exact l2 x hx
      | month =>
        rw [hf] at h
        simp only at h
        split at h
        · simp at h
        · rename_i sm hsm'
          simp only [Except.ok.injEq] at h
          subst h
          obtain ⟨s1, s2⟩ := hsm _ _ _ _ _ hsm'
          obtain ⟨l1, l2⟩ := hleap (A.interpolateLeapday && false) (A.respectLeapYears && false) sm s2
          refine ⟨by rw [List.length_map, l1, s1]; rfl, ?_⟩
          intro r hr
          obtain ⟨x, hx, rfl⟩ := List.mem_map.mp hr
          rw [List.length_map]
          exact l2 x hx

example (out : List (List (Option ℚ))) (h : calcClimatology (⟨0, some 3, fun l => l.sum / l.length, none, none, none, true, false, false, true, 1, 1, .month⟩ : Args ℚ)
    [⟨0, 2020, 1, 1, some 2⟩] = .ok out) : out.length = 12 := (climatology_length_partial _ _ _ h).1

/-- the observations inside the time span -/
def inSpan (A : Args K) (ser : List (Obs K)) : List (Obs K) :=
  ser.filter (fun o =>
    match A.timespan with
    | none => true
    | some s => decide (s.1 ≤ o.jd) && decide (o.jd ≤ s.2))

/-- the climatology, given how the long term values are smoothed -/
theorem climatology_of_smooth (A : Args K) (ser : List (Obs K)) (m n : ℕ) (hcw : climWindow A = .ok m)
    (hf : A.freq = .day ∧ n = 366 ∨ A.freq = .month ∧ n = 12) (hsd : A.sd = none)
    (hs : ser.Pairwise (fun o p => o.jd ≤ p.jd)) (hv : ∀ o ∈ ser, ValidDate o) (hspan : ∀ s, A.timespan = some s → s.1 ≤ s.2)
    (M : (ℕ → Option K) → ℕ → Option K)
    (hM : ∀ rows, rows.length = n → smooth A m n rows = .ok ((List.range n).map (fun i =>
      M (fun j => (rows.getD j []).headD none) i :: (rows.getD i []).drop 1)))
    (hcongr : ∀ c c' : ℕ → Option K, (∀ j < n, c j = c' j) → ∀ i < n, M c i = M c' i) :
    calcClimatology A ser = .ok ((List.range n).map (fun i =>
      [(withLeapday (A.interpolateLeapday && decide (n = 366)) A.respectLeapYears
        (M (longTermSpec A A.respectLeapYears (inSpan A ser))) i).orElse (fun _ => A.fill)])) := by
  set ser' := inSpan A ser with hser
  have htr : truncate A.timespan ser = .ok ser' := by
    unfold truncate
    rw [hser]
    unfold inSpan
    cases ht : A.timespan with
    | none =>
      simp only [Except.ok.injEq]
      rw [List.filter_eq_self.mpr]
      intro _ _; rfl
    | some s =>
      obtain ⟨a, b⟩ := s
      have := hspan _ ht
      simp only at this ⊢
      rw [if_neg (not_lt.mpr this), if_pos]
      simp [hs]
  have hs' : ser'.Pairwise (fun o p => o.jd ≤ p.jd) := hs.sublist (by rw [hser]; exact List.filter_sublist)
  have hv' : ∀ o ∈ ser', ValidDate o := fun o ho => hv o (List.mem_of_mem_filter ho)
  have fin : ∀ respect, (∀ i < n, ((longTerm A respect n ser').getD i []).headD none = longTermSpec A A.respectLeapYears ser' i) →
      smooth A m n (longTerm A respect n ser') = .ok ((List.range n).map (fun i => [M (longTermSpec A A.respectLeapYears ser') i])) := by
    intro respect heq
    have hll : (longTerm A respect n ser').length = n := by simp [longTerm, index_length]
    rw [hM _ hll]
    congr 1
    apply List.map_congr_left
    intro i hi
    have hi' := List.mem_range.mp hi
    have hdrop : ((longTerm A respect n ser').getD i []).drop 1 = [] := by
      rw [List.drop_eq_nil_iff, List.getD_eq_getElem _ _ (by omega)]
      simp [longTerm, unitRow, hsd]
    rw [hdrop, hcongr _ _ heq i hi']
  unfold calcClimatology
  simp only [bind, Except.bind, hcw, htr]
  rcases hf with ⟨hf, rfl⟩ | ⟨hf, rfl⟩
  · rw [hf]
    simp only [nUnits, Bool.and_true]
    rw [fin A.respectLeapYears (fun i hi => longTerm_eq A A.respectLeapYears 366 ser' hs' hv' i hi)]
    simp only [leapday_singletons, List.map_map, decide_true, Bool.and_true]
    rfl
  · rw [hf]
    simp only [nUnits, Bool.and_false]
    rw [fin false (fun i hi => by
      rw [longTerm_eq A false 12 ser' hs' hv' i hi]
      unfold longTermSpec unitOf
      rw [hf])]
    simp only [leapday, Bool.false_and, if_false, Bool.false_eq_true, List.map_map]
    simp [withLeapday]

/-- **C23.** For a sorted series and a window `1 ≤ m ≤ n`, entry `i` of the wrapped climatology is the circular moving mean of the
long term values, with the leap day interpolated if this is asked for; NaN is replaced by the fill value. The time span only selects
observations. -/
theorem climatology_circular (A : Args K) (ser : List (Obs K)) (m n : ℕ) (hm : A.movingAvgClim = some m)
    (hf : A.freq = .day ∧ n = 366 ∨ A.freq = .month ∧ n = 12) (hsd : A.sd = none) (hw : A.wraparound = true) (h1 : 1 ≤ m) (h2 : m ≤ n)
    (hs : ser.Pairwise (fun o p => o.jd ≤ p.jd)) (hv : ∀ o ∈ ser, ValidDate o) (hspan : ∀ s, A.timespan = some s → s.1 ≤ s.2) :
    calcClimatology A ser = .ok ((List.range n).map (fun i =>
      [(withLeapday (A.interpolateLeapday && decide (n = 366)) A.respectLeapYears
        (circularMean noData (longTermSpec A A.respectLeapYears (inSpan A ser)) n m A.fillna A.minObsClim) i).orElse
          (fun _ => A.fill)])) := by
  refine climatology_of_smooth A ser m n (by unfold climWindow; rw [hm]) hf hsd hs hv hspan
    (fun c => circularMean noData c n m A.fillna A.minObsClim) (fun rows hl => smooth_wrap A m n rows hl h1 h2 hw) ?_
  intro c c' h i hi
  unfold circularMean
  simp only [h i hi]
  have : ∀ d, c ((i + n - m / 2 + d) % n) = c' ((i + n - m / 2 + d) % n) := fun d => h _ (Nat.mod_lt _ (by omega))
  simp only [this]

/-- **C23.** The same without wrapping around: the window is cut at both ends of the year. -/
theorem climatology_flat (A : Args K) (ser : List (Obs K)) (m n : ℕ) (hm : A.movingAvgClim = some m)
    (hf : A.freq = .day ∧ n = 366 ∨ A.freq = .month ∧ n = 12) (hsd : A.sd = none) (hw : A.wraparound = false)
    (hs : ser.Pairwise (fun o p => o.jd ≤ p.jd)) (hv : ∀ o ∈ ser, ValidDate o) (hspan : ∀ s, A.timespan = some s → s.1 ≤ s.2) :
    calcClimatology A ser = .ok ((List.range n).map (fun i =>
      [(withLeapday (A.interpolateLeapday && decide (n = 366)) A.respectLeapYears
        (flatMean noData (longTermSpec A A.respectLeapYears (inSpan A ser)) n m A.fillna A.minObsClim) i).orElse
          (fun _ => A.fill)])) := by
  refine climatology_of_smooth A ser m n (by unfold climWindow; rw [hm]) hf hsd hs hv hspan
    (fun c => flatMean noData c n m A.fillna A.minObsClim) (fun rows hl => smooth_flat A m n rows hl hw) ?_
  intro c c' h i hi
  unfold flatMean
  simp only [h i hi]
  have : ((List.range n).filter (fun j => decide (j ≤ i + m / 2 ∧ i ≤ j + m / 2))).filterMap (fun j => available noData (c j)) =
      ((List.range n).filter (fun j => decide (j ≤ i + m / 2 ∧ i ≤ j + m / 2))).filterMap (fun j => available noData (c' j)) := by
    apply List.filterMap_congr
    intro j hj
    rw [h j (List.mem_range.mp (List.mem_of_mem_filter hj))]
  simp only [this]

example := climatology_flat (⟨0, some 3, fun l => l.sum / l.length, none, some (0, 400), none, false, false, false, true, 1, 1, .month⟩ : Args ℚ)
  [⟨0, 2020, 1, 1, some 2⟩, ⟨335, 2020, 12, 1, none⟩, ⟨366, 2021, 1, 1, some 6⟩] 3 12 rfl (Or.inr ⟨rfl, rfl⟩) rfl rfl
  (by norm_num) (by simp [ValidDate]) (by rintro s ⟨⟩; norm_num)

/-- **C23.** The default window is 35 days or 3 months; other output frequencies are refused. -/
theorem climatology_default_window (A : Args K) (ser : List (Obs K)) (h : A.movingAvgClim = none) :
    (A.freq = .day → calcClimatology A ser = calcClimatology { A with movingAvgClim := some 35 } ser) ∧
    (A.freq = .month → calcClimatology A ser = calcClimatology { A with movingAvgClim := some 3 } ser) ∧
    (A.freq = .other → calcClimatology A ser = .error .keyError) := by
  refine ⟨?_, ?_, ?_⟩ <;> intro hf <;>
    simp [calcClimatology, climWindow, h, hf, bind, Except.bind, smooth, longTerm]

example := (climatology_default_window (⟨0, none, fun l => l.sum / l.length, none, none, none, true, false, false, true, 1, 1, .day⟩ : Args ℚ)
  [⟨0, 2020, 1, 1, some 2⟩] rfl).1 rfl

/-- The positions that take part in the circular mean: as long as the window does not overlap itself, they are the positions within
half a window, each once. -/
theorem circular_positions (n m i j : ℕ) (hi : i < n) (hj : j < n) (hm : 2 * (m / 2) + 1 ≤ n) :
    ((∃ d, d < 2 * (m / 2) + 1 ∧ (i + n - m / 2 + d) % n = j) ↔ circDist n i j ≤ m / 2) ∧
    ∀ d e, d < 2 * (m / 2) + 1 → e < 2 * (m / 2) + 1 → (i + n - m / 2 + d) % n = (i + n - m / 2 + e) % n → d = e := by
  have hmod : ∀ d, d < 2 * (m / 2) + 1 → (i + n - m / 2 + d) % n =
      if i + d < m / 2 then i + n - m / 2 + d else if i + d - m / 2 < n then i + d - m / 2 else i + d - m / 2 - n := by
    intro d hd
    split
    · exact Nat.mod_eq_of_lt (by omega)
    · split
      · have : i + n - m / 2 + d = (i + d - m / 2) + n := by omega
        rw [this, Nat.add_mod_right, Nat.mod_eq_of_lt (by omega)]
      · have : i + n - m / 2 + d = (i + d - m / 2 - n) + n + n := by omega
        rw [this, Nat.add_mod_right, Nat.add_mod_right, Nat.mod_eq_of_lt (by omega)]
  have hd1 : (i + n - j) % n = if j ≤ i then i - j else i + n - j := by
    split
    · have : i + n - j = (i - j) + n := by omega
      rw [this, Nat.add_mod_right, Nat.mod_eq_of_lt (by omega)]
    · exact Nat.mod_eq_of_lt (by omega)
  have hd2 : (j + n - i) % n = if i ≤ j then j - i else j + n - i := by
    split
    · have : j + n - i = (j - i) + n := by omega
      rw [this, Nat.add_mod_right, Nat.mod_eq_of_lt (by omega)]
    · exact Nat.mod_eq_of_lt (by omega)
  constructor
  · unfold circDist
    rw [hd1, hd2]
    constructor
    · rintro ⟨d, hd, he⟩
      rw [hmod d hd] at he
      split at he
      · split <;> split <;> omega
      · split at he <;> split <;> split <;> omega
    · intro h
      -- the offset is j - i shifted by half a window, on the circle
      rcases Nat.lt_or_ge j i with hji | hji
      · rw [if_pos hji.le, if_neg (by omega)] at h
        rcases Nat.le_total (i - j) (j + n - i) with hc | hc
        · rw [Nat.min_eq_left hc] at h
          refine ⟨m / 2 - (i - j), by omega, ?_⟩
          rw [hmod _ (by omega), if_neg (by omega), if_pos (by omega)]
          omega
        · rw [Nat.min_eq_right hc] at h
          refine ⟨m / 2 + (j + n - i), by omega, ?_⟩
          rw [hmod _ (by omega), if_neg (by omega), if_neg (by omega)]
          omega
      · rcases Nat.eq_or_lt_of_le hji with rfl | hlt
        · refine ⟨m / 2, by omega, ?_⟩
          rw [hmod _ (by omega), if_neg (by omega), if_pos (by omega)]
          omega
        · rw [if_neg (by omega), if_pos hji] at h
          rcases Nat.le_total (i + n - j) (j - i) with hc | hc
          · rw [Nat.min_eq_left hc] at h
            refine ⟨m / 2 - (i + n - j), by omega, ?_⟩
            rw [hmod _ (by omega), if_pos (by omega)]
            omega
          · rw [Nat.min_eq_right hc] at h
            refine ⟨m / 2 + (j - i), by omega, ?_⟩
            rw [hmod _ (by omega), if_neg (by omega), if_pos (by omega)]
            omega
  · intro d e hd he h
    rw [hmod d hd, hmod e he] at h
    split at h
    · split at h
      · omega
      · split at h <;> omega
    · split at h
      · split at h
        · omega
        · split at h <;> omega
      · split at h
        · omega
        · split at h <;> omega

/-- a window of 5 days around 1 January contains 31 December -/
example : ∃ d, d < 5 ∧ (0 + 366 - 5 / 2 + d) % 366 = 365 := (circular_positions 366 5 0 365 (by decide) (by decide) (by decide)).1.mpr (by decide)

/-- C23, limits of the window: with wrapping around, a window of 0 or of more than `n` units raises ValueError. -/
theorem climatology_window_raises (A : Args K) (ser : List (Obs K)) (m : ℕ) (hm : A.movingAvgClim = some m)
    (hf : A.freq = .day ∧ (m = 0 ∨ 366 < m) ∨ A.freq = .month ∧ (m = 0 ∨ 12 < m)) (hw : A.wraparound = true)
    (hspan : A.timespan = none) : calcClimatology A ser = .error .valueError := by
  have hcw : climWindow A = .ok m := by unfold climWindow; rw [hm]
  have htr : truncate A.timespan ser = .ok ser := by rw [hspan]; rfl
  unfold calcClimatology
  simp only [bind, Except.bind, hcw, htr]
  rcases hf with ⟨hf, hm⟩ | ⟨hf, hm⟩
  · rw [hf]
    simp only [nUnits]
    rw [smooth_wrap_error A m 366 _ (by simp [longTerm, index_length]) (by omega) hm hw]
  · rw [hf]
    simp only [nUnits]
    rw [smooth_wrap_error A m 12 _ (by simp [longTerm, index_length]) (by omega) hm hw]

example : calcClimatology (⟨0, some 13, fun l => l.sum / l.length, none, none, none, true, false, false, true, 1, 1, .month⟩ : Args ℚ)
    [⟨0, 2020, 1, 1, some 2⟩] = .error .valueError := climatology_window_raises _ _ 13 rfl (Or.inr ⟨rfl, Or.inr (by decide)⟩) rfl rfl

/-- C23 fails for leap day interpolation together with the standard deviation column: `np.mean` of the two rows averages over both
columns, so climatology and standard deviation of the leap day are always equal. -/
theorem leapday_std_mixed (rows : List (List (Option K))) (a s b t : K) (c u : Option K) (h58 : rows[58]? = some [some a, some s])
    (h59 : rows[59]? = some [c, u]) (h60 : rows[60]? = some [some b, some t]) :
    (leapday true false rows)[59]? = some [some ((a + s + b + t) / 4), some ((a + s + b + t) / 4)] := by
  have hl : 59 < rows.length := (List.getElem?_eq_some_iff.mp h59).1
  have e : leapday true false rows = rows.set 59 [some ((a + s + b + t) / 4), some ((a + s + b + t) / 4)] := by
    unfold leapday interpolateRow
    simp only [Bool.not_false, Bool.and_self, if_true, Nat.reduceSub, List.getD_eq_getElem?_getD, h58, h59, h60]
    have : meanOfRows ((some [some a, some s]).getD []) ((some [some b, some t]).getD []) = some ((a + s + b + t) / 4) := by
      unfold meanOfRows
      simp
      ring_nf
    rw [this]
    rfl
  rw [e, List.getElem?_set_self hl]

example : (leapday true false ((List.replicate 58 [none, none]) ++ [[some (10 : ℚ), some 1], [none, none], [some 12, some 3]]))[59]? =
    some [some (26 / 4), some (26 / 4)] := by
  rw [leapday_std_mixed _ 10 1 12 3 none none rfl rfl rfl]
  norm_num

/-! ### C24 -/

/-- C24: anomalies from a climatology: one value per observation, the observation minus the entry of its day of the year (counted
with the leap years of the calendar, or as in a leap year); NaN if either is missing. -/
theorem anomaly_climatology_partial (respect : Bool) (clim : List (ℕ × Option K)) (ser : List (Obs K)) (hv : ∀ o ∈ ser, ValidDate o) :
    anomalyFromClimatology respect clim ser = ser.map (fun o =>
      match o.value, clim.lookup (dayOfYear (if respect then isLeap o.year else true) o.month o.day) with
      | some v, some (some c) => some (v - c)
      | _, _ => none) := by
  unfold anomalyFromClimatology
  apply List.map_congr_left
  intro o ho
  have h := indexUnit_eq .day respect o (hv o ho)
  simp only [indexUnit, unitOf] at h
  simp only [h]
  cases o.value with
  | none => simp [sub?]
  | some v =>
    cases clim.lookup (dayOfYear (if respect then isLeap o.year else true) o.month o.day) with
    | none => rfl
    | some c => cases c <;> rfl

example := anomaly_climatology_partial false [(1, some 3), (61, some (1 : ℚ))] [⟨0, 2021, 1, 1, some 2⟩, ⟨59, 2021, 3, 1, some 6⟩, ⟨60, 2021, 3, 2, none⟩]
  (by simp [ValidDate])

/-- C24: anomalies from the moving average of a sorted series: the observation minus the mean of the valid observations within half
a window. -/
theorem anomaly_average (window : K) (ser : List (Obs K)) (hs : ser.Pairwise (fun o p => o.jd ≤ p.jd)) :
    anomalyFromAverage window ser = ser.map (fun o =>
      sub? o.value (boxcarSpec (ser.map (fun o => (o.jd, o.value))) window noData false 1 (o.jd, o.value))) := by
  unfold anomalyFromAverage movingAverage
  rw [Filters.boxcar_filter_correct _ _ _ _ _ (by rw [List.pairwise_map]; exact hs), List.map_map, List.zipWith_map, List.zipWith_self]
  rfl

example := anomaly_average (5 : ℚ) [⟨0, 2021, 1, 1, some 2⟩, ⟨1, 2021, 1, 2, none⟩, ⟨1, 2021, 1, 2, some 6⟩] (by norm_num)

/-- C24 fails for the default arguments: `calc_climatology` counts days as in a leap year, `calc_anomaly` respects leap years. From
March on, an observation of an ordinary year is compared with the climatology of the day before. -/
theorem anomaly_defaults_shifted (clim : List (ℕ × Option K)) (o : Obs K) (hv : ValidDate o) (hm : 2 < o.month) (hl : isLeap o.year = false) :
    anomalyFromClimatology true clim [o] = [sub? o.value ((clim.lookup (dayOfYear true o.month o.day - 1)).getD none)] := by
  unfold anomalyFromClimatology
  have h := (doy_correct o.month o.day hv.1 hv.2.1 o.year).1
  have h3 : doy o.month o.day (some o.year) = dayOfYear true o.month o.day - 1 := by
    rw [← h]
    unfold doy
    simp only
    rw [if_pos ⟨hm, hl⟩]
  simp only [List.map_cons, List.map_nil, if_true, h3]

example := anomaly_defaults_shifted [(60, some 100), (61, some 1)] (⟨0, 2021, 3, 1, some 1⟩ : Obs ℚ) (by simp [ValidDate])
  (by decide) (by decide)

/-- 1 March 2021 is compared with the entry of 29 February -/
example : anomalyFromClimatology true [(60, some 100), (61, some 1)] [(⟨0, 2021, 3, 1, some 1⟩ : Obs ℚ)] = [some (-99)] := by
  decide +kernel

example : ValidDate (⟨0, 2021, 3, 1, some 1⟩ : Obs ℚ) ∧ isLeap 2021 = false := by simp [ValidDate, isLeap]

/-- a monthly climatology of three observations: December and January are neighbours -/
example : (calcClimatology (⟨0, some 3, fun l => l.sum / l.length, none, none, none, true, false, false, true, 1, 1, .month⟩ : Args ℚ)
    [⟨0, 2020, 1, 1, some 2⟩, ⟨335, 2020, 12, 1, some 4⟩, ⟨366, 2021, 1, 1, some 6⟩]).toOption =
    some [[some 4], [some 4], [none], [none], [none], [none], [none], [none], [none], [none], [some 4], [some 4]] := by decide +kernel

end Verif.Climatology
