import Mathlib.Tactic.IntervalCases
import Mathlib.Tactic.Linarith
import Verif.Grouping.Spec

/-! Lemmas for grouping. -/

namespace Verif.Grouping

open Climatology (isLeap monthLength)

theorem monthLength_le (b : Bool) (m : ℕ) : monthLength b m ≤ 31 := by
  unfold monthLength; split_ifs <;> omega

theorem monthLength_mono (b : Bool) (m : ℕ) : monthLength b m ≤ monthLength true m := by
  unfold monthLength; cases b <;> simp <;> split_ifs <;> omega

theorem validStamp.pos {t : Stamp} (h : validStamp t) : validPos t.pos :=
  ⟨h.1, h.2.1, h.2.2.1, le_trans h.2.2.2.1 (monthLength_mono _ _), h.2.2.2.2⟩

theorem key_le_iff {a b : Pos} (ha : validPos a) (hb : validPos b) : a.key ≤ b.key ↔ posLe a b := by
  obtain ⟨-, -, -, ha1, ha2⟩ := ha
  obtain ⟨-, -, -, hb1, hb2⟩ := hb
  have ha3 := le_trans ha1 (monthLength_le _ _)
  have hb3 := le_trans hb1 (monthLength_le _ _)
  unfold posLe Pos.key dayNs
  omega

theorem key_lt_iff {a b : Pos} (ha : validPos a) (hb : validPos b) : a.key < b.key ↔ ¬ posLe b a := by
  rw [← key_le_iff hb ha]; omega

theorem le_iff {a b : Stamp} (ha : validPos a.pos) (hb : validPos b.pos) : a.le b = true ↔ stampLe a b := by
  unfold Stamp.le stampLe
  simp [key_le_iff ha hb]

theorem isLeapDay_iff (p : Pos) : isLeapDay p = true ↔ leapDay p := by
  simp [isLeapDay, leapDay]

theorem isLeapDay_false (p : Pos) : isLeapDay p = false ↔ ¬ leapDay p := by
  rw [← isLeapDay_iff]; simp

theorem mem_uniqueYears (idx : List Stamp) (y : ℕ) : y ∈ uniqueYears idx ↔ ∃ t ∈ idx, t.year = y := by
  simp [uniqueYears, List.mem_insertionSort]

theorem uniqueYears_nodup (idx : List Stamp) : (uniqueYears idx).Nodup :=
  (List.perm_insertionSort _ _).nodup_iff.mpr (List.nodup_dedup _)

/-! ### Columns -/

theorem assign_new {β : Type} (d : List (ℕ × β)) (k : ℕ) (v : β) (h : k ∉ d.map Prod.fst) : assign d k v = d ++ [(k, v)] := by
  unfold assign
  rw [if_neg]
  intro hc
  obtain ⟨e, he, hk⟩ := List.any_eq_true.mp hc
  exact h (List.mem_map.mpr ⟨e, he, by simpa using hk⟩)

theorem columns_aux (g : Pos × Pos) (years : List ℕ) (d : List (ℕ × Stamp × Stamp))
    (h : (d.map Prod.fst ++ years.map (fun y => (rangeColumn g y).1)).Nodup) :
    years.foldl (fun d y => assign d (rangeColumn g y).1 (rangeColumn g y).2) d = d ++ years.map (rangeColumn g) := by
  induction years generalizing d with
  | nil => simp
  | cons y ys ih =>
    rw [List.foldl_cons, assign_new, ih]
    · simp
    · simpa using h
    · intro hc
      rw [List.nodup_append] at h
      exact h.2.2 _ hc _ (List.mem_map.mpr ⟨y, by simp, rfl⟩) rfl

theorem columns_eq (g : Pos × Pos) (years : List ℕ) (hn : years.Nodup)
    (hinj : ∀ a b, (rangeColumn g a).1 = (rangeColumn g b).1 → a = b) :
    rangeColumns g years = years.map (rangeColumn g) := by
  have := columns_aux g years [] (by
    simpa using (List.nodup_map_iff_inj_on hn).mpr (fun a _ b _ h => hinj a b h))
  simpa [rangeColumns] using this

/-- the wrap decision does not depend on the year -/
theorem rangeColumn_year {g : Pos × Pos} (h1 : validPos g.1) (h2 : validPos g.2)
    (hl : ¬ (leapDay g.1 ∧ leapDay g.2 ∧ posLe g.1 g.2)) (y : ℕ) :
    (rangeColumn g y).1 = if g.2.key < g.1.key then y + 1 else y := by
  unfold rangeColumn
  simp only
  by_cases hc : (!isLeap y && isLeapDay g.1) = true
  · rw [if_pos hc]
    have hd : leapDay g.1 := (isLeapDay_iff _).mp (by simp_all)
    suffices hs : g.2.key < (⟨3, 1, 0⟩ : Pos).key ↔ g.2.key < g.1.key by simp only [hs]
    rw [← key_le_iff h1 h2] at hl
    clear hc
    obtain ⟨g1, g2⟩ := g
    obtain ⟨m1, d1, n1⟩ := g1
    obtain ⟨m2, d2, n2⟩ := g2
    obtain ⟨-, -, -, ha1, ha2⟩ := h1
    obtain ⟨-, hb0, hb5, hb1, hb2⟩ := h2
    have hb3 := le_trans hb1 (monthLength_le _ _)
    simp only [leapDay, Pos.key, dayNs] at *
    have hb4 : m2 = 2 → d2 ≤ 29 := by
      intro h; subst h; simpa [monthLength] using hb1
    omega
  · rw [if_neg hc]

/-- the start used in year `y` -/
def startOf (y : ℕ) (s : Pos) : Pos := if (!isLeap y && isLeapDay s) = true then ⟨3, 1, 0⟩ else s

/-- the end used in year `y` -/
def endOf (y : ℕ) (e : Pos) : Pos := if (!isLeap y && isLeapDay e) = true then ⟨2, 28, 86399000000000⟩ else e

/-- In its own year a time stamp is after the (replaced) start exactly if it is after the start. -/
theorem start_le_iff {s : Pos} (hs : validPos s) {t : Stamp} (ht : validStamp t) :
    (startOf t.year s).key ≤ t.pos.key ↔ s.key ≤ t.pos.key := by
  unfold startOf
  by_cases hc : (!isLeap t.year && isLeapDay s) = true
  · rw [if_pos hc]
    have hd : leapDay s := (isLeapDay_iff _).mp (by simp_all)
    have hy : isLeap t.year = false := by simp_all
    clear hc
    obtain ⟨-, -, -, -, hs5⟩ := hs
    obtain ⟨ht1, ht2, ht3, ht4, ht5⟩ := ht
    rw [hy] at ht4
    have h28 : t.pos.month = 2 → t.pos.day ≤ 28 := by
      intro h; rw [h] at ht4; simpa [monthLength] using ht4
    have h31 := le_trans ht4 (monthLength_le _ _)
    unfold leapDay at hd
    unfold Pos.key dayNs
    simp only
    omega
  · rw [if_neg hc]

/-- In its own year a time stamp (to the second, if the end is 29 February) is before the (replaced) end exactly if it is before the
end. -/
theorem le_end_iff {e : Pos} (he : validPos e) {t : Stamp} (ht : validStamp t)
    (hsec : leapDay e → t.pos.ns % 1000000000 = 0) :
    t.pos.key ≤ (endOf t.year e).key ↔ t.pos.key ≤ e.key := by
  unfold endOf
  by_cases hc : (!isLeap t.year && isLeapDay e) = true
  · rw [if_pos hc]
    have hd : leapDay e := (isLeapDay_iff _).mp (by simp_all)
    have hy : isLeap t.year = false := by simp_all
    clear hc
    have hs := hsec hd
    obtain ⟨-, -, -, -, hs5⟩ := he
    obtain ⟨ht1, ht2, ht3, ht4, ht5⟩ := ht
    rw [hy] at ht4
    have h28 : t.pos.month = 2 → t.pos.day ≤ 28 := by
      intro h; rw [h] at ht4; simpa [monthLength] using ht4
    have h31 := le_trans ht4 (monthLength_le _ _)
    unfold leapDay at hd
    unfold Pos.key dayNs
    simp only
    omega
  · rw [if_neg hc]

attribute [local irreducible] Pos.key in
/-- one yearless range -/
theorem range_selected {g : Pos × Pos} (h1 : validPos g.1) (h2 : validPos g.2)
    (hl : ¬ (leapDay g.1 ∧ leapDay g.2 ∧ posLe g.1 g.2)) {idx : List Stamp} (hv : ∀ t ∈ idx, validStamp t) {t : Stamp}
    (ht : t ∈ idx) (hsec : leapDay g.2 → t.pos.ns % 1000000000 = 0) :
    ((rangeColumns g (uniqueYears idx)).any (fun c => c.2.1.le t && t.le c.2.2)) = true ↔
      inYearlessRange g t.pos ∧ (posLe g.1 g.2 ∨ posLe g.1 t.pos ∨ ∃ u ∈ idx, u.year + 1 = t.year) := by
  have hyear := rangeColumn_year h1 h2 hl
  rw [columns_eq g _ (uniqueYears_nodup idx) (by
    intro a b h
    rw [hyear, hyear] at h
    split_ifs at h <;> omega)]
  have hmem : (List.map (rangeColumn g) (uniqueYears idx)).any (fun c => c.2.1.le t && t.le c.2.2) = true ↔
      ∃ y, (∃ u ∈ idx, u.year = y) ∧ (rangeColumn g y).2.1.le t = true ∧ t.le (rangeColumn g y).2.2 = true := by
    simp only [List.any_map, List.any_eq_true, mem_uniqueYears, Function.comp, Bool.and_eq_true]
  rw [hmem]
  have htv := hv t ht
  have hs := start_le_iff h1 htv
  have he := le_end_iff h2 htv hsec
  have hcol : ∀ y, rangeColumn g y = (if g.2.key < g.1.key then y + 1 else y,
      ⟨y, startOf y g.1⟩, ⟨if g.2.key < g.1.key then y + 1 else y, endOf (if g.2.key < g.1.key then y + 1 else y) g.2⟩) := by
    intro y
    have h := hyear y
    unfold startOf endOf
    unfold rangeColumn at h ⊢
    simp only at h ⊢
    rw [h]
  unfold inYearlessRange
  rw [← key_le_iff h1 h2, ← key_le_iff h1 htv.pos, ← key_le_iff htv.pos h2]
  constructor
  · rintro ⟨y, ⟨u, hu, huy⟩, ha, hb⟩
    rw [hcol] at ha hb
    unfold Stamp.le at ha hb
    simp only [Bool.or_eq_true, Bool.and_eq_true, decide_eq_true_eq] at ha hb
    by_cases hw : g.2.key < g.1.key
    · simp only [hw, if_true] at ha hb
      rcases Nat.lt_trichotomy t.year y with h | h | h
      · omega
      · subst h
        rcases ha with ha | ⟨-, ha⟩
        · omega
        · rw [hs] at ha
          exact ⟨.inr ⟨by omega, .inl ha⟩, .inr (.inl ha)⟩
      · have : y + 1 = t.year := by omega
        rw [this] at hb
        rcases hb with hb | ⟨-, hb⟩
        · omega
        · rw [he] at hb
          exact ⟨.inr ⟨by omega, .inr hb⟩, .inr (.inr ⟨u, hu, by omega⟩)⟩
    · simp only [hw, if_false] at ha hb
      have : y = t.year := by omega
      subst this
      rcases ha with ha | ⟨-, ha⟩
      · omega
      rcases hb with hb | ⟨-, hb⟩
      · omega
      rw [hs] at ha
      rw [he] at hb
      exact ⟨.inl ⟨by omega, ha, hb⟩, .inl (by omega)⟩
  · rintro ⟨hr, hw⟩
    by_cases hwr : g.2.key < g.1.key
    · by_cases hst : g.1.key ≤ t.pos.key
      · refine ⟨t.year, ⟨t, ht, rfl⟩, ?_, ?_⟩
        · rw [hcol]
          unfold Stamp.le
          simp only [Bool.or_eq_true, Bool.and_eq_true, decide_eq_true_eq]
          exact .inr ⟨trivial, hs.mpr hst⟩
        · rw [hcol]
          unfold Stamp.le
          simp only [Bool.or_eq_true, Bool.and_eq_true, decide_eq_true_eq, hwr, if_true]
          exact .inl (Nat.lt_succ_self _)
      · obtain ⟨u, hu, huy⟩ : ∃ u ∈ idx, u.year + 1 = t.year := by
          rcases hw with h | h | h
          · omega
          · exact absurd h hst
          · exact h
        have hle : t.pos.key ≤ g.2.key := by clear hw hu huy; omega
        refine ⟨u.year, ⟨u, hu, rfl⟩, ?_, ?_⟩
        · rw [hcol]
          unfold Stamp.le
          simp only [Bool.or_eq_true, decide_eq_true_eq]
          left; omega
        · rw [hcol]
          unfold Stamp.le
          simp only [Bool.or_eq_true, Bool.and_eq_true, decide_eq_true_eq, hwr, if_true, huy]
          exact .inr ⟨trivial, he.mpr hle⟩
    · have hle : g.1.key ≤ t.pos.key ∧ t.pos.key ≤ g.2.key := by clear hw; omega
      refine ⟨t.year, ⟨t, ht, rfl⟩, ?_, ?_⟩
      · rw [hcol]
        unfold Stamp.le
        simp only [Bool.or_eq_true, Bool.and_eq_true, decide_eq_true_eq]
        exact .inr ⟨trivial, hs.mpr hle.1⟩
      · rw [hcol]
        unfold Stamp.le
        simp only [Bool.or_eq_true, Bool.and_eq_true, decide_eq_true_eq, hwr, if_false]
        exact .inr ⟨trivial, he.mpr hle.2⟩

/-! ### Day bins -/

theorem monthLen_eq (y m : ℕ) : monthLen y m = monthLength (isLeap y) m := by
  unfold monthLen monthLength; rfl

/-- Under increasing bins, the first `digitize` bins are `≤ day`, the others are larger. -/
theorem digitize_spec (bins : List ℤ) (hb : bins.Pairwise (· < ·)) (d : ℕ) (i : ℕ) (hi : i < bins.length) :
    bins[i] ≤ (d : ℤ) ↔ i < digitize bins d := by
  unfold digitize
  induction bins generalizing i with
  | nil => simp at hi
  | cons b bs ih =>
    rw [List.pairwise_cons] at hb
    rw [List.countP_cons]
    by_cases hbd : b ≤ (d : ℤ)
    · rw [if_pos (by simpa using hbd)]
      cases i with
      | zero => simp [hbd]
      | succ j =>
        simp only [List.getElem_cons_succ]
        rw [ih hb.2 j (by simpa using hi)]
        omega
    · rw [if_neg (by simpa using hbd)]
      have h0 : bs.countP (fun b => decide (b ≤ (d : ℤ))) = 0 := by
        rw [List.countP_eq_zero]
        intro c hc
        have := hb.1 c hc
        simp; omega
      rw [h0]
      cases i with
      | zero => simpa using hbd
      | succ j =>
        have hj : j < bs.length := by simpa using hi
        have := hb.1 bs[j] (List.getElem_mem _)
        simp only [List.getElem_cons_succ]
        omega

theorem digitize_le (bins : List ℤ) (d : ℕ) : digitize bins d ≤ bins.length := List.countP_le_length

theorem binAt_ok (bins : List ℤ) (i : ℕ) (hi : i < bins.length) : binAt bins i = .ok bins[i] := by
  unfold binAt
  have : ¬ ((i : ℤ) < 0) := by omega
  simp [this, hi]

theorem validPos_month {m : ℕ} (h1 : 1 ≤ m) (h2 : m ≤ 12) : validPos ⟨m, 1, 0⟩ ∧ validPos ⟨m, daysInMonth m, 86399000000000⟩ := by
  have h : ∀ m, 1 ≤ m → m ≤ 12 → 1 ≤ daysInMonth m ∧ daysInMonth m ≤ monthLength true m ∧ 1 ≤ monthLength true m := by
    intro m h1 h2; interval_cases m <;> decide
  obtain ⟨ha, hb, hc⟩ := h m h1 h2
  exact ⟨⟨h1, h2, le_refl _, hc, by norm_num⟩, ⟨h1, h2, ha, hb, by norm_num⟩⟩

theorem daysInMonth_eq {m : ℕ} : daysInMonth m = monthLength true m := by
  unfold daysInMonth
  rw [monthLen_eq]
  have : isLeap 2400 = true := by decide
  rw [this]

/-! ### Dictionaries -/

/-- lookup in a dictionary -/
def lookup {α β : Type} [DecidableEq α] (d : List (α × β)) (k : α) : Option β := (d.find? (fun e => decide (e.1 = k))).map Prod.snd

theorem lookup_put {α β : Type} [DecidableEq α] (d : List (α × β)) (k : α) (v : β) (k' : α) :
    lookup (put d k v) k' = if k' = k then some v else lookup d k' := by
  unfold put
  split_ifs with h1 h2 h2
  · subst h2
    unfold lookup
    induction d with
    | nil => simp at h1
    | cons e d ih =>
      by_cases he : e.1 = k'
      · simp [he]
      · have : (d.any fun e => decide (e.1 = k')) = true := by simpa [he] using h1
        rw [List.map_cons, if_neg he, List.find?_cons_of_neg (by simpa using he)]
        exact ih this
  · unfold lookup
    clear h1
    induction d with
    | nil => simp
    | cons e d ih =>
      by_cases he : e.1 = k
      · have h3 : ¬ k = k' := fun h => h2 h.symm
        rw [List.map_cons, if_pos he, List.find?_cons_of_neg (by simpa using h3),
          List.find?_cons_of_neg (by simpa [he] using h3), ih]
      · rw [List.map_cons, if_neg he]
        by_cases he' : e.1 = k'
        · simp [he']
        · rw [List.find?_cons_of_neg (by simpa using he'), List.find?_cons_of_neg (by simpa using he'), ih]
  · subst h2
    unfold lookup
    rw [List.find?_append]
    have : d.find? (fun e => decide (e.1 = k')) = none := by
      rw [List.find?_eq_none]
      intro e he hc
      exact h1 (List.any_eq_true.mpr ⟨e, he, hc⟩)
    simp [this]
  · unfold lookup
    rw [List.find?_append]
    have h3 : ¬ k = k' := fun h => h2 h.symm
    simp [h3]

/-- the dictionary after the assignments `l`, in order -/
def putAll {α β : Type} [DecidableEq α] (d : List (α × β)) (l : List (α × β)) : List (α × β) :=
  l.foldl (fun d e => put d e.1 e.2) d

theorem lookup_putAll_notMem {α β : Type} [DecidableEq α] (l d : List (α × β)) (k : α) (h : ∀ e ∈ l, e.1 ≠ k) :
    lookup (putAll d l) k = lookup d k := by
  induction l generalizing d with
  | nil => rfl
  | cons e l ih =>
    unfold putAll at ih ⊢
    rw [List.foldl_cons, ih _ (fun e he => h e (by simp [he])), lookup_put, if_neg (fun hc => h e (by simp) hc.symm)]

theorem lookup_putAll {α β : Type} [DecidableEq α] (l d : List (α × β)) (k : α) (v : β) (hm : (k, v) ∈ l)
    (h : ∀ e ∈ l, e.1 = k → e.2 = v) : lookup (putAll d l) k = some v := by
  induction l generalizing d with
  | nil => simp at hm
  | cons e l ih =>
    by_cases hl : ∃ e ∈ l, e.1 = k
    · obtain ⟨e', he', hk⟩ := hl
      have hv := h e' (by simp [he']) hk
      refine ih (put d e.1 e.2) ?_ (fun e he => h e (by simp [he]))
      rw [← hk, ← hv]; exact he'
    · have := lookup_putAll_notMem l (put d e.1 e.2) k (fun e he hk => hl ⟨e, he, hk⟩)
      unfold putAll at this ⊢
      rw [List.foldl_cons, this, lookup_put]
      rcases List.mem_cons.mp hm with h' | h'
      · rw [← h']; simp
      · exact absurd ⟨_, h', rfl⟩ hl

theorem lookup_putAll_last {α β : Type} [DecidableEq α] (a l d : List (α × β)) (k : α) (v : β) (hm : (k, v) ∈ l)
    (h : ∀ e ∈ l, e.1 = k → e.2 = v) : lookup (putAll d (a ++ l)) k = some v := by
  unfold putAll
  rw [List.foldl_append]
  exact lookup_putAll l _ k v hm h

/-- the assignments made by `calc_metrics` -/
theorem subsetMetrics_eq {R V : Type} (mode : Mode) (nonSeas : List String) (template : List (String × V))
    (subsets : List (String × Distributor)) (metrics : List (Stamp × R) → List (String × V)) (data : List (Stamp × R)) :
    subsetMetrics mode nonSeas template subsets metrics data =
      putAll (subsetTemplate mode nonSeas (subsets.map Prod.fst) template)
        (subsets.flatMap (fun s => (metrics (select s.2 data)).map (fun m => (genname mode nonSeas s.1 m.1, m.2)))) := by
  unfold subsetMetrics
  generalize subsetTemplate mode nonSeas (subsets.map Prod.fst) template = d
  have hsel : ∀ s : String × Distributor, (if data.isEmpty then data else select s.2 data) = select s.2 data := by
    intro s
    cases data with
    | nil => rfl
    | cons => rfl
  simp only [hsel]
  induction subsets generalizing d with
  | nil => rfl
  | cons s ss ih =>
    rw [List.foldl_cons, ih, List.flatMap_cons]
    unfold putAll
    rw [List.foldl_append, List.foldl_map]

end Verif.Grouping
