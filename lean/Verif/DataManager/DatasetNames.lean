import Verif.DataManager.Props

/-! C59: `get_dataset_names`. -/

set_option linter.unusedSectionVars false

namespace Verif.DataManager

variable {α : Type} [LinearOrder α]

/-- src/pytesmo/validation_framework/metric_calculators.py:1379-1412 `get_dataset_names(ref_key, datasets, n)`; a data set is given by its columns -/
def getDatasetNames (ds : List (α × List α)) (ref : α) (n : ℕ) : Except Err (List α) :=
  match getResultNames ds ref n with
  | .error e => .error e
  | .ok [] => .error .indexError
  | .ok (key :: _) => .ok (key.map (fun p => (ofLex p).1))

theorem sorted_names (L : List (Col α)) (hs : L.Pairwise (· ≤ ·)) (hn : (L.map (fun p => (ofLex p).1)).Nodup) :
    (L.map (fun p => (ofLex p).1)).Pairwise (· < ·) := by
  rw [List.pairwise_map]
  rw [List.nodup_iff_pairwise_ne, List.pairwise_map] at hn
  refine (hs.and hn).imp ?_
  rintro a b ⟨h1, h2⟩
  rcases Prod.Lex.le_iff.mp h1 with h | ⟨h, _⟩
  · exact h
  · exact absurd h h2

/-- **C59, in general.** The names are those of the data sets of a result, in alphabetical order; the reference is among them. -/
theorem dataset_names_sorted_partial (ds : List (α × List α)) (hn : (ds.map Prod.fst).Nodup) (hc : ∀ e ∈ ds, e.2.Nodup) (ref : α)
    (href : ref ∈ ds.map Prod.fst) (n : ℕ) (h1 : 1 ≤ n) (L : List α) (h : getDatasetNames ds ref n = .ok L) :
    L.Pairwise (· < ·) ∧ L.length = n ∧ ref ∈ L ∧ ∀ x ∈ L, x ∈ ds.map Prod.fst := by
  obtain ⟨names, e, -, hm⟩ := result_names_correct ds hn hc ref href n h1
  unfold getDatasetNames at h
  rw [e] at h
  cases names with
  | nil => simp at h
  | cons key rest =>
    simp only [Except.ok.injEq] at h
    obtain ⟨a1, a2, a3, a4, a5⟩ := (hm key).mp (by simp)
    subst h
    refine ⟨sorted_names key a1 a3, by simpa using a2, a5, ?_⟩
    intro x hx
    obtain ⟨p, hp, rfl⟩ := List.mem_map.mp hx
    obtain ⟨cols, hc1, _⟩ := a4 p hp
    exact List.mem_map.mpr ⟨_, hc1, rfl⟩

example := dataset_names_sorted_partial [(3, [30, 31]), (1, [10]), (2, [20, 21])] (by decide) (by decide) 1 (by decide) 2 (by decide) [1, 2] (by decide +kernel)

/-- **C59.** There is an answer exactly if there is a result. -/
theorem dataset_names_none_iff (ds : List (α × List α)) (hn : (ds.map Prod.fst).Nodup) (hc : ∀ e ∈ ds, e.2.Nodup) (ref : α)
    (href : ref ∈ ds.map Prod.fst) (n : ℕ) (h1 : 1 ≤ n) : getDatasetNames ds ref n = .error .indexError ↔ ∀ L, ¬ Admissible ds ref n L := by
  obtain ⟨names, e, -, hm⟩ := result_names_correct ds hn hc ref href n h1
  unfold getDatasetNames
  rw [e]
  cases names with
  | nil =>
    simp only [true_iff]
    intro L hL
    simpa using (hm L).mpr hL
  | cons key rest =>
    simp only [reduceCtorEq, false_iff, not_forall, not_not]
    exact ⟨key, (hm key).mp (by simp)⟩

example : ∀ L, ¬ Admissible [(3, [30, 31]), (1, [10])] 1 3 L :=
  (dataset_names_none_iff _ (by decide) (by decide) 1 (by decide) 3 (by decide)).mp (by decide +kernel)

/-- strictly increasing lists with the same elements are equal -/
theorem eq_of_sorted (a b : List α) (ha : a.Pairwise (· < ·)) (hb : b.Pairwise (· < ·)) (h : ∀ x, x ∈ a ↔ x ∈ b) : a = b :=
  List.Perm.eq_of_pairwise (fun x y _ _ h1 h2 => absurd h1 (lt_asymm h2)) ha hb
    ((List.perm_ext_iff_of_nodup (ha.imp (fun h => ne_of_lt h)) (hb.imp (fun h => ne_of_lt h))).mpr h)

/-- **C59, for results with all data sets** (the documented use): the answer is the alphabetical list of all data sets, whatever the reference, and the
data sets of every result are in this order. -/
theorem dataset_names_all (ds : List (α × List α)) (hn : (ds.map Prod.fst).Nodup) (hc : ∀ e ∈ ds, e.2.Nodup) (hne : ∀ e ∈ ds, e.2 ≠ []) (ref : α)
    (href : ref ∈ ds.map Prod.fst) :
    ∃ L names, getDatasetNames ds ref ds.length = .ok L ∧ L.Pairwise (· < ·) ∧ (∀ x, x ∈ L ↔ x ∈ ds.map Prod.fst) ∧
      getResultNames ds ref ds.length = .ok names ∧ ∀ key ∈ names, key.map (fun p => (ofLex p).1) = L := by
  have hpos : 1 ≤ ds.length := by
    cases ds with
    | nil => simp at href
    | cons _ _ => simp
  obtain ⟨names, e, -, hm⟩ := result_names_correct ds hn hc ref href ds.length hpos
  have hfull : ∀ key, Admissible ds ref ds.length key → (key.map (fun p => (ofLex p).1)).Pairwise (· < ·) ∧
      ∀ x, x ∈ key.map (fun p => (ofLex p).1) ↔ x ∈ ds.map Prod.fst := by
    intro key hk
    obtain ⟨a1, a2, a3, a4, a5⟩ := hk
    refine ⟨sorted_names key a1 a3, ?_⟩
    have hsub : key.map (fun p => (ofLex p).1) ⊆ ds.map Prod.fst := by
      intro x hx
      obtain ⟨p, hp, rfl⟩ := List.mem_map.mp hx
      obtain ⟨cols, hc1, _⟩ := a4 p hp
      exact List.mem_map.mpr ⟨_, hc1, rfl⟩
    have hp := List.Subperm.perm_of_length_le (a3.subperm hsub) (by simp [a2])
    intro x
    exact hp.mem_iff
  -- a result exists: the first column of each data set
  have hex : ∃ key, Admissible ds ref ds.length key := by
    set base : List (Col α) := ds.filterMap (fun e => e.2.head?.map (col e.1)) with hbase
    have hmap : base.map (fun p => (ofLex p).1) = ds.map Prod.fst := by
      rw [hbase]
      clear hbase base hfull hm e hpos href hn hc
      induction ds with
      | nil => rfl
      | cons e ds ih =>
        obtain ⟨d, cs⟩ := e
        cases cs with
        | nil => exact absurd rfl (hne (d, []) (by simp))
        | cons c cs =>
          simp only [List.filterMap_cons, List.head?_cons, Option.map_some, List.map_cons]
          rw [ih (fun e he => hne e (List.mem_cons_of_mem _ he))]
          rfl
    have hperm := List.perm_insertionSort (· ≤ ·) base
    refine ⟨base.insertionSort (· ≤ ·), List.pairwise_insertionSort _ _, ?_, ?_, ?_, ?_⟩
    · rw [List.length_insertionSort]
      have := congrArg List.length hmap
      simpa using this
    · rw [(hperm.map _).nodup_iff, hmap]; exact hn
    · intro p hp
      rw [List.mem_insertionSort, hbase, List.mem_filterMap] at hp
      obtain ⟨⟨d, cs⟩, he, h⟩ := hp
      cases cs with
      | nil => simp at h
      | cons c cs =>
        simp only [List.head?_cons, Option.map_some, Option.some.injEq] at h
        subst h
        exact ⟨c :: cs, he, by simp [col]⟩
    · rw [(hperm.map _).mem_iff, hmap]; exact href
  obtain ⟨key0, hk0⟩ := hex
  have h0 : key0 ∈ names := (hm key0).mpr hk0
  cases names with
  | nil => simp at h0
  | cons key rest =>
    have hkey := hfull key ((hm key).mp (by simp))
    refine ⟨key.map (fun p => (ofLex p).1), key :: rest, ?_, hkey.1, hkey.2, e, ?_⟩
    · unfold getDatasetNames
      rw [e]
    · intro k hk
      have hk' := hfull k ((hm k).mp hk)
      exact eq_of_sorted _ _ hk'.1 hkey.1 (fun x => (hk'.2 x).trans (hkey.2 x).symm)

example := dataset_names_all [(3, [30, 31]), (1, [10]), (2, [20, 21])] (by decide) (by decide) (by decide) 2 (by decide)

/-- non-trivial instance: three data sets with two, one and two columns -/
example : (getDatasetNames [(3, [30, 31]), (1, [10]), (2, [20, 21])] 1 3).toOption = some [1, 2, 3] := by decide +kernel

/-- **C59, negation.** The reference is not the first name in general: only if it comes first in alphabetical order. -/
theorem dataset_names_reference_not_first : (getDatasetNames [(1, [10]), (2, [20]), (3, [30])] 3 3).toOption = some [1, 2, 3] := by decide +kernel

end Verif.DataManager
