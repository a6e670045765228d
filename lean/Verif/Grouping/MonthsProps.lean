import Verif.Grouping.Months
import Verif.Grouping.Props
import Mathlib.Tactic.IntervalCases

/-! C85: subsets by months. -/

namespace Verif.Grouping

open Climatology (isLeap monthLength)

theorem distributorOf_months (l : List ℕ) (h : ∀ m ∈ l, m ≤ 12) : distributorOf (.months l) = .ok (monthsDistributor l) := by
  unfold distributorOf
  have : l.mapM (fun m => (do
      let n ← daysInMonth? m
      .ok ((⟨m, 1, 0⟩ : Pos), (⟨m, n, 86399000000000⟩ : Pos)) : Except Err (Pos × Pos))) =
      .ok (l.map (fun m => ((⟨m, 1, 0⟩ : Pos), (⟨m, daysInMonth m, 86399000000000⟩ : Pos)))) := by
    apply mapM_except_map
    intro m hm
    unfold daysInMonth?
    rw [if_pos (h m hm)]
    rfl
  simp only
  rw [this]
  rfl

/-- **C85.** Built from lists of months, each subset of the adapter selects exactly the rows of its months, in every year (time stamps to the
second). -/
theorem months_adapter_rows_partial {R : Type} (d : List (String × List ℕ)) (h : ∀ e ∈ d, ∀ m ∈ e.2, 1 ≤ m ∧ m ≤ 12) (data : List (Stamp × R))
    (hv : ∀ r ∈ data, validStamp r.1 ∧ r.1.pos.ns % 1000000000 = 0) :
    (buildMonths (d.map (fun e => (e.1, .months e.2)))).2 = none ∧
    (distributors (buildMonths (d.map (fun e => (e.1, .months e.2)))).1).map (fun e => (e.1, select e.2 data)) =
      d.map (fun e => (e.1, data.filter (fun r => decide (r.1.pos.month ∈ e.2)))) := by
  induction d with
  | nil => exact ⟨rfl, rfl⟩
  | cons e d ih =>
    obtain ⟨i1, i2⟩ := ih (fun e' h' => h e' (List.mem_cons_of_mem _ h'))
    have he := h e List.mem_cons_self
    simp only [List.map_cons, buildMonths, distributorOf_months e.2 (fun m hm => (he m hm).2)]
    refine ⟨i1, ?_⟩
    unfold distributors at i2 ⊢
    rw [List.filterMap_cons]
    simp only [List.map_cons]
    rw [i2, months_rows e.2 he data hv]

/-- **C85.** With the default subsets, every row (time stamp to the second) is in exactly one of the four seasons, and in "ALL". -/
theorem default_seasons_partition {R : Type} (data : List (Stamp × R)) (hv : ∀ r ∈ data, validStamp r.1 ∧ r.1.pos.ns % 1000000000 = 0) :
    ∃ djf mam jja son, (distributors (buildMonths defaultMonths).1).map (fun e => (e.1, select e.2 data)) =
        [("DJF", djf), ("MAM", mam), ("JJA", jja), ("SON", son), ("ALL", data)] ∧
      (djf ++ mam ++ jja ++ son).Perm data := by
  have hb := (months_adapter_rows_partial [("DJF", [12, 1, 2]), ("MAM", [3, 4, 5]), ("JJA", [6, 7, 8]), ("SON", [9, 10, 11]),
    ("ALL", [1, 2, 3, 4, 5, 6, 7, 8, 9, 10, 11, 12])] (by decide) data hv).2
  refine ⟨data.filter (fun r => decide (r.1.pos.month ∈ [12, 1, 2])), data.filter (fun r => decide (r.1.pos.month ∈ [3, 4, 5])),
    data.filter (fun r => decide (r.1.pos.month ∈ [6, 7, 8])), data.filter (fun r => decide (r.1.pos.month ∈ [9, 10, 11])), ?_, ?_⟩
  · refine (hb : (distributors (buildMonths defaultMonths).1).map (fun e => (e.1, select e.2 data)) = _).trans ?_
    simp only [List.map_cons, List.map_nil, List.cons.injEq, Prod.mk.injEq, true_and, and_true]
    rw [List.filter_eq_self]
    intro r hr
    obtain ⟨⟨h1, h2, -⟩, -⟩ := hv r hr
    simp only [decide_eq_true_eq, List.mem_cons, List.not_mem_nil, or_false]
    omega
  · clear hb
    induction data with
    | nil => exact List.Perm.refl _
    | cons r data ih =>
      have ih := ih (fun x hx => hv x (List.mem_cons_of_mem _ hx))
      obtain ⟨⟨h1, h2, -⟩, -⟩ := hv r List.mem_cons_self
      generalize hmon : r.1.pos.month = mo at h1 h2
      have step : ∀ a b c d : List (Stamp × R), (a ++ b ++ c ++ d).Perm data →
          (r :: a ++ b ++ c ++ d).Perm (r :: data) ∧ (a ++ r :: b ++ c ++ d).Perm (r :: data) ∧
          (a ++ b ++ r :: c ++ d).Perm (r :: data) ∧ (a ++ b ++ c ++ r :: d).Perm (r :: data) := by
        intro a b c d hp
        simp only [List.append_assoc, List.cons_append] at hp ⊢
        refine ⟨hp.cons r, List.perm_middle.trans (hp.cons r), ?_, ?_⟩
        · rw [← List.append_assoc] at hp ⊢
          exact List.perm_middle.trans (hp.cons r)
        · rw [← List.append_assoc, ← List.append_assoc] at hp ⊢
          exact List.perm_middle.trans (hp.cons r)
      obtain ⟨s1, s2, s3, s4⟩ := step _ _ _ _ ih
      simp only [List.filter_cons, hmon]
      interval_cases mo <;> first | exact s1 | exact s2 | exact s3 | exact s4

example := default_seasons_partition [((⟨2020, 7, 1, 0⟩ : Stamp), 1), (⟨2021, 1, 31, 86399000000000⟩, 2)] (by simp [validStamp, monthLength, isLeap])

/-- **C85, negation.** The dictionary given by the user is overwritten, so a second adapter cannot be built from it: TypeError. -/
theorem months_adapter_second_use (s : String) (l : List ℕ) (d : List (String × Subset)) (h : ∀ m ∈ l, m ≤ 12) :
    (buildMonths (buildMonths ((s, .months l) :: d)).1).2 = some .typeError := by
  have h1 : (buildMonths ((s, .months l) :: d)).1 = (s, .distr (monthsDistributor l)) :: (buildMonths d).1 := by
    simp only [buildMonths, distributorOf_months l h]
  rw [h1]
  rfl

example : (buildMonths (buildMonths [("S", .months [6, 7, 8])]).1).2 = some .typeError := months_adapter_second_use _ _ _ (by decide)

/-- **C85.** A month after December is refused when the adapter is built. -/
theorem months_adapter_bad_month (s : String) (l : List ℕ) (d : List (String × Subset)) (h : ∃ m ∈ l, 12 < m) :
    (buildMonths ((s, .months l) :: d)).2 = some .indexError := by
  have : distributorOf (.months l) = .error .indexError := by
    unfold distributorOf
    have hm : l.mapM (fun m => (do
        let n ← daysInMonth? m
        .ok ((⟨m, 1, 0⟩ : Pos), (⟨m, n, 86399000000000⟩ : Pos)) : Except Err (Pos × Pos))) = .error .indexError := by
      induction l with
      | nil => simp at h
      | cons m l ih =>
        rw [List.mapM_cons]
        by_cases hm : m ≤ 12
        · have : ∃ m ∈ l, 12 < m := by
            obtain ⟨m', h1, h2⟩ := h
            rcases List.mem_cons.mp h1 with rfl | h1
            · omega
            · exact ⟨m', h1, h2⟩
          rw [ih this]
          simp only [daysInMonth?, if_pos hm, bind, Except.bind]
        · simp only [daysInMonth?, if_neg hm, bind, Except.bind]
    simp only
    rw [hm]
    rfl
  simp only [buildMonths, this]

example : (buildMonths [("S", .months [12, 13, 14])]).2 = some .indexError := months_adapter_bad_month _ _ _ ⟨13, by decide, by decide⟩

/-- **C85.** Yearless dates work as `YearlessDatetime` objects … -/
theorem yearless_dates_objects (ps : List Pos) : yearlessDates? (ps.map .yearless) = some ps := by
  induction ps with
  | nil => rfl
  | cons p ps ih => simp [yearlessDates?, ih]

/-- **C85, negation.** … but not as `datetime` objects, which the documentation allows: AttributeError. -/
theorem yearless_dates_datetime (t : Stamp) (l m : List YDate) : yearlessDates? (l ++ .datetime t :: m) = none := by
  induction l with
  | nil => rfl
  | cons e l ih =>
    cases e with
    | yearless p => simp [yearlessDates?, ih]
    | datetime _ => rfl

/-- **C85.** `YearlessDatetime.from_datetime` of a time stamp to the second selects this time stamp and its anniversaries. -/
theorem from_datetime_selects (t : Stamp) (hs : t.pos.ns % 1000000000 = 0) (idx : List Stamp) (hv : ∀ u ∈ idx, validStamp u) (u : Stamp)
    (hu : u ∈ idx) : selected ⟨none, none, some [fromDatetime t], none⟩ idx u = true ↔ u.pos = t.pos := by
  rw [yearless_dates [fromDatetime t] idx hv u hu, List.mem_singleton]
  have : fromDatetime t = t.pos := by
    obtain ⟨y, mo, d, ns⟩ := t
    simp only [fromDatetime, Pos.mk.injEq, true_and]
    simp only at hs
    omega
  rw [this]

/-- a row of July 2020 and one of January 2021 -/
example : ((distributors (buildMonths defaultMonths).1).map (fun e => (e.1, (select e.2 [((⟨2020, 7, 1, 0⟩ : Stamp), 1), (⟨2021, 1, 31, 86399000000000⟩, 2)]).map Prod.snd))) =
    [("DJF", [2]), ("MAM", []), ("JJA", [1]), ("SON", []), ("ALL", [1, 2])] := by decide +kernel

example : validStamp ⟨2021, 1, 31, 86399000000000⟩ ∧ (86399000000000 : ℕ) % 1000000000 = 0 := by simp [validStamp, monthLength]

example : selected ⟨none, none, some [fromDatetime ⟨1999, 2, 28, 5000000001⟩], none⟩ [⟨2024, 2, 28, 5000000000⟩] ⟨2024, 2, 28, 5000000000⟩ = true := by
  decide +kernel

end Verif.Grouping
