import Mathlib.Tactic.Ring
import Verif.Common.ListAux
import Verif.Grouping.Lemmas

/-! Properties C25, C26 and C42. -/

namespace Verif.Grouping

open Climatology (isLeap monthLength)

set_option linter.unusedSectionVars false

/-! ### C25: selection by calendar position -/

/-- **C25 (partial).** Yearless ranges select a time stamp exactly if its position in the year lies in one of the ranges, which may
cross New Year, start or end on 29 February; except that the part of a crossing range after New Year is only selected if the index
also has a time stamp in the previous year. Missing from the full statement: that exception, ranges inside 29 February and
fractions of the last second before a replaced 29 February (see `yearless_first_year_missed`, `leap_day_range_wrong`). -/
theorem yearless_ranges_partial (gs : List (Pos × Pos)) (idx : List Stamp) (hg : ∀ g ∈ gs, validPos g.1 ∧ validPos g.2)
    (hl : ∀ g ∈ gs, ¬ (leapDay g.1 ∧ leapDay g.2 ∧ posLe g.1 g.2)) (hv : ∀ t ∈ idx, validStamp t) (t : Stamp) (ht : t ∈ idx)
    (hsec : ∀ g ∈ gs, leapDay g.2 → t.pos.ns % 1000000000 = 0) :
    selected ⟨none, none, none, some gs⟩ idx t = true ↔
      ∃ g ∈ gs, inYearlessRange g t.pos ∧ (posLe g.1 g.2 ∨ posLe g.1 t.pos ∨ ∃ u ∈ idx, u.year + 1 = t.year) := by
  unfold selected
  simp only [Option.getD_none, Option.getD_some, List.any_nil, Bool.or_false, Bool.false_or]
  have : ([] : List Stamp).contains t = false := rfl
  rw [this, Bool.false_or, List.any_eq_true]
  constructor
  · rintro ⟨g, h, hs⟩
    exact ⟨g, h, (range_selected (hg g h).1 (hg g h).2 (hl g h) hv ht (hsec g h)).mp hs⟩
  · rintro ⟨g, h, hs⟩
    exact ⟨g, h, (range_selected (hg g h).1 (hg g h).2 (hl g h) hv ht (hsec g h)).mpr hs⟩

/-- **C25.** Ranges that do not cross New Year select exactly by the position in the year, in every year. -/
theorem yearless_ranges_within_year (gs : List (Pos × Pos)) (idx : List Stamp) (hg : ∀ g ∈ gs, validPos g.1 ∧ validPos g.2)
    (hw : ∀ g ∈ gs, posLe g.1 g.2) (hl : ∀ g ∈ gs, ¬ (leapDay g.1 ∧ leapDay g.2)) (hv : ∀ t ∈ idx, validStamp t) (t : Stamp)
    (ht : t ∈ idx) (hsec : ∀ g ∈ gs, leapDay g.2 → t.pos.ns % 1000000000 = 0) :
    selected ⟨none, none, none, some gs⟩ idx t = true ↔ ∃ g ∈ gs, posLe g.1 t.pos ∧ posLe t.pos g.2 := by
  rw [yearless_ranges_partial gs idx hg (fun g h hc => hl g h ⟨hc.1, hc.2.1⟩) hv t ht hsec]
  constructor
  · rintro ⟨g, h, hr, -⟩
    rcases hr with hr | hr
    · exact ⟨g, h, hr.2⟩
    · exact absurd (hw g h) hr.1
  · rintro ⟨g, h, hr⟩
    exact ⟨g, h, .inl ⟨hw g h, hr⟩, .inl (hw g h)⟩

/-- **C25.** If every year of the index but the years after a gap, that is: every year has its predecessor or no time stamp in the
part after New Year, crossing ranges select exactly by position. -/
theorem yearless_ranges_with_previous_year (gs : List (Pos × Pos)) (idx : List Stamp)
    (hg : ∀ g ∈ gs, validPos g.1 ∧ validPos g.2) (hl : ∀ g ∈ gs, ¬ (leapDay g.1 ∧ leapDay g.2)) (hv : ∀ t ∈ idx, validStamp t)
    (t : Stamp) (ht : t ∈ idx) (hsec : ∀ g ∈ gs, leapDay g.2 → t.pos.ns % 1000000000 = 0) (u : Stamp) (hu : u ∈ idx)
    (hy : u.year + 1 = t.year) :
    selected ⟨none, none, none, some gs⟩ idx t = true ↔ ∃ g ∈ gs, inYearlessRange g t.pos := by
  rw [yearless_ranges_partial gs idx hg (fun g h hc => hl g h ⟨hc.1, hc.2.1⟩) hv t ht hsec]
  exact ⟨fun ⟨g, h, hr, _⟩ => ⟨g, h, hr⟩, fun ⟨g, h, hr⟩ => ⟨g, h, hr, .inr (.inr ⟨u, hu, hy⟩)⟩⟩

/-- New Year: November to February, a date in January 2021 with data in 2020 -/
example : selected ⟨none, none, none, some [(⟨11, 1, 0⟩, ⟨2, 28, 0⟩)]⟩ [⟨2020, 7, 1, 0⟩, ⟨2021, 1, 5, 0⟩] ⟨2021, 1, 5, 0⟩ = true :=
  (yearless_ranges_with_previous_year [(⟨11, 1, 0⟩, ⟨2, 28, 0⟩)] [⟨2020, 7, 1, 0⟩, ⟨2021, 1, 5, 0⟩] (by simp [validPos, monthLength])
    (by simp [leapDay]) (by simp [validStamp, monthLength, isLeap]) ⟨2021, 1, 5, 0⟩ (by decide) (by simp [leapDay]) ⟨2020, 7, 1, 0⟩ (by decide)
    rfl).mpr ⟨_, List.mem_singleton_self _, Or.inr ⟨by simp [posLe], Or.inr (by simp [posLe])⟩⟩

/-- November to February, over three years -/
example :
    let g : Pos × Pos := (⟨11, 1, 0⟩, ⟨2, 29, 86399000000000⟩)
    let idx : List Stamp := [⟨2023, 2, 10, 0⟩, ⟨2023, 12, 24, 5⟩, ⟨2024, 1, 1, 0⟩, ⟨2024, 2, 29, 0⟩, ⟨2024, 3, 1, 0⟩,
      ⟨2025, 2, 28, 86399000000000⟩, ⟨2025, 3, 1, 0⟩]
    idx.map (selected ⟨none, none, none, some [g]⟩ idx) = [false, true, true, true, false, true, false] ∧
    ¬ (leapDay g.1 ∧ leapDay g.2) := by
  refine ⟨by decide +kernel, by simp [leapDay]⟩

/-- **C25, finding.** A range that crosses New Year misses January of the first year of the index. -/
theorem yearless_first_year_missed : ∃ (g : Pos × Pos) (idx : List Stamp) (t : Stamp), validPos g.1 ∧ validPos g.2 ∧
    (∀ u ∈ idx, validStamp u) ∧ t ∈ idx ∧ inYearlessRange g t.pos ∧ selected ⟨none, none, none, some [g]⟩ idx t = false := by
  refine ⟨(⟨12, 1, 0⟩, ⟨2, 15, 0⟩), [⟨2020, 1, 10, 0⟩, ⟨2020, 12, 10, 0⟩], ⟨2020, 1, 10, 0⟩, ?_, ?_, ?_, by simp, ?_, by decide +kernel⟩
  · simp [validPos, monthLength]
  · simp [validPos, monthLength]
  · simp [validStamp, monthLength]
  · simp [inYearlessRange, posLe]

/-- **C25, finding.** The range 29 February to 29 February selects July of ordinary years. -/
theorem leap_day_range_wrong : ∃ (g : Pos × Pos) (t : Stamp), validPos g.1 ∧ validPos g.2 ∧ posLe g.1 g.2 ∧ validStamp t ∧
    ¬ inYearlessRange g t.pos ∧ selected ⟨none, none, none, some [g]⟩ [t] t = true := by
  refine ⟨(⟨2, 29, 0⟩, ⟨2, 29, 86399000000000⟩), ⟨2023, 7, 1, 0⟩, ?_, ?_, ?_, ?_, ?_, by decide +kernel⟩
  · simp [validPos, monthLength]
  · simp [validPos, monthLength]
  · simp [posLe]
  · simp [validStamp, monthLength]
  · simp [inYearlessRange, posLe]

/-- **C25.** Yearless dates select exactly the time stamps with that position in the year. -/
theorem yearless_dates (ps : List Pos) (idx : List Stamp) (hv : ∀ t ∈ idx, validStamp t) (t : Stamp) (ht : t ∈ idx) :
    selected ⟨none, none, some ps, none⟩ idx t = true ↔ t.pos ∈ ps := by
  unfold selected
  simp only [Option.getD_none, Option.getD_some, List.any_nil, Bool.or_false]
  have : ([] : List Stamp).contains t = false := rfl
  rw [this, Bool.false_or, List.any_eq_true]
  constructor
  · rintro ⟨p, hp, hc⟩
    unfold toDatetimes at hc
    simp only [List.contains_iff_mem, List.mem_map] at hc
    obtain ⟨y, -, rfl⟩ := hc
    exact hp
  · intro hp
    refine ⟨t.pos, hp, ?_⟩
    unfold toDatetimes
    simp only [List.contains_iff_mem, List.mem_map, List.mem_filter, mem_uniqueYears]
    refine ⟨t.year, ⟨⟨t, ht, rfl⟩, ?_⟩, rfl⟩
    have h := (hv t ht).2.2.2.1
    cases hleap : isLeap t.year
    · rw [hleap] at h
      have : ¬ leapDay t.pos := by
        rintro ⟨hm, hd⟩
        rw [hm, hd] at h
        simp [monthLength] at h
      rw [← isLeapDay_false] at this
      simp [this]
    · simp

example : (fun idx : List Stamp => idx.map (selected ⟨none, none, some [⟨2, 29, 0⟩, ⟨7, 1, 0⟩], none⟩ idx))
    [⟨2023, 7, 1, 0⟩, ⟨2024, 2, 29, 0⟩, ⟨2024, 2, 28, 0⟩, ⟨2024, 7, 1, 1⟩] = [true, true, false, false] := by decide +kernel

/-- **C25.** Dates select exactly themselves; date ranges, whose ends may be given in any order, select exactly the time stamps
between their ends, both ends included. -/
theorem dates_and_ranges (ds : List Stamp) (rs : List (Stamp × Stamp)) (hr : ∀ r ∈ rs, validPos r.1.pos ∧ validPos r.2.pos)
    (idx : List Stamp) (t : Stamp) (ht : validStamp t) :
    selected ⟨some ds, some rs, none, none⟩ idx t = true ↔
      t ∈ ds ∨ ∃ r ∈ rs, (stampLe r.1 t ∧ stampLe t r.2) ∨ (stampLe r.2 t ∧ stampLe t r.1) := by
  unfold selected
  simp only [Option.getD_none, Option.getD_some, List.any_nil, Bool.or_false, Bool.or_eq_true, List.contains_iff_mem, List.any_eq_true]
  apply or_congr Iff.rfl
  have hle : ∀ {a b : Stamp}, stampLe a b → stampLe b t → stampLe a t := by
    intro a b; unfold stampLe posLe; omega
  constructor
  · rintro ⟨r, h, hs⟩
    refine ⟨r, h, ?_⟩
    rw [← le_iff (hr r h).1 ht.pos, ← le_iff ht.pos (hr r h).2, ← le_iff (hr r h).2 ht.pos, ← le_iff ht.pos (hr r h).1]
    simp only [Bool.and_eq_true] at hs
    split_ifs at hs
    · exact .inl hs
    · exact .inr hs
  · rintro ⟨r, h, hs⟩
    refine ⟨r, h, ?_⟩
    simp only [Bool.and_eq_true]
    split_ifs with h1
    · rw [le_iff (hr r h).1 ht.pos, le_iff ht.pos (hr r h).2]
      rcases hs with hs | hs
      · exact hs
      · rw [le_iff (hr r h).1 (hr r h).2] at h1
        unfold stampLe posLe at *; omega
    · rw [le_iff (hr r h).2 ht.pos, le_iff ht.pos (hr r h).1]
      rcases hs with hs | hs
      · rw [le_iff (hr r h).1 (hr r h).2] at h1
        unfold stampLe posLe at *; omega
      · exact hs

example : ([⟨2020, 1, 1, 0⟩, ⟨2020, 6, 1, 0⟩, ⟨2021, 1, 1, 0⟩, ⟨2021, 1, 1, 1⟩] : List Stamp).map
    (selected ⟨some [⟨2020, 1, 1, 0⟩], some [(⟨2021, 1, 1, 0⟩, ⟨2020, 3, 1, 0⟩)], none, none⟩ []) = [true, true, true, false] := by
  decide +kernel

/-- **C25.** The components are combined by "or". -/
theorem selected_or (D : Distributor) (idx : List Stamp) (t : Stamp) :
    selected D idx t = true ↔ selected ⟨D.dates, D.dateRanges, none, none⟩ idx t = true ∨
      selected ⟨none, none, D.yearlessDates, none⟩ idx t = true ∨ selected ⟨none, none, none, D.yearlessRanges⟩ idx t = true := by
  unfold selected
  simp only [Option.getD_none, List.any_nil, Bool.or_false, List.contains_nil, Bool.false_or]
  simp only [Bool.or_eq_true]
  tauto

/-- **C25.** `select` keeps exactly the selected rows, with their values and in their order; `set_nan` keeps all rows and the values
of exactly the selected rows. -/
theorem select_rows {V : Type} (nan : V) (D : Distributor) (rows : List (Stamp × V)) :
    (select D rows).Sublist rows ∧
    (∀ r ∈ rows, r ∈ select D rows ↔ selected D (rows.map Prod.fst) r.1 = true) ∧
    (selectNan nan D rows).map Prod.fst = rows.map Prod.fst ∧
    ∀ (i : ℕ) (r : Stamp × V), rows[i]? = some r →
      (selectNan nan D rows)[i]? = some (if selected D (rows.map Prod.fst) r.1 then r else (r.1, nan)) := by
  refine ⟨List.filter_sublist, ?_, ?_, ?_⟩
  · intro r hr
    simp [select, hr]
  · unfold selectNan
    rw [List.map_map]
    apply List.map_congr_left
    intro r _
    simp only [Function.comp]
    split_ifs <;> rfl
  · intro i r h
    unfold selectNan
    rw [List.getElem?_map, h]
    rfl

example : select (⟨none, none, none, some [(⟨6, 1, 0⟩, ⟨8, 31, 0⟩)]⟩) [(⟨2020, 5, 31, 0⟩, 1), (⟨2020, 6, 1, 0⟩, 2), (⟨2021, 7, 9, 3⟩, 3)]
    = [(⟨2020, 6, 1, 0⟩, 2), (⟨2021, 7, 9, 3⟩, 3)] := by decide +kernel

/-! ### C26: day bins -/

/-- **C26.** With `start=False` the label of a date is the last day of its bin, cut at the end of the month: it is a date of the
same month, not before the date; no bin starts after the date and up to the label; and the label is the last of the month or the
next bin starts on the following day. -/
theorem label_end (bins : List ℤ) (hb : bins.Pairwise (· < ·)) (d : Date) (hd : validDate d) (hlast : ∃ b ∈ bins, (d.day : ℤ) < b) :
    ∃ L, label bins false d = .ok L ∧ L.year = d.year ∧ L.month = d.month ∧ d.day ≤ L.day ∧ validDate L ∧
      sameBin bins d.day L.day ∧ (L.day = monthLength (isLeap d.year) d.month ∨ ((L.day : ℤ) + 1) ∈ bins) := by
  obtain ⟨b, hbm, hbd⟩ := hlast
  obtain ⟨i, hi, rfl⟩ := List.mem_iff_getElem.mp hbm
  have hg : digitize bins d.day < bins.length := by
    have := digitize_spec bins hb d.day i hi
    omega
  have hnext := digitize_spec bins hb d.day (digitize bins d.day) hg
  have hgt : (d.day : ℤ) < bins[digitize bins d.day] := by omega
  obtain ⟨hd1, hd2, hd3, hd4⟩ := hd
  unfold label
  have h0 : ((digitize bins d.day : ℤ) + (if false = true then -1 else 0)) = ((digitize bins d.day : ℕ) : ℤ) := by simp
  rw [h0, binAt_ok bins _ hg]
  simp only [bind, Except.bind, if_neg Bool.false_ne_true]
  unfold mkDate
  rw [monthLen_eq, if_pos (by omega)]
  have hcase : min (bins[digitize bins d.day] - 1) ((monthLength (isLeap d.year) d.month : ℕ) : ℤ) =
      ((min (bins[digitize bins d.day] - 1) ((monthLength (isLeap d.year) d.month : ℕ) : ℤ)).toNat : ℤ) := by omega
  refine ⟨_, rfl, rfl, rfl, ?_, ⟨hd1, hd2, ?_, ?_⟩, ?_, ?_⟩
  · simp only; omega
  · simp only; omega
  · simp only; omega
  · intro c hc
    obtain ⟨j, hj, rfl⟩ := List.mem_iff_getElem.mp hc
    simp only
    rw [← hcase]
    constructor
    · intro h; omega
    · intro h
      by_contra hcon
      have hj2 := digitize_spec bins hb d.day j hj
      have hle : digitize bins d.day ≤ j := by omega
      have : bins[digitize bins d.day] ≤ bins[j] := by
        rcases Nat.lt_or_eq_of_le hle with hlt | heq
        · exact (List.pairwise_iff_getElem.mp hb _ _ hg hj hlt).le
        · simp [heq]
      omega
  · simp only
    by_cases hm : bins[digitize bins d.day] - 1 ≤ ((monthLength (isLeap d.year) d.month : ℕ) : ℤ)
    · right
      rw [← hcase, min_eq_left hm]
      simp
    · left; omega

example : (label [1, 11, 21, 32] false ⟨2023, 2, 25⟩).toOption = some ⟨2023, 2, 28⟩ ∧
    (label [1, 11, 21, 32] false ⟨2023, 2, 20⟩).toOption = some ⟨2023, 2, 20⟩ ∧
    (label [1, 11, 21, 32] false ⟨2023, 2, 1⟩).toOption = some ⟨2023, 2, 10⟩ := by decide +kernel

/-- **C26.** With `start=True` the label is the first day of the bin of the date. -/
theorem label_start (bins : List ℤ) (hb : bins.Pairwise (· < ·)) (h1 : ∀ b ∈ bins, 1 ≤ b) (d : Date) (hd : validDate d)
    (hfirst : ∃ b ∈ bins, b ≤ (d.day : ℤ)) :
    ∃ L, label bins true d = .ok L ∧ L.year = d.year ∧ L.month = d.month ∧ L.day ≤ d.day ∧ validDate L ∧
      sameBin bins d.day L.day ∧ (L.day : ℤ) ∈ bins := by
  obtain ⟨b, hbm, hbd⟩ := hfirst
  obtain ⟨i, hi, rfl⟩ := List.mem_iff_getElem.mp hbm
  have hpos : 0 < digitize bins d.day := by
    have := digitize_spec bins hb d.day i hi
    omega
  have hlen := digitize_le bins d.day
  have hg : digitize bins d.day - 1 < bins.length := by omega
  have hle : bins[digitize bins d.day - 1] ≤ (d.day : ℤ) := (digitize_spec bins hb d.day _ hg).mpr (by omega)
  have hge := h1 _ (List.getElem_mem hg)
  obtain ⟨hd1, hd2, hd3, hd4⟩ := hd
  unfold label
  have h0 : ((digitize bins d.day : ℤ) + (if true = true then -1 else 0)) = ((digitize bins d.day - 1 : ℕ) : ℤ) := by
    simp; omega
  rw [h0, binAt_ok bins _ hg]
  simp only [bind, Except.bind, if_true]
  unfold mkDate
  rw [monthLen_eq, if_pos (by omega)]
  have hcase : min (bins[digitize bins d.day - 1] - 0) ((monthLength (isLeap d.year) d.month : ℕ) : ℤ) =
      bins[digitize bins d.day - 1] := by omega
  refine ⟨_, rfl, rfl, rfl, ?_, ⟨hd1, hd2, ?_, ?_⟩, ?_, ?_⟩
  · simp only; omega
  · simp only; omega
  · simp only; omega
  · intro c hc
    obtain ⟨j, hj, rfl⟩ := List.mem_iff_getElem.mp hc
    simp only
    rw [hcase, Int.toNat_of_nonneg (by omega)]
    constructor
    · intro h
      have hj2 := (digitize_spec bins hb d.day j hj).mp h
      have hle2 : j ≤ digitize bins d.day - 1 := by omega
      rcases Nat.lt_or_eq_of_le hle2 with hlt | heq
      · exact (List.pairwise_iff_getElem.mp hb _ _ hj hg hlt).le
      · simp [heq]
    · intro h; omega
  · simp only
    rw [hcase, Int.toNat_of_nonneg (by omega)]
    exact List.getElem_mem hg

example : (label [1, 11, 21, 32] true ⟨2023, 2, 25⟩).toOption = some ⟨2023, 2, 21⟩ ∧
    (label [1, 11, 21, 32] true ⟨2023, 2, 10⟩).toOption = some ⟨2023, 2, 1⟩ := by decide +kernel

/-- bins that cover all days of a month -/
def coveringBins (bins : List ℤ) : Prop := bins.Pairwise (· < ·) ∧ (∀ b ∈ bins, 1 ≤ b) ∧ (1 : ℤ) ∈ bins ∧ ∃ b ∈ bins, 31 < b

theorem covering_label {bins : List ℤ} (hb : coveringBins bins) (start : Bool) (d : Date) (hd : validDate d) :
    ∃ L, label bins start d = .ok L ∧ L.year = d.year ∧ L.month = d.month ∧ validDate L ∧ sameBin bins d.day L.day := by
  obtain ⟨h1, h2, h3, b, hbm, h4⟩ := hb
  have h31 := le_trans hd.2.2.2 (monthLength_le _ _)
  cases start
  · obtain ⟨L, a, b, c, -, e, f, -⟩ := label_end bins h1 d hd ⟨b, hbm, by omega⟩
    exact ⟨L, a, b, c, e, f⟩
  · obtain ⟨L, a, b, c, -, e, f, -⟩ := label_start bins h1 h2 d hd ⟨1, h3, by have := hd.2.2.1; omega⟩
    exact ⟨L, a, b, c, e, f⟩

/-- **C26.** With bins that cover the month, two observations get the same label exactly if they are in the same year, month and
bin. -/
theorem label_eq_iff (bins : List ℤ) (hb : coveringBins bins) (start : Bool) (d d' : Date) (hd : validDate d) (hd' : validDate d')
    (L L' : Date) (hL : label bins start d = .ok L) (hL' : label bins start d' = .ok L') :
    L = L' ↔ d.year = d'.year ∧ d.month = d'.month ∧ sameBin bins d.day d'.day := by
  obtain ⟨L1, a, b, c, -, e⟩ := covering_label hb start d hd
  obtain ⟨L2, a', b', c', -, e'⟩ := covering_label hb start d' hd'
  rw [hL] at a; rw [hL'] at a'
  obtain rfl := Except.ok.inj a
  obtain rfl := Except.ok.inj a'
  constructor
  · intro h
    refine ⟨by rw [← b, ← b', h], by rw [← c, ← c', h], ?_⟩
    intro x hx
    rw [e x hx, e' x hx, h]
  · rintro ⟨hy, hm, hs⟩
    have hdig : digitize bins d.day = digitize bins d'.day := by
      unfold digitize
      apply List.countP_congr
      intro x hx
      have := hs x hx
      simp [this]
    have : label bins start d = label bins start d' := by
      unfold label
      rw [hdig, hy, hm]
    rw [hL, hL'] at this
    exact Except.ok.inj this

/-- **C26.** Labels keep the order of the dates, and of two dates in different groups strictly. -/
theorem label_order (bins : List ℤ) (hb : coveringBins bins) (start : Bool) (d d' : Date) (hd : validDate d) (hd' : validDate d')
    (hlt : dateLt d d') (L L' : Date) (hL : label bins start d = .ok L) (hL' : label bins start d' = .ok L') :
    L = L' ∨ dateLt L L' := by
  obtain ⟨L1, a, b, c, -, e⟩ := covering_label hb start d hd
  obtain ⟨L2, a', b', c', -, e'⟩ := covering_label hb start d' hd'
  have hiff := label_eq_iff bins hb start d d' hd hd' L L' hL hL'
  rw [hL] at a; rw [hL'] at a'
  obtain rfl := Except.ok.inj a
  obtain rfl := Except.ok.inj a'
  by_cases hsame : L = L'
  · exact .inl hsame
  right
  unfold dateLt at hlt ⊢
  rw [b, c, b', c']
  rcases hlt with h | ⟨h, h2⟩
  · exact .inl h
  rcases h2 with h2 | ⟨h2, h3⟩
  · exact .inr ⟨h, .inl h2⟩
  refine .inr ⟨h, .inr ⟨h2, ?_⟩⟩
  have hns : ¬ sameBin bins d.day d'.day := fun hs => hsame (hiff.mpr ⟨h, h2, hs⟩)
  unfold sameBin at hns
  push Not at hns
  obtain ⟨x, hx, hx'⟩ := hns
  have hx1 : ¬ x ≤ (d.day : ℤ) ∧ x ≤ (d'.day : ℤ) := by
    omega
  have k1 := (e x hx).not.mp hx1.1
  have k2 := (e' x hx).mp hx1.2
  omega

example := label_order [1, 11, 21, 32] ⟨by decide, by decide, by decide, 32, by decide, by decide⟩ false ⟨2023, 2, 5⟩ ⟨2023, 2, 25⟩
  (by simp [validDate, monthLength, isLeap]) (by simp [validDate, monthLength, isLeap]) (by simp [dateLt]) ⟨2023, 2, 10⟩ ⟨2023, 2, 28⟩ (by decide +kernel) (by decide +kernel)

theorem Date.le_trans' (a b c : Date) (h : Date.le a b) (h' : Date.le b c) : Date.le a c := by
  unfold Date.le at *; omega

theorem Date.le_total' (a b : Date) : Date.le a b ∨ Date.le b a := by
  unfold Date.le; omega

instance : Std.Total Date.le := ⟨Date.le_total'⟩
instance : IsTrans Date Date.le := ⟨Date.le_trans'⟩

theorem dateLt_of_le {a b : Date} (hle : Date.le a b) (hne : a ≠ b) : dateLt a b := by
  obtain ⟨a1, a2, a3⟩ := a
  obtain ⟨b1, b2, b3⟩ := b
  unfold Date.le at hle
  unfold dateLt
  simp only [ne_eq, Date.mk.injEq] at *
  omega

theorem zip_filter_label {V : Type} (lab : Date → Except Err Date) (g : Date × V → Date) (k : Date) (l : List (Date × V))
    (h : ∀ r ∈ l, lab r.1 = .ok (g r)) :
    (((l.map g).zip l).filter (fun p => decide (p.1 = k))).map (fun p => p.2.2) =
      (l.filter (fun r => decide ((lab r.1).toOption = some k))).map Prod.snd := by
  induction l with
  | nil => simp
  | cons r l ih =>
    have hr := h r (by simp)
    rw [List.map_cons, List.zip_cons_cons]
    have hto : (lab r.1).toOption = some (g r) := by rw [hr]; rfl
    by_cases hk : g r = k
    · rw [List.filter_cons_of_pos (by simpa using hk), List.filter_cons_of_pos (by rw [hto]; simpa using hk),
        List.map_cons, List.map_cons, ih (fun x hx => h x (by simp [hx]))]
    · rw [List.filter_cons_of_neg (by simpa using hk), List.filter_cons_of_neg (by rw [hto]; simpa using hk),
        ih (fun x hx => h x (by simp [hx]))]

theorem groupByDayBin_eq {V : Type} (bins : List ℤ) (start : Bool) (rows : List (Date × V)) (g : Date × V → Date)
    (hg : ∀ r ∈ rows, label bins start r.1 = .ok (g r)) :
    groupByDayBin bins start rows = .ok (((rows.map g).dedup.insertionSort Date.le).map (fun k => (k,
      (rows.filter (fun r => decide ((label bins start r.1).toOption = some k))).map Prod.snd))) := by
  unfold groupByDayBin
  have hm : rows.mapM (fun r : Date × V => label bins start r.1) = .ok (rows.map g) := mapM_except_map g rows hg
  rw [hm]
  simp only [bind, Except.bind, Except.ok.injEq]
  apply List.map_congr_left
  intro k _
  rw [zip_filter_label (label bins start) g k rows hg]

/-- **C26.** Every observation is in exactly one group: for every row, its label is the only key whose group contains the row, and
groups keep the values. The keys are strictly increasing. -/
theorem group_by_day_bin_partition {V : Type} (bins : List ℤ) (hb : coveringBins bins) (start : Bool) (rows : List (Date × V))
    (hv : ∀ r ∈ rows, validDate r.1) :
    ∃ gs, groupByDayBin bins start rows = .ok gs ∧ (gs.map Prod.fst).Pairwise dateLt ∧
      (∀ k, k ∈ gs.map Prod.fst ↔ ∃ r ∈ rows, label bins start r.1 = .ok k) ∧
      ∀ k vs, (k, vs) ∈ gs →
        vs = (rows.filter (fun r => decide ((label bins start r.1).toOption = some k))).map Prod.snd := by
  have hlab : ∀ r ∈ rows, ∃ L, label bins start r.1 = .ok L := fun r hr => by
    obtain ⟨L, h, -⟩ := covering_label hb start r.1 (hv r hr); exact ⟨L, h⟩
  obtain ⟨g, hg⟩ : ∃ g : Date × V → Date, ∀ r ∈ rows, label bins start r.1 = .ok (g r) := by
    refine ⟨fun r => ((label bins start r.1).toOption).getD r.1, ?_⟩
    intro r hr
    obtain ⟨L, h⟩ := hlab r hr
    simp only [h]; rfl
  have hres := groupByDayBin_eq bins start rows g hg
  have hnd : ((rows.map g).dedup.insertionSort Date.le).Nodup :=
    (List.perm_insertionSort _ _).nodup_iff.mpr (List.nodup_dedup _)
  have hkeys : ∀ (f : Date → List V), (((rows.map g).dedup.insertionSort Date.le).map (fun k => (k, f k))).map Prod.fst =
      (rows.map g).dedup.insertionSort Date.le := by
    intro f; rw [List.map_map]; simp [Function.comp_def]
  refine ⟨_, hres, ?_, ?_, ?_⟩
  · rw [hkeys]
    have hs := List.pairwise_insertionSort Date.le (rows.map g).dedup
    have h2 := hs.and (List.nodup_iff_pairwise_ne.mp hnd)
    exact h2.imp (fun h => dateLt_of_le h.1 h.2)
  · intro k
    rw [hkeys, List.mem_insertionSort, List.mem_dedup, List.mem_map]
    constructor
    · rintro ⟨r, hr, rfl⟩; exact ⟨r, hr, hg r hr⟩
    · rintro ⟨r, hr, h⟩
      refine ⟨r, hr, ?_⟩
      rw [hg r hr] at h; exact Except.ok.inj h
  · intro k vs hk
    obtain ⟨k', -, heq⟩ := List.mem_map.mp hk
    obtain ⟨h1, h2⟩ := Prod.mk.inj heq
    rw [← h2, h1]

example : coveringBins [1, 11, 21, 32] ∧
    (groupByDayBin [1, 11, 21, 32] false [(⟨2023, 2, 25⟩, 1), (⟨2023, 2, 3⟩, 2), (⟨2023, 2, 28⟩, 3), (⟨2023, 3, 3⟩, 4)]).toOption =
      some [(⟨2023, 2, 10⟩, [2]), (⟨2023, 2, 28⟩, [1, 3]), (⟨2023, 3, 10⟩, [4])] := by
  refine ⟨⟨by decide, by decide, by decide, 32, by decide, by decide⟩, by decide +kernel⟩

/-- **C26.** `grouped_dates_between` gives the labels of the days between start and end, each once, in increasing order. -/
theorem grouped_dates_between_correct (bins : List ℤ) (hb : coveringBins bins) (start : Bool) (daily : List Date)
    (hv : ∀ d ∈ daily, validDate d) :
    ∃ ls, groupedDatesBetween bins start daily = .ok ls ∧ ls.Pairwise dateLt ∧
      ∀ k, k ∈ ls ↔ ∃ d ∈ daily, label bins start d = .ok k := by
  obtain ⟨gs, h1, h3, h4, -⟩ := group_by_day_bin_partition bins hb start (daily.map (fun d => (d, ())))
    (by simpa using hv)
  refine ⟨gs.map Prod.fst, ?_, h3, ?_⟩
  · unfold groupedDatesBetween
    rw [h1]
    rfl
  · intro k
    rw [h4]
    simp

example := grouped_dates_between_correct [1, 11, 21, 32] ⟨by decide, by decide, by decide, 32, by decide, by decide⟩ false
  [⟨2023, 2, 5⟩, ⟨2023, 2, 6⟩, ⟨2023, 3, 1⟩] (by simp [validDate, monthLength, isLeap])

/-- **C26, errors.** A day from the last bin edge on has no end label: IndexError. -/
theorem label_end_raises (bins : List ℤ) (d : Date) (h : ∀ b ∈ bins, b ≤ (d.day : ℤ)) :
    label bins false d = .error .indexError := by
  have hg : digitize bins d.day = bins.length := by
    unfold digitize
    rw [List.countP_eq_length]
    simpa using h
  unfold label binAt
  rw [hg]
  have : ¬ ((bins.length : ℤ) < 0) := by omega
  simp [this, bind, Except.bind]

/-- **C26, finding.** The bins `[0, 11, 21]` of the documentation raise: for the first bin with `start=True` (there is no day 0), for
the days from 21 on otherwise. -/
theorem documented_bins_raise : (∀ d : Date, d.day ≤ 10 → label [0, 11, 21] true d = .error .valueError) ∧
    (∀ d : Date, 21 ≤ d.day → label [0, 11, 21] false d = .error .indexError) := by
  constructor
  · intro d hd
    have hg : digitize [0, 11, 21] d.day = 1 := by
      unfold digitize
      have h1 : ¬ ((11 : ℤ) ≤ d.day) := by omega
      have h2 : ¬ ((21 : ℤ) ≤ d.day) := by omega
      simp [h1, h2]
    unfold label
    rw [hg]
    simp only [binAt, bind, Except.bind]
    norm_num
    unfold mkDate
    rw [if_neg]
    intro hc
    have := hc.1
    omega
  · intro d hd
    apply label_end_raises
    intro b hb
    simp only [List.mem_cons, List.not_mem_nil, or_false] at hb
    omega

/-- **C26, finding.** With `start=True`, days before the first bin are labelled with the start of the *last* bin (index `-1`) and so
share the group of the days of that bin. -/
theorem label_before_first_bin_wraps :
    (label [5, 15] true ⟨2020, 1, 2⟩).toOption = some ⟨2020, 1, 15⟩ ∧ (label [5, 15] true ⟨2020, 1, 20⟩).toOption = some ⟨2020, 1, 15⟩ ∧
    ¬ sameBin [5, 15] 2 20 := by
  refine ⟨by decide +kernel, by decide +kernel, ?_⟩
  intro h
  have := h 5 (by simp)
  simp at this

/-! ### C42: metrics on subsets -/

theorem genname_tuple_inj {nonSeas : List String} {s s' m m' : String} (hm : m ∉ nonSeas)
    (h : genname .tuple nonSeas s m = genname .tuple nonSeas s' m') : s = s' ∧ m = m' := by
  unfold genname at h
  rw [if_neg (by simpa using hm)] at h
  split_ifs at h
  simpa using h

/-- **C42.** With `group_results='tuple'`, the entry `(set, metric)` is the metric the wrapped calculator gives for exactly the rows of
the subset, for every named subset and every metric that depends on the data. -/
theorem subset_metrics_correct {R V : Type} (nonSeas : List String) (template : List (String × V))
    (subsets : List (String × Distributor)) (hn : (subsets.map Prod.fst).Nodup)
    (metrics : List (Stamp × R) → List (String × V)) (hmet : ∀ d, ((metrics d).map Prod.fst).Nodup) (data : List (Stamp × R))
    (s : String) (D : Distributor) (hs : (s, D) ∈ subsets) (m : String) (v : V) (hm : m ∉ nonSeas)
    (hv : (m, v) ∈ metrics (data.filter (fun r => selected D (data.map Prod.fst) r.1))) :
    lookup (subsetMetrics .tuple nonSeas template subsets metrics data) (.pair s m) = some v := by
  rw [subsetMetrics_eq]
  have hgen : genname .tuple nonSeas s m = .pair s m := by
    unfold genname; rw [if_neg (by simpa using hm)]
  apply lookup_putAll
  · rw [List.mem_flatMap]
    exact ⟨(s, D), hs, List.mem_map.mpr ⟨(m, v), hv, by simp [hgen]⟩⟩
  · rintro ⟨k, w⟩ he hk
    rw [List.mem_flatMap] at he
    obtain ⟨⟨s', D'⟩, hs', he⟩ := he
    obtain ⟨⟨m', v'⟩, hm', heq⟩ := List.mem_map.mp he
    simp only [Prod.mk.injEq] at heq
    obtain ⟨rfl, rfl⟩ := heq
    simp only at hk
    rw [← hgen] at hk
    obtain ⟨rfl, rfl⟩ := genname_tuple_inj hm hk.symm
    have hD : D' = D := (Prod.mk.inj (List.inj_on_of_nodup_map hn hs' hs rfl)).2
    subst hD
    exact (Prod.mk.inj (List.inj_on_of_nodup_map (hmet _) hm' hv rfl)).2

example : lookup (subsetMetrics .tuple ["gpi"] [("n", 0), ("gpi", 0)] [("S", monthsDistributor [6, 7, 8]), ("W", monthsDistributor [12, 1, 2])]
    (fun d => [("n", d.length), ("gpi", 7)]) [(⟨2020, 7, 1, 0⟩, ()), (⟨2020, 1, 1, 0⟩, ())]) (.pair "W" "n") = some 1 :=
  subset_metrics_correct _ _ _ (by decide) _ (fun d => by simp) _ "W" (monthsDistributor [12, 1, 2]) (by simp) "n" 1 (by decide)
    (by decide +kernel)

theorem join_inj {s s' m m' : String} (hs : '|' ∉ s.toList) (hs' : '|' ∉ s'.toList)
    (h : s ++ "|" ++ m = s' ++ "|" ++ m') : s = s' ∧ m = m' := by
  have h1 : s.toList ++ '|' :: m.toList = s'.toList ++ '|' :: m'.toList := by
    have := congrArg String.toList h
    simpa using this
  have key : ∀ (a b c d : List Char), '|' ∉ a → '|' ∉ b → a ++ '|' :: c = b ++ '|' :: d → a = b ∧ c = d := by
    intro a
    induction a with
    | nil =>
      intro b c d _ hb h
      cases b with
      | nil => simpa using h
      | cons x b =>
        simp only [List.nil_append, List.cons_append, List.cons.injEq] at h
        exact absurd (by rw [h.1]; simp) hb
    | cons x a ih =>
      intro b c d ha hb h
      cases b with
      | nil =>
        simp only [List.nil_append, List.cons_append, List.cons.injEq] at h
        exact absurd (by rw [h.1]; simp) ha
      | cons y b =>
        simp only [List.cons_append, List.cons.injEq] at h
        obtain ⟨h2, h3⟩ := ih b c d (fun hc => ha (by simp [hc])) (fun hc => hb (by simp [hc])) h.2
        exact ⟨by rw [h.1, h2], h3⟩
  obtain ⟨h2, h3⟩ := key _ _ _ _ hs hs' h1
  exact ⟨String.toList_injective h2, String.toList_injective h3⟩

/-- **C42.** The same with `group_results='join'`, if no subset name and no metadata name contains `|`. -/
theorem subset_metrics_join_correct {R V : Type} (nonSeas : List String) (template : List (String × V))
    (subsets : List (String × Distributor)) (hn : (subsets.map Prod.fst).Nodup)
    (hbar : ∀ s ∈ subsets, '|' ∉ s.1.toList) (hbar' : ∀ n ∈ nonSeas, '|' ∉ n.toList)
    (metrics : List (Stamp × R) → List (String × V)) (hmet : ∀ d, ((metrics d).map Prod.fst).Nodup) (data : List (Stamp × R))
    (s : String) (D : Distributor) (hs : (s, D) ∈ subsets) (m : String) (v : V) (hm : m ∉ nonSeas)
    (hv : (m, v) ∈ metrics (data.filter (fun r => selected D (data.map Prod.fst) r.1))) :
    lookup (subsetMetrics .join nonSeas template subsets metrics data) (.plain (s ++ "|" ++ m)) = some v := by
  rw [subsetMetrics_eq]
  have hgen : genname .join nonSeas s m = .plain (s ++ "|" ++ m) := by
    unfold genname; rw [if_neg (by simpa using hm)]
  apply lookup_putAll
  · rw [List.mem_flatMap]
    exact ⟨(s, D), hs, List.mem_map.mpr ⟨(m, v), hv, by simp [hgen]⟩⟩
  · rintro ⟨k, w⟩ he hk
    rw [List.mem_flatMap] at he
    obtain ⟨⟨s', D'⟩, hs', he⟩ := he
    obtain ⟨⟨m', v'⟩, hm', heq⟩ := List.mem_map.mp he
    simp only [Prod.mk.injEq] at heq
    obtain ⟨rfl, rfl⟩ := heq
    simp only at hk
    unfold genname at hk
    split_ifs at hk with hc
    · have h1 := hbar' m' (by simpa using hc)
      rw [Key.plain.inj hk] at h1
      simp at h1
    · obtain ⟨rfl, rfl⟩ := join_inj (hbar _ hs') (hbar _ hs) (Key.plain.inj hk)
      have hD : D' = D := (Prod.mk.inj (List.inj_on_of_nodup_map hn hs' hs rfl)).2
      subst hD
      exact (Prod.mk.inj (List.inj_on_of_nodup_map (hmet _) hm' hv rfl)).2

example : lookup (subsetMetrics .join ["gpi"] [("n", 0), ("gpi", 0)] [("S", monthsDistributor [6, 7, 8]), ("W", monthsDistributor [12, 1, 2])]
    (fun d => [("n", d.length), ("gpi", 7)]) [(⟨2020, 7, 1, 0⟩, ()), (⟨2020, 1, 1, 0⟩, ())]) (.plain ("S" ++ "|" ++ "n")) = some 1 :=
  subset_metrics_join_correct _ _ _ (by decide) (by decide) (by decide) _ (fun d => by simp) _ "S" (monthsDistributor [6, 7, 8]) (by simp) "n" 1
    (by decide) (by decide +kernel)

/-- **C42.** Location and metadata entries have their plain names and the value of the last subset. -/
theorem subset_metrics_plain {R V : Type} (nonSeas : List String) (template : List (String × V))
    (subsets : List (String × Distributor)) (s : String) (D : Distributor)
    (metrics : List (Stamp × R) → List (String × V)) (hmet : ∀ d, ((metrics d).map Prod.fst).Nodup) (data : List (Stamp × R))
    (m : String) (v : V) (hm : m ∈ nonSeas) (hv : (m, v) ∈ metrics (data.filter (fun r => selected D (data.map Prod.fst) r.1))) :
    lookup (subsetMetrics .tuple nonSeas template (subsets ++ [(s, D)]) metrics data) (.plain m) = some v := by
  rw [subsetMetrics_eq, List.flatMap_append]
  apply lookup_putAll_last
  · simp only [List.flatMap_cons, List.flatMap_nil, List.append_nil]
    exact List.mem_map.mpr ⟨(m, v), hv, by simp [genname, hm]⟩
  · rintro ⟨k, w⟩ he hk
    simp only [List.flatMap_cons, List.flatMap_nil, List.append_nil] at he
    obtain ⟨⟨m', v'⟩, hm', heq⟩ := List.mem_map.mp he
    simp only [Prod.mk.injEq] at heq
    obtain ⟨rfl, rfl⟩ := heq
    simp only at hk
    unfold genname at hk
    split_ifs at hk
    obtain rfl := Key.plain.inj hk
    exact (Prod.mk.inj (List.inj_on_of_nodup_map (hmet _) hm' hv rfl)).2

example : lookup (subsetMetrics .tuple ["gpi"] [("n", 0), ("gpi", 0)] ([("S", monthsDistributor [6, 7, 8])] ++ [("W", monthsDistributor [12, 1, 2])])
    (fun d => [("n", d.length), ("gpi", 7)]) [(⟨2020, 7, 1, 0⟩, ()), (⟨2020, 1, 1, 0⟩, ())]) (.plain "gpi") = some 7 :=
  subset_metrics_plain _ _ _ _ _ _ (fun d => by simp) _ "gpi" 7 (by decide) (by decide)

theorem subsetTemplate_eq {V : Type} (mode : Mode) (nonSeas subsets : List String) (template : List (String × V)) :
    subsetTemplate mode nonSeas subsets template =
      putAll [] (subsets.flatMap (fun s => template.map (fun m => (genname mode nonSeas s m.1, m.2)))) := by
  unfold subsetTemplate
  generalize ([] : List (Key × V)) = d
  induction subsets generalizing d with
  | nil => rfl
  | cons s ss ih =>
    rw [List.foldl_cons, ih, List.flatMap_cons]
    unfold putAll
    rw [List.foldl_append, List.foldl_map]

/-- **C42.** A metric of the template that the calculator does not give for a subset has its template value. -/
theorem subset_metrics_template {R V : Type} (nonSeas : List String) (template : List (String × V))
    (htn : (template.map Prod.fst).Nodup) (subsets : List (String × Distributor)) (hn : (subsets.map Prod.fst).Nodup)
    (metrics : List (Stamp × R) → List (String × V)) (data : List (Stamp × R)) (s : String) (D : Distributor)
    (hs : (s, D) ∈ subsets) (m : String) (v : V) (hm : m ∉ nonSeas) (hv : (m, v) ∈ template)
    (hno : m ∉ (metrics (data.filter (fun r => selected D (data.map Prod.fst) r.1))).map Prod.fst) :
    lookup (subsetMetrics .tuple nonSeas template subsets metrics data) (.pair s m) = some v := by
  have hgen : genname .tuple nonSeas s m = .pair s m := by
    unfold genname; rw [if_neg (by simpa using hm)]
  rw [subsetMetrics_eq, lookup_putAll_notMem, subsetTemplate_eq]
  · apply lookup_putAll
    · rw [List.mem_flatMap]
      exact ⟨s, List.mem_map.mpr ⟨(s, D), hs, rfl⟩, List.mem_map.mpr ⟨(m, v), hv, by simp [hgen]⟩⟩
    · rintro ⟨k, w⟩ he hk
      rw [List.mem_flatMap] at he
      obtain ⟨s', hs', he⟩ := he
      obtain ⟨⟨m', v'⟩, hm', heq⟩ := List.mem_map.mp he
      simp only [Prod.mk.injEq] at heq
      obtain ⟨rfl, rfl⟩ := heq
      simp only at hk
      rw [← hgen] at hk
      obtain ⟨rfl, rfl⟩ := genname_tuple_inj hm hk.symm
      exact (Prod.mk.inj (List.inj_on_of_nodup_map htn hm' hv rfl)).2
  · rintro ⟨k, w⟩ he hk
    rw [List.mem_flatMap] at he
    obtain ⟨⟨s', D'⟩, hs', he⟩ := he
    obtain ⟨⟨m', v'⟩, hm', heq⟩ := List.mem_map.mp he
    simp only [Prod.mk.injEq] at heq
    obtain ⟨rfl, rfl⟩ := heq
    simp only at hk
    rw [← hgen] at hk
    obtain ⟨rfl, rfl⟩ := genname_tuple_inj hm hk.symm
    have hD : D' = D := (Prod.mk.inj (List.inj_on_of_nodup_map hn hs' hs rfl)).2
    subst hD
    exact hno (List.mem_map.mpr ⟨_, hm', rfl⟩)

/-- a calculator that returns no field "R" -/
example : lookup (subsetMetrics .tuple ["gpi"] [("R", 0), ("gpi", 0)] [("W", monthsDistributor [12, 1, 2])]
    (fun _ => [("gpi", 7)]) [(⟨2020, 7, 1, 0⟩, ()), (⟨2020, 1, 1, 0⟩, ())]) (.pair "W" "R") = some 0 :=
  subset_metrics_template _ _ (by decide) _ (by decide) _ _ "W" (monthsDistributor [12, 1, 2]) (by simp) "R" 0 (by decide) (by decide) (by decide)

/-- two subsets, the calculator counts rows -/
example : (fun r => (lookup r (.pair "S" "n"), lookup r (.pair "W" "n"), lookup r (.plain "gpi")))
    (subsetMetrics .tuple ["gpi"] [("n", 0), ("gpi", 0)]
      [("S", monthsDistributor [6, 7, 8]), ("W", monthsDistributor [12, 1, 2])]
      (fun d => [("n", d.length), ("gpi", 7)])
      [(⟨2020, 7, 1, 0⟩, ()), (⟨2020, 1, 1, 0⟩, ()), (⟨2020, 8, 31, 0⟩, ()), (⟨2020, 4, 1, 0⟩, ())]) = (some 2, some 1, some 7) := by
  decide +kernel

/-- **C42.** A month subset has exactly the rows of those months, in every year (for time stamps to the second). -/
theorem months_rows {R : Type} (months : List ℕ) (hm : ∀ m ∈ months, 1 ≤ m ∧ m ≤ 12) (data : List (Stamp × R))
    (hv : ∀ r ∈ data, validStamp r.1 ∧ r.1.pos.ns % 1000000000 = 0) :
    select (monthsDistributor months) data = data.filter (fun r => decide (r.1.pos.month ∈ months)) := by
  unfold select
  apply List.filter_congr
  intro r hr
  rw [Bool.eq_iff_iff]
  unfold monthsDistributor
  rw [yearless_ranges_within_year (months.map (fun m => (⟨m, 1, 0⟩, ⟨m, daysInMonth m, 86399000000000⟩))) (data.map Prod.fst)]
  · have h := hv r hr
    obtain ⟨⟨h1, h2, h3, h4, h5⟩, h6⟩ := h
    have h7 := le_trans h4 (monthLength_mono _ _)
    simp only [List.mem_map, decide_eq_true_eq]
    constructor
    · rintro ⟨g, ⟨m, hmm, rfl⟩, ha, hb⟩
      have : r.1.pos.month = m := by
        unfold posLe at ha hb; simp only at ha hb; omega
      rw [this]; exact hmm
    · intro hmm
      refine ⟨(⟨r.1.pos.month, 1, 0⟩, ⟨r.1.pos.month, daysInMonth r.1.pos.month, 86399000000000⟩), ⟨r.1.pos.month, hmm, rfl⟩, ?_, ?_⟩
      · refine .inr ⟨rfl, ?_⟩; simp only; omega
      · rw [daysInMonth_eq]; refine .inr ⟨rfl, ?_⟩; simp only; omega
  · intro g hg
    obtain ⟨m, hmm, rfl⟩ := List.mem_map.mp hg
    exact validPos_month (hm m hmm).1 (hm m hmm).2
  · intro g hg
    obtain ⟨m, hmm, rfl⟩ := List.mem_map.mp hg
    have h := validPos_month (hm m hmm).1 (hm m hmm).2
    refine .inr ⟨rfl, ?_⟩
    have := h.2.2.2.1
    simp only at this ⊢
    omega
  · intro g hg hc
    obtain ⟨m, hmm, rfl⟩ := List.mem_map.mp hg
    have := hc.1.2
    simp at this
  · intro t ht
    obtain ⟨r', hr', rfl⟩ := List.mem_map.mp ht
    exact (hv r' hr').1
  · exact List.mem_map.mpr ⟨r, hr, rfl⟩
  · intro _ _ _
    exact (hv r hr).2

/-- **C42, finding.** A time stamp in the last second of a month, with a fraction, is in no month subset. -/
theorem months_last_second_missed : ∃ t : Stamp, validStamp t ∧
    selected (monthsDistributor [1, 2, 3, 4, 5, 6, 7, 8, 9, 10, 11, 12]) [t] t = false := by
  refine ⟨⟨2020, 6, 30, 86399500000000⟩, ?_, by decide +kernel⟩
  simp [validStamp, monthLength]

end Verif.Grouping
