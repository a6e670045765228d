import Verif.Grouping.Props

/-! C25: yearless ranges inside 29 February (`src/pytesmo/time_series/grouping.py:366-391`), exactly as the code treats them. -/

namespace Verif.Grouping

open Climatology (isLeap monthLength)

theorem mem_assign {β : Type} (d : List (ℕ × β)) (k : ℕ) (v : β) (e : ℕ × β) : e ∈ assign d k v ↔ e = (k, v) ∨ (e ∈ d ∧ e.1 ≠ k) := by
  unfold assign
  by_cases h : d.any (fun e => decide (e.1 = k)) = true
  · rw [if_pos h]
    obtain ⟨a, ha, hk⟩ := List.any_eq_true.mp h
    have hk : a.1 = k := by simpa using hk
    rw [List.mem_map]
    constructor
    · rintro ⟨b, hb, rfl⟩
      by_cases hbk : b.1 = k
      · rw [if_pos hbk]; exact .inl rfl
      · rw [if_neg hbk]; exact .inr ⟨hb, hbk⟩
    · rintro (rfl | ⟨he, hne⟩)
      · exact ⟨a, ha, by rw [if_pos hk]⟩
      · exact ⟨e, he, by rw [if_neg hne]⟩
  · rw [if_neg h, List.mem_append, List.mem_singleton]
    constructor
    · rintro (he | he)
      · exact .inr ⟨he, fun hc => h (List.any_eq_true.mpr ⟨e, he, by simpa using hc⟩)⟩
      · exact .inl he
    · rintro (he | ⟨he, -⟩)
      · exact .inr he
      · exact .inl he

/-- **C25.** The column of a year is the one of the last year that writes to it. -/
theorem columns_last (g : Pos × Pos) (years : List ℕ) (e : ℕ × Stamp × Stamp) :
    e ∈ rangeColumns g years ↔ ∃ pre y post, years = pre ++ y :: post ∧ e = rangeColumn g y ∧ ∀ z ∈ post, (rangeColumn g z).1 ≠ e.1 := by
  induction years using List.reverseRecOn generalizing e with
  | nil => simp [rangeColumns]
  | append_singleton ys y ih =>
    have hstep : rangeColumns g (ys ++ [y]) = assign (rangeColumns g ys) (rangeColumn g y).1 (rangeColumn g y).2 := by
      unfold rangeColumns
      rw [List.foldl_append]
      rfl
    rw [hstep, mem_assign, ih]
    constructor
    · rintro (rfl | ⟨⟨pre, z, post, rfl, rfl, hp⟩, hne⟩)
      · exact ⟨ys, y, [], rfl, rfl, by simp⟩
      · refine ⟨pre, z, post ++ [y], by simp, rfl, ?_⟩
        intro w hw
        rcases List.mem_append.mp hw with hw | hw
        · exact hp w hw
        · rw [List.mem_singleton.mp hw]; exact hne.symm
    · rintro ⟨pre, z, post, heq, rfl, hp⟩
      rcases List.eq_nil_or_concat post with rfl | ⟨post', w, rfl⟩
      · left
        have := List.append_inj' heq rfl
        have : y = z := by simpa using this.2
        rw [this]
      · right
        rw [List.concat_eq_append, ← List.cons_append, ← List.append_assoc] at heq
        obtain ⟨e1, e2⟩ := List.append_inj' heq rfl
        have e2 : y = w := by simpa using e2
        subst e2
        refine ⟨⟨pre, z, post', e1, rfl, fun v hv => hp v (by simp [hv])⟩, fun hc => hp y (by simp) hc.symm⟩

theorem uniqueYears_increasing (idx : List Stamp) : (uniqueYears idx).Pairwise (· < ·) := by
  have h1 : (uniqueYears idx).Pairwise (· ≤ ·) := List.pairwise_insertionSort _ _
  exact (h1.and (uniqueYears_nodup idx)).imp (fun h => lt_of_le_of_ne h.1 h.2)

theorem columns_years (g : Pos × Pos) (idx : List Stamp) (e : ℕ × Stamp × Stamp) :
    e ∈ rangeColumns g (uniqueYears idx) ↔
      ∃ y, (∃ u ∈ idx, u.year = y) ∧ e = rangeColumn g y ∧ ∀ z, (∃ u ∈ idx, u.year = z) → y < z → (rangeColumn g z).1 ≠ e.1 := by
  rw [columns_last]
  have hs := uniqueYears_increasing idx
  constructor
  · rintro ⟨pre, y, post, heq, he, hp⟩
    refine ⟨y, (mem_uniqueYears idx y).mp (by rw [heq]; simp), he, ?_⟩
    intro z hz hyz
    rw [← mem_uniqueYears, heq, List.mem_append, List.mem_cons] at hz
    rw [heq, List.pairwise_append] at hs
    rcases hz with hz | rfl | hz
    · exact absurd (hs.2.2 z hz y (by simp)) (by omega)
    · omega
    · exact hp z hz
  · rintro ⟨y, hy, he, hp⟩
    obtain ⟨pre, post, heq⟩ := List.append_of_mem ((mem_uniqueYears idx y).mpr hy)
    refine ⟨pre, y, post, heq, he, ?_⟩
    intro z hz
    rw [heq, List.pairwise_append, List.pairwise_cons] at hs
    exact hp z ((mem_uniqueYears idx z).mp (by rw [heq]; simp [hz])) (hs.2.1.1 z hz)

/-- the column of a range inside 29 February -/
theorem rangeColumn_leapDay {g : Pos × Pos} (h1 : validPos g.1) (h2 : validPos g.2) (d1 : leapDay g.1) (d2 : leapDay g.2) (hle : posLe g.1 g.2) (y : ℕ) :
    rangeColumn g y = if isLeap y then (y, ⟨y, g.1⟩, ⟨y, g.2⟩)
      else (y + 1, ⟨y, ⟨3, 1, 0⟩⟩, ⟨y + 1, if isLeap (y + 1) then g.2 else ⟨2, 28, 86399000000000⟩⟩) := by
  have e1 := (isLeapDay_iff g.1).mpr d1
  have e2 := (isLeapDay_iff g.2).mpr d2
  have hk := (key_le_iff h1 h2).mpr hle
  have hk3 : g.2.key < (⟨3, 1, 0⟩ : Pos).key := by
    obtain ⟨-, -, -, -, hn⟩ := h2
    unfold Pos.key dayNs
    rw [d2.1, d2.2]
    simp only
    omega
  unfold rangeColumn
  rw [e1, e2]
  cases hy : isLeap y
  · cases h' : isLeap (y + 1) <;> simp [hk3, h']
  · simp [hy, Nat.not_lt.mpr hk]

/-- **C25.** A range inside 29 February, exactly as the code treats it: in leap years it selects what it should; from March on it selects everything in ordinary
years, unless the next year is a leap year with data; and everything before March in ordinary years if the previous year is an ordinary year with data. -/
theorem leap_day_range_exact (g : Pos × Pos) (idx : List Stamp) (h1 : validPos g.1) (h2 : validPos g.2) (d1 : leapDay g.1) (d2 : leapDay g.2)
    (hle : posLe g.1 g.2) (hv : ∀ t ∈ idx, validStamp t) (t : Stamp) (ht : t ∈ idx) (hsec : t.pos.ns % 1000000000 = 0) :
    selected ⟨none, none, none, some [g]⟩ idx t = true ↔
      (isLeap t.year = true ∧ posLe g.1 t.pos ∧ posLe t.pos g.2) ∨
      (isLeap t.year = false ∧ 3 ≤ t.pos.month ∧ ¬ (isLeap (t.year + 1) = true ∧ ∃ u ∈ idx, u.year = t.year + 1)) ∨
      (isLeap t.year = false ∧ t.pos.month ≤ 2 ∧ ∃ u ∈ idx, u.year + 1 = t.year ∧ isLeap u.year = false) := by
  have hcol := rangeColumn_leapDay h1 h2 d1 d2 hle
  have htv := hv t ht
  have hname : ∀ y, (rangeColumn g y).1 = if isLeap y then y else y + 1 := by
    intro y; rw [hcol]; split_ifs <;> rfl
  have key3 : (⟨3, 1, 0⟩ : Pos).key ≤ t.pos.key ↔ 3 ≤ t.pos.month := by
    obtain ⟨a1, a2, a3, a4, a5⟩ := htv
    have := le_trans a4 (monthLength_le _ _)
    unfold Pos.key dayNs
    simp only
    omega
  have key28 : isLeap t.year = false → (t.pos.key ≤ (⟨2, 28, 86399000000000⟩ : Pos).key ↔ t.pos.month ≤ 2) := by
    intro hy
    obtain ⟨a1, a2, a3, a4, a5⟩ := htv
    rw [hy] at a4
    have h28 : t.pos.month = 2 → t.pos.day ≤ 28 := by
      intro h; rw [h] at a4; simpa [monthLength] using a4
    have := le_trans a4 (monthLength_le _ _)
    unfold Pos.key dayNs
    simp only
    omega
  have hsel : selected ⟨none, none, none, some [g]⟩ idx t = true ↔
      ∃ e ∈ rangeColumns g (uniqueYears idx), e.2.1.le t = true ∧ t.le e.2.2 = true := by
    unfold selected
    simp
  rw [hsel]
  constructor
  · rintro ⟨e, he, hs, hn⟩
    obtain ⟨y, ⟨u, hu, huy⟩, rfl, hlast⟩ := (columns_years g idx e).mp he
    rw [hname] at hlast
    rw [hcol] at hs hn
    by_cases hy : isLeap y = true
    · rw [if_pos hy] at hs hn
      unfold Stamp.le at hs hn
      simp only [Bool.or_eq_true, Bool.and_eq_true, decide_eq_true_eq] at hs hn
      have hty : t.year = y := by omega
      refine .inl ⟨by rw [hty]; exact hy, ?_, ?_⟩
      · rw [← key_le_iff h1 htv.pos]; omega
      · rw [← key_le_iff htv.pos h2]; omega
    · rw [if_neg hy] at hs hn hlast
      have hy : isLeap y = false := by simpa using hy
      unfold Stamp.le at hs hn
      simp only [Bool.or_eq_true, Bool.and_eq_true, decide_eq_true_eq] at hs hn
      have hnext : ¬ (isLeap (y + 1) = true ∧ ∃ u ∈ idx, u.year = y + 1) := by
        rintro ⟨hl, hu'⟩
        have := hlast (y + 1) hu' (by omega)
        rw [hname, if_pos hl] at this
        exact this rfl
      rcases Nat.lt_trichotomy t.year (y + 1) with h | h | h
      · have hty : t.year = y := by omega
        refine .inr (.inl ⟨by rw [hty]; exact hy, key3.mp ?_, by rw [hty]; exact hnext⟩)
        omega
      · have hl : isLeap t.year = false := by
          rw [h]
          by_contra hc
          exact hnext ⟨by simpa using hc, t, ht, h⟩
        refine .inr (.inr ⟨hl, (key28 hl).mp ?_, u, hu, by omega, by rw [huy]; exact hy⟩)
        rw [← h, hl] at hn
        simp only [Bool.false_eq_true, if_false] at hn
        omega
      · omega
  · rintro (⟨hy, ha, hb⟩ | ⟨hy, hm, hnext⟩ | ⟨hy, hm, u, hu, huy, hul⟩)
    · refine ⟨rangeColumn g t.year, (columns_years g idx _).mpr ⟨t.year, ⟨t, ht, rfl⟩, rfl, ?_⟩, ?_⟩
      · intro z _ hz
        rw [hname, hname, if_pos hy]
        split_ifs <;> omega
      · rw [hcol, if_pos hy]
        unfold Stamp.le
        rw [← key_le_iff h1 htv.pos] at ha
        rw [← key_le_iff htv.pos h2] at hb
        simp [ha, hb]
    · have hy' : ¬ isLeap t.year = true := by simp [hy]
      refine ⟨rangeColumn g t.year, (columns_years g idx _).mpr ⟨t.year, ⟨t, ht, rfl⟩, rfl, ?_⟩, ?_⟩
      · intro z hz hlt
        rw [hname, hname, if_neg hy']
        split_ifs with hzl
        · intro hc
          exact hnext ⟨by rw [← hc]; exact hzl, by rw [← hc]; exact hz⟩
        · omega
      · rw [hcol, if_neg hy']
        unfold Stamp.le
        simp [key3.mpr hm]
    · have hul' : ¬ isLeap u.year = true := by simp [hul]
      refine ⟨rangeColumn g u.year, (columns_years g idx _).mpr ⟨u.year, ⟨u, hu, rfl⟩, rfl, ?_⟩, ?_⟩
      · intro z hz hlt
        rw [hname, hname, if_neg hul', huy]
        split_ifs with hzl
        · intro hc
          rw [hc, hy] at hzl
          exact absurd hzl (by simp)
        · omega
      · rw [hcol, if_neg hul', huy]
        unfold Stamp.le
        have : u.year < t.year := by omega
        simp [hy, (key28 hy).mpr hm, this]

/-- the range 29 February, 0 to 12 h -/
def leapNoon : Pos × Pos := (⟨2, 29, 0⟩, ⟨2, 29, 43200000000000⟩)

/-- **C25, finding.** Whether July 2019 is selected by a range inside 29 February depends on whether there are data in 2020. -/
theorem leap_day_range_depends_on_years :
    selected ⟨none, none, none, some [leapNoon]⟩ [⟨2019, 7, 1, 0⟩] ⟨2019, 7, 1, 0⟩ = true ∧
      selected ⟨none, none, none, some [leapNoon]⟩ [⟨2019, 7, 1, 0⟩, ⟨2020, 7, 1, 0⟩] ⟨2019, 7, 1, 0⟩ = false := by decide +kernel

/-- the hypotheses of `leap_day_range_exact` -/
example : selected ⟨none, none, none, some [leapNoon]⟩ [⟨2018, 1, 5, 0⟩, ⟨2019, 1, 5, 0⟩] ⟨2019, 1, 5, 0⟩ = true := by
  refine (leap_day_range_exact leapNoon [⟨2018, 1, 5, 0⟩, ⟨2019, 1, 5, 0⟩] (by simp [validPos, monthLength, leapNoon])
    (by simp [validPos, monthLength, leapNoon]) (And.intro rfl rfl) (And.intro rfl rfl) (by simp [posLe, leapNoon])
    (by simp [validStamp, monthLength]) ⟨2019, 1, 5, 0⟩ (by simp) (by simp)).mpr ?_
  exact .inr (.inr ⟨by decide +kernel, by simp, ⟨2018, 1, 5, 0⟩, by simp, rfl, by decide +kernel⟩)

end Verif.Grouping
