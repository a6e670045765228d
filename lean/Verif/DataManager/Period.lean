import Verif.DataManager.Props

/-!
C71: the period is given to pandas as two ISO strings (`src/pytesmo/validation_framework/upscaling.py:98-103`).

`datetime.isoformat()` leaves out the microseconds if they are 0, and pandas takes a string as the interval of its resolution: as the
end of a slice it stands for the last nanosecond of that interval (trusted: `DatetimeIndex._maybe_cast_slice_bound`).
-/

namespace Verif.DataManager

variable {V : Type}

/-- upscaling.py:101-103: first and last nanosecond of `data_df[start.isoformat():end.isoformat()]`; `start`, `end` in microseconds -/
def sliceBounds (ab : ℤ × ℤ) : ℤ × ℤ :=
  (ab.1 * 1000, if ab.2 % 1000000 = 0 then ab.2 * 1000 + 999999999 else ab.2 * 1000 + 999)

/-- upscaling.py:43-115 `read_ds` with time stamps in nanoseconds and the period in microseconds -/
def readPeriod (period : Option (ℤ × ℤ)) (o : Outcome ℤ V) : Except Err (Option (List (ℤ × V))) :=
  readDs (period.map sliceBounds) o

/-- **C71.** The full statement is that exactly the rows with `start ≤ time ≤ end` are returned. It holds for time stamps in whole
microseconds if the end has a fraction of a second, and in whole seconds otherwise. Missing: other time stamps, see
`period_end_too_late`. -/
theorem read_period_partial (a b : ℤ) (rows out : List (ℤ × V))
    (hres : ∀ r ∈ rows, if b % 1000000 = 0 then r.1 % 1000000000 = 0 else r.1 % 1000 = 0) :
    readPeriod (some (a, b)) (.frame rows) = .ok (some out) ↔
      out ≠ [] ∧ out = rows.filter (fun r => decide (a * 1000 ≤ r.1 ∧ r.1 ≤ b * 1000)) := by
  unfold readPeriod
  rw [read_ds_some_iff]
  have hf : rows.filter (fun r => (Option.map sliceBounds (some (a, b))).all (fun ab => decide (ab.1 ≤ r.1) && decide (r.1 ≤ ab.2))) =
      rows.filter (fun r => decide (a * 1000 ≤ r.1 ∧ r.1 ≤ b * 1000)) := by
    apply List.filter_congr
    intro r hr
    have := hres r hr
    simp only [Option.map_some, Option.all_some, sliceBounds, ← Bool.decide_and, decide_eq_decide]
    refine and_congr Iff.rfl ?_
    by_cases hb : b % 1000000 = 0
    · rw [if_pos hb] at this ⊢
      omega
    · rw [if_neg hb] at this ⊢
      omega
  constructor
  · rintro ⟨rows', h1, h2, -, h4⟩
    obtain rfl : rows = rows' := by injection h1
    exact ⟨h2, by rw [h4, hf]⟩
  · rintro ⟨h1, h2⟩
    exact ⟨rows, rfl, h1, by rw [h2]; exact List.filter_sublist, by rw [hf]; exact h2⟩

example := read_period_partial 0 2000000 [(1000000000, "a"), (3000000000, "c")] [(1000000000, "a")] (by decide)

/-- In every case no row before the start and no row a second or more after the end is returned, and no row of the period is lost. -/
theorem read_period_bounds (a b : ℤ) (rows out : List (ℤ × V)) (h : readPeriod (some (a, b)) (.frame rows) = .ok (some out)) :
    (∀ r ∈ rows, a * 1000 ≤ r.1 → r.1 ≤ b * 1000 → r ∈ out) ∧
    ∀ r ∈ out, r ∈ rows ∧ a * 1000 ≤ r.1 ∧ r.1 < b * 1000 + 1000000000 := by
  unfold readPeriod at h
  rw [read_ds_some_iff] at h
  obtain ⟨rows', h1, -, -, h4⟩ := h
  obtain rfl : rows = rows' := by injection h1
  subst h4
  simp only [Option.map_some, Option.all_some, sliceBounds, List.mem_filter, Bool.and_eq_true, decide_eq_true_eq]
  constructor
  · intro r hr h1 h2
    refine ⟨hr, h1, ?_⟩
    split <;> omega
  · rintro r ⟨h1, h2, h3⟩
    refine ⟨h1, h2, ?_⟩
    split at h3 <;> omega

/-- rows at 1 s, 2 s and 3 s, period from 0 s to 2 s -/
example : (readPeriod (some (0, 2000000)) (.frame [(1000000000, "a"), (2000000000, "b"), (3000000000, "c")])).toOption =
    some (some [(1000000000, "a"), (2000000000, "b")]) := by decide +kernel

/-- **C71, negation.** With a period from 0 s to 2 s the row at 2.5 s is returned. -/
theorem period_end_too_late : (readPeriod (some (0, 2000000)) (.frame [(1000000000, "a"), (2500000000, "b")])).toOption =
    some (some [(1000000000, "a"), (2500000000, "b")]) := by decide +kernel

end Verif.DataManager
