import Verif.Resample.Lemmas
import Mathlib.Tactic.NormNum
import Mathlib.Data.Rat.Defs
import Mathlib.Algebra.Order.Ring.Rat

/-! Property C01: window-mean resampling. -/

set_option linter.unusedSectionVars false

namespace Verif.Resample

variable {K : Type*} [Field K] [LinearOrder K] [IsStrictOrderedRing K]

/-- **C01 (partial: sorted inputs).** For a non-empty series with non-decreasing times, non-decreasing target
times and *any* window, `resample_mean` returns at every target exactly the mean
of the non-NaN values within half a window. Missing for the full C01: the code
does not sort and does not reject unsorted targets, see
`resampleMean_unsorted_targets_wrong`. -/
theorem resampleMean_correct_partial (times : List K) (values : List (Option K))
    (targets : List K) (window : K)
    (hne : times ≠ []) (hlen : times.length = values.length)
    (hs : times.Pairwise (· ≤ ·)) (ht : targets.Pairwise (· ≤ ·)) :
    resampleMean times values targets window =
      .ok (targets.map (windowMean (times.zip values) window)) := by
  unfold resampleMean
  rw [if_neg (by simpa using hlen)]
  cases hl : times.getLast? with
  | none => exact absurd (List.getLast?_eq_none_iff.1 hl) hne
  | some last =>
    simp only
    rw [loop_eq hs hlen hl targets ht]
    intro t _
    simp

/-- Non-vacuity: four observations, one NaN, three sorted targets, one of them without data. -/
example : ((resampleMean [0, 1, 2, 10] [some 1, none, some 5, some 7] [1, 5, 10] 2 :
    Except Err (List (Option ℚ)))) = .ok [some 3, none, some 7] := by
  decide +kernel

/-- The hypotheses of `resampleMean_correct_partial` hold for that case. -/
example : ([0, 1, 2, 10] : List ℚ) ≠ [] ∧ ([0, 1, 2, 10] : List ℚ).Pairwise (· ≤ ·) ∧
    ([1, 5, 10] : List ℚ).Pairwise (· ≤ ·) := by decide +kernel

/-- The full claim is false of the code: with targets in descending order the
second target has an observation exactly at its time, but the carried cursor has
already passed it, and the result is NaN. -/
theorem resampleMean_unsorted_targets_wrong :
    ∃ (times : List ℚ) (values : List (Option ℚ)) (targets : List ℚ) (window : ℚ),
      times.Pairwise (· ≤ ·) ∧ times.length = values.length ∧ times ≠ [] ∧
      resampleMean times values targets window ≠
        .ok (targets.map (windowMean (times.zip values) window)) := by
  refine ⟨[0, 5], [some 1, some 2], [5, 0], 2, by simp, by simp, by simp, ?_⟩
  decide +kernel

/-- Arrays of different length are rejected. -/
theorem resampleMean_shape (times : List K) (values : List (Option K)) (targets : List K)
    (window : K) (h : times.length ≠ values.length) :
    resampleMean times values targets window = .error .shape := by
  simp [resampleMean, h]

end Verif.Resample
