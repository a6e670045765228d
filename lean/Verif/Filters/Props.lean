import Mathlib.Data.Rat.Defs
import Mathlib.Algebra.Order.Ring.Rat
import Mathlib.Tactic.NormNum
import Verif.Filters.Lemmas

/-! C06 (`boxcar_filter`) and C07 (`exp_filter`). -/

namespace Verif.Filters

/-- C06. For observation times in ascending order (repetitions allowed), every window, no-data value, `fillna` and
`min_obs`: every output is the plain mean of all usable observations at most half a window away, NaN if there are
fewer than `min_obs` (or none), and NaN for missing observations unless `fillna`. -/
theorem boxcar_filter_correct {K : Type} [Field K] [LinearOrder K] [IsStrictOrderedRing K]
    (obs : List (K × Option K)) (window nan : K) (fillna : Bool) (minObs : Int)
    (hs : obs.Pairwise (fun a b => a.1 ≤ b.1)) :
    boxcarFilter obs window nan fillna minObs = obs.map (boxcarSpec obs window nan fillna minObs) := by
  unfold boxcarFilter
  have := boxcarLoop_eq nan window fillna minObs [] obs (by simpa using hs)
  simpa using this

/-- Hypotheses met: ties, a NaN, a no-data value, both edges of the window. -/
example : boxcarFilter ([(0, some 2), (1, none), (2, some 4), (2, some (-99)), (3, some 9)] : List (ℚ × Option ℚ))
    4 (-99) true 1 = [some 3, some 5, some 5, some 5, some (13 / 2)] := by decide +kernel
example : ([(0, some 2), (1, none), (2, some 4), (2, some (-99)), (3, some 9)] : List (ℚ × Option ℚ)).Pairwise
    (fun a b => a.1 ≤ b.1) := by decide +kernel

/-- C06, the order hypothesis is needed: with unsorted times the loop stops at the first observation out of reach. -/
theorem boxcar_filter_unsorted_wrong :
    ∃ obs : List (ℚ × Option ℚ), boxcarFilter obs 2 (-99) false 1 ≠
      obs.map (boxcarSpec obs 2 (-99) false 1) :=
  ⟨[(0, some 2), (9, some 7), (1, some 4)], by decide +kernel⟩

/-- C07. For every series (any order of times), every `ctime ≠ 0` and no-data value, `exp_filter` returns one value per
observation; it is NaN exactly at missing observations and otherwise the exponentially weighted mean of all
usable observations up to and including this one, weights `exp(-(t - t_k)/ctime)`. -/
theorem exp_filter_correct (obs : List (ℝ × Option ℝ)) (ctime : ℤ) (_hc : ctime ≠ 0) (nan : ℝ) :
    (expFilter obs ctime nan).length = obs.length ∧
    ∀ (i : Nat) (o : ℝ × Option ℝ), obs[i]? = some o →
      (expFilter obs ctime nan)[i]? = some (expSpec ctime nan (obs.take (i + 1)) o) := by
  have := expLoop_eq ctime nan [] obs none (by simp [ExpInv, validObs])
  simpa [expFilter] using this

theorem sum_weighted_le {ι : Type} (l : List ι) (w x : ι → ℝ) (M : ℝ) (hw : ∀ p ∈ l, 0 ≤ w p)
    (hx : ∀ p ∈ l, x p ≤ M) : (l.map (fun p => w p * x p)).sum ≤ M * (l.map w).sum := by
  induction l with
  | nil => simp
  | cons p l ih =>
    have h1 := ih (fun q hq => hw q (List.mem_cons_of_mem _ hq)) (fun q hq => hx q (List.mem_cons_of_mem _ hq))
    have h2 := mul_le_mul_of_nonneg_left (hx p (List.mem_cons_self ..)) (hw p (List.mem_cons_self ..))
    simp only [List.map_cons, List.sum_cons]
    nlinarith

theorem sum_weights_pos (l : List (ℝ × ℝ)) (w : ℝ × ℝ → ℝ) (hw : ∀ p, 0 < w p) (hl : l ≠ []) :
    0 < (l.map w).sum := by
  induction l with
  | nil => exact absurd rfl hl
  | cons p l ih =>
    by_cases h : l = []
    · subst h; simpa using hw p
    · have := ih h
      have := hw p
      simp only [List.map_cons, List.sum_cons]
      linarith

/-- C07, consequence: a filtered value never leaves the range of the usable values seen so far. -/
theorem exp_filter_bounded (obs : List (ℝ × Option ℝ)) (ctime : ℤ) (hc : ctime ≠ 0) (nan lo hi : ℝ)
    (hb : ∀ o ∈ obs, ∀ v, o.2 = some v → v ≠ nan → lo ≤ v ∧ v ≤ hi) (i : Nat) (f : ℝ)
    (hf : (expFilter obs ctime nan)[i]? = some (some f)) : lo ≤ f ∧ f ≤ hi := by
  obtain ⟨hlen, hget⟩ := exp_filter_correct obs ctime hc nan
  have hi' : i < obs.length := by
    rw [← hlen]
    by_contra hcon
    rw [List.getElem?_eq_none (by omega)] at hf
    simp at hf
  have ho := hget i obs[i] (List.getElem?_eq_getElem hi')
  rw [hf] at ho
  simp only [Option.some.injEq] at ho
  unfold expSpec at ho
  split at ho
  · simp at ho
  · rename_i hval
    simp only [Option.some.injEq] at ho
    have hmem : ∀ p ∈ validObs nan (obs.take (i + 1)), lo ≤ p.2 ∧ p.2 ≤ hi := by
      intro p hp
      unfold validObs at hp
      rw [List.mem_filterMap] at hp
      obtain ⟨o, ho1, ho2⟩ := hp
      obtain ⟨t, x⟩ := o
      cases x with
      | none => simp at ho2
      | some v =>
        by_cases hv : v = nan
        · simp [hv] at ho2
        · simp only [Option.bind_some, hv, if_false, Option.some.injEq] at ho2
          subst ho2
          exact hb _ (List.mem_of_mem_take ho1) v rfl hv
    have hne : validObs nan (obs.take (i + 1)) ≠ [] := by
      rw [List.take_add_one, List.getElem?_eq_getElem hi', validObs_append]
      have hu := (usable_isSome nan obs[i].2).mpr hval
      have := validObs_cons nan obs[i] []
      cases h : usable nan obs[i].2 with
      | none => rw [h] at hu; simp at hu
      | some v => rw [h] at this; simp only [Option.toList_some, this]; simp
    have hpos := sum_weights_pos (validObs nan (obs.take (i + 1))) (fun p => expWeight ctime obs[i].1 p.1)
      (fun p => Real.exp_pos _) hne
    have h1 := sum_weighted_le (validObs nan (obs.take (i + 1))) (fun p => expWeight ctime obs[i].1 p.1)
      (fun p => p.2) hi (fun p _ => (Real.exp_pos _).le) (fun p hp => (hmem p hp).2)
    have h2 := sum_weighted_le (validObs nan (obs.take (i + 1))) (fun p => expWeight ctime obs[i].1 p.1)
      (fun p => -p.2) (-lo) (fun p _ => (Real.exp_pos _).le) (fun p hp => neg_le_neg (hmem p hp).1)
    have h3 : ((validObs nan (obs.take (i + 1))).map (fun p => expWeight ctime obs[i].1 p.1 * -p.2)).sum =
        -((validObs nan (obs.take (i + 1))).map (fun p => expWeight ctime obs[i].1 p.1 * p.2)).sum := by
      rw [← neg_one_mul, ← List.sum_map_mul_left]
      congr 1
      apply List.map_congr_left
      intro p _; ring
    rw [h3] at h2
    rw [ho]
    constructor
    · rw [le_div_iff₀ hpos]; linarith
    · rw [div_le_iff₀ hpos]; linarith

example (f : ℝ) (hf : (expFilter [(0, some 0.1), (1, none), (2, some (-999)), (3, some 0.3)] 10 (-999))[3]? = some (some f)) : 0.1 ≤ f ∧ f ≤ 0.3 :=
  exp_filter_bounded _ 10 (by decide) (-999) 0.1 0.3 (by
    intro o ho v hv hn
    simp only [List.mem_cons, List.not_mem_nil, or_false] at ho
    rcases ho with rfl | rfl | rfl | rfl <;> simp only [Option.some.injEq, reduceCtorEq] at hv <;> subst hv
    · norm_num
    · exact absurd rfl hn
    · norm_num) 3 f hf

/-- A non-trivial case: a gap in the middle does not reset the filter. -/
example : expFilter [(0, some 2), (1, none), (2, some 4)] 1 (-99) =
    [some 2, none, some ((Real.exp (-2) * 2 + 4) / (Real.exp (-2) + 1))] := by
  obtain ⟨hl, h⟩ := exp_filter_correct [(0, some 2), (1, none), (2, some 4)] 1 (by decide) (-99)
  have e1 : ¬ ((2 : ℝ) = -99) := by norm_num
  have e2 : ¬ ((4 : ℝ) = -99) := by norm_num
  have h0 := h 0 _ rfl
  have h1 := h 1 _ rfl
  have h2 := h 2 _ rfl
  apply List.ext_getElem?
  intro i
  match i with
  | 0 => rw [h0]; simp [expSpec, validObs, expWeight, e1]
  | 1 => rw [h1]; simp [expSpec]
  | 2 => rw [h2]; simp [expSpec, validObs, expWeight, e1, e2]
  | i + 3 => rw [List.getElem?_eq_none (by rw [hl]; simp), List.getElem?_eq_none (by simp)]

end Verif.Filters
