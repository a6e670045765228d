import Verif.Rolling.Old
import Verif.Rolling.Props
import Verif.Pairwise.DeprecatedProps

/-! C82. -/

set_option linter.unusedSectionVars false

namespace Verif.Rolling

open Verif.Moments Verif.Pairwise

theorem npCov_eq (l : List (ℝ × ℝ)) : npCov l = (l.length : ℝ) / ((l.length : ℝ) - 1) * pcov l := by
  unfold npCov
  have : (l.length : ℝ) * pcov l = (l.map (fun p => (p.1 - npMean (l.map Prod.fst)) * (p.2 - npMean (l.map Prod.snd)))).sum := by
    unfold pcov
    rw [len_mul_mean]
    rfl
  rw [← this]
  ring

theorem pcov_self (l : List (ℝ × ℝ)) (f : ℝ × ℝ → ℝ) : pcov (l.map (fun p => (f p, f p))) = pvar (l.map f) := by
  unfold pcov pvar
  rw [List.map_map, List.map_map, List.map_map, List.map_map]
  refine congrArg mean (List.map_congr_left ?_)
  intro p _
  show (f p - _) * (f p - _) = (f p - _) ^ 2
  rw [sq]
  rfl

/-- the coefficient of numpy is the textbook coefficient -/
theorem corrcoef_eq (l : List (ℝ × ℝ)) (h : l ≠ []) : corrcoef l = pearson l := by
  have hn := len_pos (K := ℝ) l h
  unfold corrcoef pearson
  simp only [npCov_eq, pcov_self, List.length_map]
  by_cases h1 : l.length ≤ 1
  · have hl : ∃ p, l = [p] := by
      cases l with
      | nil => exact absurd rfl h
      | cons p l =>
        cases l with
        | nil => exact ⟨p, rfl⟩
        | cons q l => simp at h1
    obtain ⟨p, rfl⟩ := hl
    rw [if_pos (Or.inl h1), if_pos]
    left
    simp [pvar, mean]
  · have h2 : (1 : ℝ) < (l.length : ℝ) := by
      have : 1 < l.length := by omega
      exact_mod_cast this
    have hc : 0 < (l.length : ℝ) / ((l.length : ℝ) - 1) := div_pos hn (by linarith)
    set c := (l.length : ℝ) / ((l.length : ℝ) - 1) with hcdef
    have z : ∀ v : ℝ, c * v = 0 ↔ v = 0 := fun v => by
      rw [mul_eq_zero]; simp [hc.ne']
    have zx := z (pvar (l.map Prod.fst))
    have zy := z (pvar (l.map Prod.snd))
    by_cases h0 : pvar (l.map Prod.fst) = 0 ∨ pvar (l.map Prod.snd) = 0
    · rw [if_pos (by right; rw [zx, zy]; exact h0), if_pos h0]
    · rw [if_neg (by rw [zx, zy]; tauto), if_neg h0]
      push Not at h0
      have px : 0 < pvar (l.map Prod.fst) := lt_of_le_of_ne (pvar_nonneg _) (Ne.symm h0.1)
      have py : 0 < pvar (l.map Prod.snd) := lt_of_le_of_ne (pvar_nonneg _) (Ne.symm h0.2)
      have sx := Real.sqrt_pos.mpr px
      have sy := Real.sqrt_pos.mpr py
      have sc := Real.sqrt_pos.mpr hc
      have e : c * pcov l / Real.sqrt (c * pvar (l.map Prod.fst)) / Real.sqrt (c * pvar (l.map Prod.snd)) =
          pcov l / (Real.sqrt (pvar (l.map Prod.fst)) * Real.sqrt (pvar (l.map Prod.snd))) := by
        rw [Real.sqrt_mul hc.le, Real.sqrt_mul hc.le]
        have hs := Real.mul_self_sqrt hc.le
        rw [div_div, show Real.sqrt c * Real.sqrt (pvar (l.map Prod.fst)) * (Real.sqrt c * Real.sqrt (pvar (l.map Prod.snd))) =
          (Real.sqrt c * Real.sqrt c) * (Real.sqrt (pvar (l.map Prod.fst)) * Real.sqrt (pvar (l.map Prod.snd))) by ring, hs]
        exact mul_div_mul_left _ _ hc.ne'
      have hcov := abs_pcov_le l
      have hden := mul_pos sx sy
      have b1 : pcov l / (Real.sqrt (pvar (l.map Prod.fst)) * Real.sqrt (pvar (l.map Prod.snd))) ≤ 1 := by
        rw [div_le_one hden]; exact le_trans (le_abs_self _) hcov
      have b2 : -1 ≤ pcov l / (Real.sqrt (pvar (l.map Prod.fst)) * Real.sqrt (pvar (l.map Prod.snd))) := by
        rw [le_div_iff₀ hden]; have := neg_abs_le (pcov l); linarith
      rw [e, min_eq_left b1, max_eq_right b2]

theorem oldPvalue_eq (betainc : ℝ → ℝ → ℝ → ℝ) (r n : ℝ) : oldPvalue betainc r n = pvalue betainc r n := by
  unfold oldPvalue pvalue
  by_cases h : |r| = 1
  · rw [if_pos h, if_pos h]
  · rw [if_neg h, if_neg h]
    refine congrArg (betainc _ _) ?_
    split
    · rename_i h1; exact (min_eq_left h1.le).symm
    · rename_i h1; exact (min_eq_right (not_lt.mp h1)).symm

/-- the window is the selected block of observations -/
theorem window_eq (ts : ℕ → ℝ) (d : ℕ → ℝ × ℝ) (n : ℕ) (w : ℝ) (center : Bool) (i : ℕ) :
    window ts d n w center i = (insideIdx ts n w center i).map d := by
  unfold window insideIdx
  refine congrArg (List.map d) (List.filter_congr ?_)
  intro j _
  cases center
  · simp only [Bool.false_eq_true, if_false, decide_eq_decide]
    constructor
    · rintro ⟨h1, h2⟩; exact ⟨by linarith, by linarith⟩
    · rintro ⟨h1, h2⟩; exact ⟨by linarith, by linarith⟩
  · simp

/-- for sorted time stamps the positions inside the window have no gap -/
theorem slice_sorted (ts : ℕ → ℝ) (d : ℕ → ℝ × ℝ) (n : ℕ) (w : ℝ) (center : Bool) (i : ℕ)
    (hs : ∀ a b, a ≤ b → b < n → ts a ≤ ts b) : sliceOf d (insideIdx ts n w center i) = (insideIdx ts n w center i).map d := by
  set P : ℕ → Prop := fun j => if center then |ts j - ts i| ≤ w else ts j - ts i ≤ 0 ∧ ts j - ts i > -w with hP
  have hconv : ∀ a b c, a ≤ b → b ≤ c → c < n → P a → P c → P b := by
    intro a b c hab hbc hc ha hc'
    have h1 := hs a b hab (by omega)
    have h2 := hs b c hbc hc
    simp only [hP] at ha hc' ⊢
    cases center
    · simp only [Bool.false_eq_true, if_false] at ha hc' ⊢
      exact ⟨by linarith [hc'.1], by linarith [ha.2]⟩
    · simp only [if_true] at ha hc' ⊢
      rw [abs_iff] at ha hc' ⊢
      exact ⟨by linarith [ha.1], by linarith [hc'.2]⟩
  have hmem : ∀ j, j ∈ insideIdx ts n w center i ↔ j < n ∧ P j := by
    intro j
    unfold insideIdx
    simp [hP]
  cases hidx : insideIdx ts n w center i with
  | nil => rfl
  | cons a l =>
    obtain ⟨b, hb⟩ : ∃ b, (a :: l).getLast? = some b := ⟨(a :: l).getLast (by simp), List.getLast?_eq_some_getLast _⟩
    have hsorted : (a :: l).Pairwise (· < ·) := by
      rw [← hidx]
      exact List.Pairwise.sublist List.filter_sublist List.pairwise_lt_range
    have hbm : b ∈ a :: l := List.mem_of_getLast? hb
    have hmin : ∀ j ∈ a :: l, a ≤ j := by
      intro j hj
      rcases List.mem_cons.mp hj with rfl | hj
      · exact le_rfl
      · exact (List.rel_of_pairwise_cons hsorted hj).le
    have hmax : ∀ j ∈ a :: l, j ≤ b := by
      intro j hj
      have hdl : (a :: l) = (a :: l).dropLast ++ [b] := by
        have := List.dropLast_append_getLast? b hb
        exact this.symm
      rw [hdl] at hj hsorted
      rcases List.mem_append.mp hj with hj | hj
      · exact ((List.pairwise_append.mp hsorted).2.2 j hj b (by simp)).le
      · simp at hj; omega
    have hA := (hmem a).mp (by rw [hidx]; simp)
    have hB := (hmem b).mp (by rw [hidx]; exact hbm)
    have hblock : insideIdx ts n w center i = List.range' a (b + 1 - a) := by
      unfold insideIdx
      apply filter_range_block _ n a (b + 1) (by have := hmin b hbm; omega) (by omega)
      intro j hj
      have hm := hmem j
      have : (if center = true then decide (|ts j - ts i| ≤ w) else decide (ts j - ts i ≤ 0 ∧ ts j - ts i > -w)) = true ↔ P j := by
        simp [hP]
      rw [this]
      constructor
      · intro hp
        have := hm.mpr ⟨hj, hp⟩
        rw [hidx] at this
        have h1 := hmin j this
        have h2 := hmax j this
        omega
      · rintro ⟨h1, h2⟩
        exact hconv a j b h1 (by omega) hB.1 hA.2 hB.2
    unfold sliceOf
    rw [hb]
    simp only [List.head?_cons]
    rw [← hidx, hblock]
    rfl

/-- C82: for sorted time stamps (repetitions allowed) and any window size, R and p-value of every position are those of the observations in
its window, NaN if there are none or fewer than `min_periods`. The RMSD is that of the observations in the window if there are enough.
Missing for the full claim: the RMSD with too few observations (`old_rolling_rmsd_garbage`), and unsorted time stamps
(`old_rolling_unsorted`). -/
theorem old_rolling_partial (betainc : ℝ → ℝ → ℝ → ℝ) (garbage : ℕ → Option ℝ) (ts : ℕ → ℝ) (d : ℕ → ℝ × ℝ) (n : ℕ) (w : ℝ)
    (center : Bool) (minPeriods : ℤ) (hs : ∀ a b, a ≤ b → b < n → ts a ≤ ts b) :
    (oldRollingPrRmsd betainc garbage ts d n w center minPeriods).length = n ∧
    ∀ i, i < n → ∃ o, (oldRollingPrRmsd betainc garbage ts d n w center minPeriods)[i]? = some o ∧
      o.pr = (if window ts d n w center i = [] then none else expectedPr betainc minPeriods (window ts d n w center i)) ∧
      (window ts d n w center i ≠ [] → minPeriods ≤ (window ts d n w center i).length →
        o.rmsd = some (Real.sqrt (meanSqDiff (window ts d n w center i)))) := by
  refine ⟨by simp [oldRollingPrRmsd], ?_⟩
  intro i hi
  refine ⟨_, by unfold oldRollingPrRmsd; rw [List.getElem?_map, List.getElem?_range hi]; rfl, ?_⟩
  have hwl : (window ts d n w center i).length = (insideIdx ts n w center i).length := by rw [window_eq]; simp
  have hsl := slice_sorted ts d n w center i hs
  rw [← window_eq] at hsl
  by_cases h0 : window ts d n w center i = []
  · rw [h0, List.length_nil] at hwl
    unfold oldRound
    simp only
    rw [if_pos (Or.inl hwl.symm), if_pos h0]
    exact ⟨rfl, fun h => absurd h0 h⟩
  · have hne : (insideIdx ts n w center i).length ≠ 0 := by
      rw [← hwl]; simpa using h0
    by_cases h1 : ((insideIdx ts n w center i).length : ℤ) < minPeriods
    · unfold oldRound
      simp only
      rw [if_pos (Or.inr h1), if_neg h0]
      unfold expectedPr
      rw [hwl, if_pos h1]
      exact ⟨rfl, fun _ h => by omega⟩
    · unfold oldRound
      simp only
      rw [if_neg (by tauto), if_neg h0, hsl]
      constructor
      · unfold expectedPr
        rw [hwl, if_neg h1, corrcoef_eq _ h0]
        refine congrArg (fun f => Option.map f _) ?_
        funext r
        rw [oldPvalue_eq]
      · intro _ _
        simp only
        unfold meanSqDiff mean
        rw [List.length_map, sub_zero]

/-- C82: for strictly increasing time stamps, enough observations in the window of `i`, the deprecated and the fast function return the
same. -/
theorem old_rolling_agrees (betainc : ℝ → ℝ → ℝ → ℝ) (garbage : ℕ → Option ℝ) (ts : ℕ → ℝ) (d : ℕ → ℝ × ℝ) (n : ℕ) (w : ℝ)
    (center : Bool) (minPeriods : ℤ) (hw : 0 < w) (hs : ∀ a b, a < b → b < n → ts a < ts b) (i : ℕ) (hi : i < n)
    (hm : minPeriods ≤ (window ts d n w center i).length) :
    (oldRollingPrRmsd betainc garbage ts d n w center minPeriods)[i]? = (rollingPrRmsd betainc ts d n w center minPeriods)[i]? := by
  have hs' : ∀ a b, a ≤ b → b < n → ts a ≤ ts b := by
    intro a b hab hb
    rcases Nat.lt_or_eq_of_le hab with h | rfl
    · exact (hs a b h hb).le
    · exact le_rfl
  have hne : window ts d n w center i ≠ [] := by
    rw [window_eq]
    intro hc
    have : i ∈ insideIdx ts n w center i := by
      unfold insideIdx
      rw [List.mem_filter]
      refine ⟨List.mem_range.mpr hi, ?_⟩
      cases center <;> simp [hw, hw.le]
    rw [List.map_eq_nil_iff] at hc
    rw [hc] at this
    simp at this
  obtain ⟨o, h1, h2, h3⟩ := (old_rolling_partial betainc garbage ts d n w center minPeriods hs').2 i hi
  rw [if_neg hne] at h2
  have h3 := h3 hne hm
  have hr : expectedRmsd minPeriods (window ts d n w center i) = some (Real.sqrt (meanSqDiff (window ts d n w center i))) := by
    unfold expectedRmsd; rw [if_neg (by omega)]
  obtain ⟨o', k1, k2, k3⟩ : ∃ o', (rollingPrRmsd betainc ts d n w center minPeriods)[i]? = some o' ∧
      o'.pr = expectedPr betainc minPeriods (window ts d n w center i) ∧
      o'.rmsd = expectedRmsd minPeriods (window ts d n w center i) := by
    cases center
    · exact (rolling_trailing_correct betainc ts d n w minPeriods hw hs).2 i hi
    · exact (rolling_center_correct betainc ts d n w minPeriods hw.le hs').2 i hi
  rw [h1, k1]
  refine congrArg some ?_
  cases o; cases o'
  simp only at h2 h3 k2 k3
  rw [h2, h3, k2, k3, hr]

/-- C82 fails for the RMSD if a window has fewer observations than `min_periods`: the result is the previous contents of the memory, not
NaN. -/
theorem old_rolling_rmsd_garbage (betainc : ℝ → ℝ → ℝ → ℝ) (garbage : ℕ → Option ℝ) (ts : ℕ → ℝ) (d : ℕ → ℝ × ℝ) (n : ℕ) (w : ℝ)
    (center : Bool) (minPeriods : ℤ) (i : ℕ) (hi : i < n) (h : ((window ts d n w center i).length : ℤ) < minPeriods) :
    (oldRollingPrRmsd betainc garbage ts d n w center minPeriods)[i]? = some ⟨none, garbage i⟩ := by
  unfold oldRollingPrRmsd
  rw [List.getElem?_map, List.getElem?_range hi]
  rw [window_eq, List.length_map] at h
  unfold oldRound
  simp only [Option.map_some]
  rw [if_pos (Or.inr h)]

/-- C82 fails for unsorted time stamps: the observation between two others is used although it is 10 days away. -/
theorem old_rolling_unsorted (betainc : ℝ → ℝ → ℝ → ℝ) (garbage : ℕ → Option ℝ) :
    ∃ (ts : ℕ → ℝ) (d : ℕ → ℝ × ℝ) (o : Out), window ts d 3 1 true 0 = [(0, 0), (1, 1)] ∧
      (oldRollingPrRmsd betainc garbage ts d 3 1 true 1)[0]? = some o ∧ o.rmsd ≠ some (Real.sqrt (meanSqDiff (window ts d 3 1 true 0))) := by
  let ts : ℕ → ℝ := fun j => if j = 1 then 10 else 0
  let d : ℕ → ℝ × ℝ := fun j => if j = 1 then (3, 0) else if j = 0 then (0, 0) else (1, 1)
  have hidx : insideIdx ts 3 1 true 0 = [0, 2] := by
    unfold insideIdx
    simp only [ts]
    norm_num [List.range_succ, List.filter]
  have hw : window ts d 3 1 true 0 = [(0, 0), (1, 1)] := by
    rw [window_eq, hidx]; simp [d]
  refine ⟨ts, d, _, hw, rfl, ?_⟩
  unfold oldRound
  simp only
  rw [hw, hidx]
  norm_num [sliceOf, rangeAB, List.range', d, meanSqDiff, mean]

/-- sorted time stamps with repetitions -/
example : ∀ a b : ℕ, a ≤ b → b < 6 → (((a / 2 : ℕ) : ℝ)) ≤ (((b / 2 : ℕ) : ℝ)) := by
  intro a b h _
  exact_mod_cast Nat.div_le_div_right h

example (betainc : ℝ → ℝ → ℝ → ℝ) (garbage) := old_rolling_agrees betainc garbage (fun i => (i : ℝ)) (fun i => ((i : ℝ), (i * i : ℝ))) 5 2 true 1 (by norm_num)
  (by intro a b h _; exact_mod_cast h) 3 (by norm_num) (by
    have h : ((3 : ℝ), (3 * 3 : ℝ)) ∈ window (fun i => (i : ℝ)) (fun i => ((i : ℝ), (i * i : ℝ))) 5 2 true 3 := by
      simp only [window, List.mem_map]
      exact ⟨3, by simp, by norm_num⟩
    have := List.length_pos_of_mem h
    omega)

end Verif.Rolling
