import Verif.Pairwise.Deprecated
import Verif.Pairwise.AnalyticalProps
import Mathlib.Data.List.Sort
import Mathlib.Data.List.GetD

/-! C81. -/

set_option linter.unusedSectionVars false

namespace Verif.Pairwise

open Verif.Moments

theorem devSq_eq (x : List ℝ) : devSq x = (x.length : ℝ) * pvar x := by
  unfold devSq pvar
  rw [len_mul_mean, npMean_eq]
  rfl

theorem npStd_eq (x : List ℝ) (d : ℤ) (hd : d < x.length) :
    npStd x d = some (Real.sqrt ((x.length : ℝ) / ((x.length : ℝ) - d)) * Real.sqrt (pvar x)) := by
  have h1 : (0 : ℝ) < (x.length : ℝ) - d := by
    have : (d : ℝ) < (x.length : ℝ) := by exact_mod_cast hd
    linarith
  unfold npStd
  rw [if_neg (by omega), ← Real.sqrt_mul (div_nonneg (Nat.cast_nonneg _) h1.le)]
  refine congrArg (fun v => some (Real.sqrt v)) ?_
  have := devSq_eq x
  unfold devSq at this
  rw [this]
  ring

/-- the coefficient of scipy is the textbook coefficient -/
theorem scipyPearsonr_eq (l : Pairs) (h : 2 ≤ l.length) : scipyPearsonr l = .ok (pearson l) := by
  have hne : l ≠ [] := by rintro rfl; simp at h
  have hn := len_pos (K := ℝ) l hne
  unfold scipyPearsonr pearson
  rw [if_neg (by omega)]
  simp only [devSq_eq, List.length_map, npMean_eq]
  have z : ∀ v : ℝ, 0 ≤ v → (Real.sqrt ((l.length : ℝ) * v) = 0 ↔ v = 0) := by
    intro v hv
    rw [Real.sqrt_eq_zero (mul_nonneg hn.le hv), mul_eq_zero]
    simp [hn.ne']
  have zx := z _ (pvar_nonneg (l.map Prod.fst))
  have zy := z _ (pvar_nonneg (l.map Prod.snd))
  by_cases h0 : pvar (l.map Prod.fst) = 0 ∨ pvar (l.map Prod.snd) = 0
  · rw [if_pos (by rw [zx, zy]; exact h0), if_pos h0]
  rw [if_neg (by rw [zx, zy]; exact h0), if_neg h0]
  push Not at h0
  have px : 0 < pvar (l.map Prod.fst) := lt_of_le_of_ne (pvar_nonneg _) (Ne.symm h0.1)
  have py : 0 < pvar (l.map Prod.snd) := lt_of_le_of_ne (pvar_nonneg _) (Ne.symm h0.2)
  have sx := Real.sqrt_pos.mpr px
  have sy := Real.sqrt_pos.mpr py
  have sn := Real.sqrt_pos.mpr hn
  have e : (l.map (fun p => (p.1 - mean (l.map Prod.fst)) / Real.sqrt ((l.length : ℝ) * pvar (l.map Prod.fst)) *
      ((p.2 - mean (l.map Prod.snd)) / Real.sqrt ((l.length : ℝ) * pvar (l.map Prod.snd))))).sum =
      pcov l / (Real.sqrt (pvar (l.map Prod.fst)) * Real.sqrt (pvar (l.map Prod.snd))) := by
    rw [Real.sqrt_mul hn.le, Real.sqrt_mul hn.le]
    have hs := Real.sq_sqrt hn.le
    have e1 : pcov l = S l (fun p => (p.1 - mean (l.map Prod.fst)) * (p.2 - mean (l.map Prod.snd))) / (l.length : ℝ) := by
      unfold pcov; rw [mean_map]
    rw [e1]
    have e2 := S_mul l (1 / ((l.length : ℝ) * (Real.sqrt (pvar (l.map Prod.fst)) * Real.sqrt (pvar (l.map Prod.snd)))))
      (fun p => (p.1 - mean (l.map Prod.fst)) * (p.2 - mean (l.map Prod.snd)))
    rw [show S l (fun p => (p.1 - mean (l.map Prod.fst)) * (p.2 - mean (l.map Prod.snd))) / (l.length : ℝ) /
        (Real.sqrt (pvar (l.map Prod.fst)) * Real.sqrt (pvar (l.map Prod.snd))) =
        1 / ((l.length : ℝ) * (Real.sqrt (pvar (l.map Prod.fst)) * Real.sqrt (pvar (l.map Prod.snd)))) *
          S l (fun p => (p.1 - mean (l.map Prod.fst)) * (p.2 - mean (l.map Prod.snd))) by field_simp, ← e2]
    show S l _ = S l _
    apply S_congr
    intro p _
    rw [div_mul_div_comm, one_div, inv_mul_eq_div]
    congr 1
    linear_combination (Real.sqrt (pvar (l.map Prod.fst)) * Real.sqrt (pvar (l.map Prod.snd))) * hs
  rw [e]
  have hc := abs_pcov_le l
  have hden := mul_pos sx sy
  have b1 : pcov l / (Real.sqrt (pvar (l.map Prod.fst)) * Real.sqrt (pvar (l.map Prod.snd))) ≤ 1 := by
    rw [div_le_one hden]; exact le_trans (le_abs_self _) hc
  have b2 : -1 ≤ pcov l / (Real.sqrt (pvar (l.map Prod.fst)) * Real.sqrt (pvar (l.map Prod.snd))) := by
    rw [le_div_iff₀ hden]; have := neg_abs_le (pcov l); linarith
  rw [min_eq_left b1, max_eq_left b2]

/-- C81: for two series that vary, `mse` returns the components of the mean squared difference, the correlation and the variance component
enlarged by n / (n - ddof). With `ddof = 0` they are the components of `mse_decomposition`, and the first value is the mean squared
difference. Missing for the full claim: a constant series (`old_mse_constant`), and the total for another ddof (`old_mse_ddof_not_error`). -/
theorem old_mse_partial (l : Pairs) (h : 2 ≤ l.length) (d : ℤ) (hd : d < l.length)
    (hx : pvar (l.map Prod.fst) ≠ 0) (hy : pvar (l.map Prod.snd) ≠ 0) :
    let c := (l.length : ℝ) / ((l.length : ℝ) - d)
    let dec := mseDecomposition l
    oldMse l d = .ok ⟨some (c * dec.2.1 + dec.2.2.1 + c * dec.2.2.2), some (c * dec.2.1), some dec.2.2.1, some (c * dec.2.2.2)⟩ ∧
    (d = 0 → c * dec.2.1 + dec.2.2.1 + c * dec.2.2.2 = meanSqDiff l ∧ c * dec.2.1 = dec.2.1 ∧ c * dec.2.2.2 = dec.2.2.2) := by
  have hne : l ≠ [] := by rintro rfl; simp at h
  have hn := len_pos (K := ℝ) l hne
  have h1 : (0 : ℝ) < (l.length : ℝ) - d := by
    have : (d : ℝ) < (l.length : ℝ) := by exact_mod_cast hd
    linarith
  obtain ⟨t1, t2, -, -, -, -, -, -, t3, t4, t5⟩ := mse_decomposition_exact l hne
  intro c dec
  have hc : 0 ≤ c := div_nonneg hn.le h1.le
  have hcs := Real.mul_self_sqrt hc
  have px : 0 < pvar (l.map Prod.fst) := lt_of_le_of_ne (pvar_nonneg _) (Ne.symm hx)
  have py : 0 < pvar (l.map Prod.snd) := lt_of_le_of_ne (pvar_nonneg _) (Ne.symm hy)
  have sx := Real.sqrt_pos.mpr px
  have sy := Real.sqrt_pos.mpr py
  have ex : npStd (l.map Prod.fst) d = some (Real.sqrt c * Real.sqrt (pvar (l.map Prod.fst))) := by
    have := npStd_eq (l.map Prod.fst) d (by simpa using hd)
    rw [List.length_map] at this
    exact this
  have ey : npStd (l.map Prod.snd) d = some (Real.sqrt c * Real.sqrt (pvar (l.map Prod.snd))) := by
    have := npStd_eq (l.map Prod.snd) d (by simpa using hd)
    rw [List.length_map] at this
    exact this
  have ep : pearson l = some (pcov l / (Real.sqrt (pvar (l.map Prod.fst)) * Real.sqrt (pvar (l.map Prod.snd)))) := by
    unfold pearson; rw [if_neg (by tauto)]
  have k1 : 2 * (Real.sqrt c * Real.sqrt (pvar (l.map Prod.fst))) * (Real.sqrt c * Real.sqrt (pvar (l.map Prod.snd))) *
      (1 - pcov l / (Real.sqrt (pvar (l.map Prod.fst)) * Real.sqrt (pvar (l.map Prod.snd)))) = c * dec.2.1 := by
    have : dec.2.1 = 2 * Real.sqrt (pvar (l.map Prod.fst)) * Real.sqrt (pvar (l.map Prod.snd)) - 2 * pcov l := t3
    rw [this]
    have e : 2 * (Real.sqrt c * Real.sqrt (pvar (l.map Prod.fst))) * (Real.sqrt c * Real.sqrt (pvar (l.map Prod.snd))) *
      (1 - pcov l / (Real.sqrt (pvar (l.map Prod.fst)) * Real.sqrt (pvar (l.map Prod.snd)))) =
      (Real.sqrt c * Real.sqrt c) * (2 * Real.sqrt (pvar (l.map Prod.fst)) * Real.sqrt (pvar (l.map Prod.snd)) - 2 * pcov l) := by
      field_simp
    rw [e, hcs]
  have k2 : (Real.sqrt c * Real.sqrt (pvar (l.map Prod.fst)) - Real.sqrt c * Real.sqrt (pvar (l.map Prod.snd))) ^ 2 = c * dec.2.2.2 := by
    have : dec.2.2.2 = (Real.sqrt (pvar (l.map Prod.fst)) - Real.sqrt (pvar (l.map Prod.snd))) ^ 2 := t5
    rw [this]
    linear_combination (Real.sqrt (pvar (l.map Prod.fst)) - Real.sqrt (pvar (l.map Prod.snd))) ^ 2 * hcs
  have k3 : bias l ^ 2 = dec.2.2.1 := by
    have : dec.2.2.1 = (mean (l.map Prod.fst) - mean (l.map Prod.snd)) ^ 2 := t4
    rw [this, bias_mean]
  constructor
  · unfold oldMse
    rw [scipyPearsonr_eq l h, ex, ey, ep]
    simp only [Option.bind_some, Option.map_some, k1, k2, k3]
  · intro h0
    have hc1 : c = 1 := by simp only [c, h0]; rw [Int.cast_zero, sub_zero, div_self hn.ne']
    rw [hc1]
    refine ⟨?_, by ring, by ring⟩
    have t1' : dec.1 = dec.2.1 + dec.2.2.1 + dec.2.2.2 := t1
    have t2' : dec.1 = meanSqDiff l := t2
    linarith

/-- C81 fails for a constant series: the mean squared difference is defined, but `mse` returns NaN for it and for its correlation
component. -/
theorem old_mse_constant (l : Pairs) (h : 2 ≤ l.length) (hc : pvar (l.map Prod.fst) = 0 ∨ pvar (l.map Prod.snd) = 0) (d : ℤ) :
    ∃ r, oldMse l d = .ok r ∧ r.mse = none ∧ r.corr = none ∧ r.bias = some ((mean (l.map Prod.fst) - mean (l.map Prod.snd)) ^ 2) := by
  have ep : pearson l = none := by unfold pearson; rw [if_pos hc]
  unfold oldMse
  rw [scipyPearsonr_eq l h, ep]
  have e : ((npStd (l.map Prod.fst) d).bind fun a => (npStd (l.map Prod.snd) d).bind fun b =>
      (none : Option ℝ).map fun r => 2 * a * b * (1 - r)) = none := by
    cases npStd (l.map Prod.fst) d <;> cases npStd (l.map Prod.snd) d <;> rfl
  refine ⟨_, rfl, ?_, e, ?_⟩
  · simp only [e, Option.bind_none]
  · show some (bias l ^ 2) = _
    rw [bias_mean]

/-- C81 for any `ddof`: the first value is the mean squared difference with its centred part enlarged by n / (n - ddof). -/
theorem old_mse_total (l : Pairs) (h : 2 ≤ l.length) (d : ℤ) (hd : d < l.length)
    (hx : pvar (l.map Prod.fst) ≠ 0) (hy : pvar (l.map Prod.snd) ≠ 0) :
    ∃ r, oldMse l d = .ok r ∧ r.mse = some ((l.length : ℝ) / ((l.length : ℝ) - d) * pvar (l.map (fun p => p.1 - p.2)) +
      (mean (l.map Prod.fst) - mean (l.map Prod.snd)) ^ 2) := by
  have hne : l ≠ [] := by rintro rfl; simp at h
  refine ⟨_, (old_mse_partial l h d hd hx hy).1, ?_⟩
  obtain ⟨t1, t2, -, -, -, -, -, -, t3, t4, t5⟩ := mse_decomposition_exact l hne
  have hv := pvar_diff l hne
  have sx := Real.sq_sqrt (pvar_nonneg (l.map Prod.fst))
  have sy := Real.sq_sqrt (pvar_nonneg (l.map Prod.snd))
  simp only at t3 t4 t5 ⊢
  rw [t3, t4, t5, hv]
  refine congrArg some ?_
  linear_combination ((l.length : ℝ) / ((l.length : ℝ) - d)) * (sx + sy)

/-- C81 fails for `ddof ≠ 0`: the first value is not the sum of the squared differences divided by n - ddof (the documented divisor): 6
instead of 10 for the pairs (0, 1), (2, 5). One observation raises ValueError. -/
theorem old_mse_ddof_not_error :
    (∃ r, oldMse [(0, 1), (2, 5)] 1 = .ok r ∧ r.mse = some 6 ∧ RSS [(0, 1), (2, 5)] / (2 - 1) = 10) ∧
    (∀ p d, oldMse [p] d = .error .valueError) := by
  constructor
  · obtain ⟨r, h1, h2⟩ := old_mse_total [(0, 1), (2, 5)] (by simp) 1 (by norm_num) (by norm_num [pvar, mean]) (by norm_num [pvar, mean])
    refine ⟨r, h1, ?_, by norm_num [RSS]⟩
    rw [h2]
    norm_num [pvar, mean]
  · intro p d
    rfl

/-- Two series that vary; one that does not. -/
example : pvar ([((0 : ℝ), (1 : ℝ)), (2, 5)].map Prod.fst) ≠ 0 ∧ pvar ([((0 : ℝ), (1 : ℝ)), (2, 5)].map Prod.snd) ≠ 0 ∧
    pvar ([((3 : ℝ), (1 : ℝ)), (3, 5)].map Prod.fst) = 0 ∧ meanSqDiff [((3 : ℝ), (1 : ℝ)), (3, 5)] = 4 := by
  refine ⟨?_, ?_, ?_, ?_⟩ <;> norm_num [pvar, mean, meanSqDiff]

/-! ### The median -/

/-- `v` is a median of `l`: half of the values or more are at most `v`, half or more at least `v`. -/
def IsMedian (l : List ℝ) (v : ℝ) : Prop :=
  l.length ≤ 2 * (l.filter (fun a => decide (a ≤ v))).length ∧ l.length ≤ 2 * (l.filter (fun a => decide (v ≤ a))).length

theorem le_filter_length {α : Type} (s : List α) (p : α → Bool) (k : ℕ) (hk : k ≤ s.length) (h : ∀ x ∈ s.take k, p x = true) :
    k ≤ (s.filter p).length := by
  conv_rhs => rw [← List.take_append_drop k s, List.filter_append, List.length_append, List.filter_eq_self.mpr h, List.length_take]
  omega

theorem filter_length_le {α : Type} (s : List α) (p : α → Bool) (k : ℕ) (h : ∀ x ∈ s.drop k, p x = false) :
    (s.filter p).length ≤ k := by
  have e : (s.drop k).filter p = [] := by
    rw [List.filter_eq_nil_iff]
    intro x hx
    simp [h x hx]
  conv_lhs => rw [← List.take_append_drop k s, List.filter_append, List.length_append, e]
  have := List.length_filter_le p (s.take k)
  rw [List.length_take] at this
  simp only [List.length_nil]
  omega

theorem le_filter_length_drop {α : Type} (s : List α) (p : α → Bool) (k : ℕ) (h : ∀ x ∈ s.drop k, p x = true) :
    s.length - k ≤ (s.filter p).length := by
  conv_rhs => rw [← List.take_append_drop k s, List.filter_append, List.length_append, List.filter_eq_self.mpr h, List.length_drop]
  omega

theorem filter_length_le_drop {α : Type} (s : List α) (p : α → Bool) (k : ℕ) (h : ∀ x ∈ s.take k, p x = false) :
    (s.filter p).length ≤ s.length - k := by
  have e : (s.take k).filter p = [] := by
    rw [List.filter_eq_nil_iff]
    intro x hx
    simp [h x hx]
  conv_lhs => rw [← List.take_append_drop k s, List.filter_append, List.length_append, e]
  have := List.length_filter_le p (s.drop k)
  rw [List.length_drop] at this
  simp only [List.length_nil]
  omega

/-- C81, `mad`: the value is the middle of the set of all medians of the absolute differences. It does not depend on the order of the two
series. -/
theorem mad_median (l : Pairs) (h : l ≠ []) :
    (∃ m a b, madOf l = some m ∧ a ≤ b ∧ m = (a + b) / 2 ∧ ∀ v, IsMedian (l.map (fun p => |p.1 - p.2|)) v ↔ a ≤ v ∧ v ≤ b) ∧
    madOf (l.map Prod.swap) = madOf l := by
  constructor
  · set x := l.map (fun p : ℝ × ℝ => |p.1 - p.2|) with hx
    have hxne : x ≠ [] := by simpa [hx] using h
    set s := x.insertionSort (· ≤ ·) with hs
    have hperm : s.Perm x := List.perm_insertionSort _ _
    have hlen : s.length = x.length := hperm.length_eq
    have hpos : 0 < s.length := by rw [hlen]; exact List.length_pos_iff.mpr hxne
    have hsort : s.Pairwise (· ≤ ·) := List.pairwise_insertionSort _ _
    have hmono : ∀ i j (hi : i < s.length) (hj : j < s.length), i ≤ j → s[i] ≤ s[j] := by
      intro i j hi hj hij
      rcases Nat.lt_or_eq_of_le hij with h1 | rfl
      · exact List.pairwise_iff_getElem.mp hsort i j hi hj h1
      · exact le_rfl
    have i1 : (s.length - 1) / 2 < s.length := by omega
    have i2 : s.length / 2 < s.length := by omega
    have hf : ∀ p : ℝ → Bool, (x.filter p).length = (s.filter p).length := fun p => ((hperm.filter p).length_eq).symm
    refine ⟨_, s[(s.length - 1) / 2], s[s.length / 2], ?_, hmono _ _ _ _ (by omega), rfl, ?_⟩
    · unfold madOf npMedian
      rw [← hx, if_neg hxne, ← hs]
      simp only [List.getD_eq_getElem _ _ i1, List.getD_eq_getElem _ _ i2]
    · intro v
      unfold IsMedian
      rw [hf, hf, ← hlen]
      constructor
      · rintro ⟨h1, h2⟩
        constructor
        · by_contra hc
          push Not at hc
          have := filter_length_le s (fun a => decide (a ≤ v)) ((s.length - 1) / 2) (by
            intro y hy
            obtain ⟨i, hi, rfl⟩ := List.mem_iff_getElem.mp hy
            rw [List.length_drop] at hi
            rw [List.getElem_drop]
            simp only [decide_eq_false_iff_not, not_le]
            exact lt_of_lt_of_le hc (hmono _ _ _ (by omega) (by omega)))
          omega
        · by_contra hc
          push Not at hc
          have := filter_length_le_drop s (fun a => decide (v ≤ a)) (s.length / 2 + 1) (by
            intro y hy
            obtain ⟨i, hi, rfl⟩ := List.mem_iff_getElem.mp hy
            rw [List.length_take] at hi
            rw [List.getElem_take]
            simp only [decide_eq_false_iff_not, not_le]
            exact lt_of_le_of_lt (hmono _ _ (by omega) i2 (by omega)) hc)
          omega
      · rintro ⟨h1, h2⟩
        constructor
        · have := le_filter_length s (fun a => decide (a ≤ v)) ((s.length - 1) / 2 + 1) (by omega) (by
            intro y hy
            obtain ⟨i, hi, rfl⟩ := List.mem_iff_getElem.mp hy
            rw [List.length_take] at hi
            rw [List.getElem_take]
            simp only [decide_eq_true_eq]
            exact le_trans (hmono _ _ (by omega) i1 (by omega)) h1)
          omega
        · have := le_filter_length_drop s (fun a => decide (v ≤ a)) (s.length / 2) (by
            intro y hy
            obtain ⟨i, hi, rfl⟩ := List.mem_iff_getElem.mp hy
            rw [List.length_drop] at hi
            rw [List.getElem_drop]
            simp only [decide_eq_true_eq]
            exact le_trans h2 (hmono _ _ i2 (by omega) (by omega)))
          omega
  · unfold madOf
    rw [List.map_map]
    refine congrArg npMedian (List.map_congr_left ?_)
    intro p _
    exact abs_sub_comm _ _

example : madOf [(2, 1), (5, 2)] = madOf [(1, 2), (2, 5)] := (mad_median [(1, 2), (2, 5)] (by simp)).2

/-- the numbers from 2 to 5 are the medians of 1, 2, 5, 9 -/
example : IsMedian [5, 1, 9, 2] 3 ∧ ¬ IsMedian [5, 1, 9, 2] 6 := by
  constructor
  · norm_num [IsMedian, List.filter]
  · norm_num [IsMedian, List.filter]

end Verif.Pairwise
