import Verif.Tcol.Ieee
import Verif.Tcol.Props

/-! C116: proofs. -/

noncomputable section

namespace Verif.Tcol

theorem next_ne (i : Fin 3) : i ≠ i + 1 ∧ i ≠ i + 2 ∧ i + 1 ≠ i + 2 := by revert i; decide

theorem npCovFl_fin (rows : List Row) (h : 2 ≤ rows.length) : npCovFl rows = fun i j => Fl.fin (npCov rows i j) := by
  funext i j
  unfold npCovFl
  rw [if_neg (by omega)]

theorem npCov_symm (rows : List Row) (i j : Fin 3) : npCov rows i j = npCov rows j i := by
  unfold npCov
  congr 2
  apply List.map_congr_left
  intro r _
  ring

/-! ### The three formulas, by cases -/

section
variable {c : Fin 3 → Fin 3 → ℝ} {i : Fin 3}

/-- the ratio in the signal-to-noise ratio -/
theorem ratio_eq (h : Correlated c) : c i i * c (i + 1) (i + 2) / (c i (i + 1) * c i (i + 2)) = c i i / signalVar c i := by
  unfold signalVar
  obtain ⟨h1, h2, h3⟩ := next_ne i
  have a := h _ _ h1
  have b := h _ _ h2
  have d := h _ _ h3
  field_simp

theorem signal_ne (h : Correlated c) : signalVar c i ≠ 0 := by
  unfold signalVar
  obtain ⟨h1, h2, h3⟩ := next_ne i
  exact div_ne_zero (mul_ne_zero (h _ _ h1) (h _ _ h2)) (h _ _ h3)

theorem snr_correlated (h : Correlated c) :
    snrFl (fun i j => .fin (c i j)) i = if |c i i / signalVar c i| = 1 then .inf false else .fin (10 * Real.logb 10 (|(|c i i / signalVar c i| - 1)|⁻¹)) := by
  obtain ⟨h1, h2, h3⟩ := next_ne i
  have hp : c i (i + 1) * c i (i + 2) ≠ 0 := mul_ne_zero (h _ _ h1) (h _ _ h2)
  unfold snrFl
  simp only [Fl.mul, Fl.div, if_neg hp, Fl.abs, Fl.sub, ratio_eq h]
  by_cases hq : |c i i / signalVar c i| = 1
  · rw [if_pos hq]
    simp only [hq, sub_self, abs_zero, if_true, one_ne_zero, if_false, Fl.log10, if_neg (show ¬ (1 : ℝ) < 0 by norm_num), decide_eq_true_eq]
    norm_num
  · rw [if_neg hq]
    have hne : |(|c i i / signalVar c i| - 1)| ≠ 0 := by
      rw [abs_ne_zero]
      exact sub_ne_zero.mpr hq
    have hpos : 0 < |(|c i i / signalVar c i| - 1)| := lt_of_le_of_ne (abs_nonneg _) hne.symm
    rw [if_neg hne]
    simp only [Fl.log10, one_div]
    rw [if_neg (not_lt.mpr (inv_nonneg.mpr hpos.le)), if_neg (inv_ne_zero hne)]

theorem errVar_correlated (h : Correlated c) : errVarFl (fun i j => .fin (c i j)) i = .fin (errorVar c i) := by
  obtain ⟨h1, h2, h3⟩ := next_ne i
  unfold errVarFl errorVar signalVar
  simp only [Fl.mul, Fl.div, if_neg (h _ _ h3), Fl.sub]

theorem beta_correlated (h : Correlated c) (ref : Fin 3) :
    betaFl (fun i j => .fin (c i j)) ref i = .fin (if i ≠ ref then c ref (otherInd ref i) / c i (otherInd ref i) else 1) := by
  unfold betaFl
  by_cases hi : i ≠ ref
  · rw [if_pos hi, if_pos hi]
    obtain ⟨o1, o2⟩ := otherInd_spec ref i hi
    simp only [Fl.div, if_neg (h _ _ o2.symm)]
  · rw [if_neg hi, if_neg hi]

end

/-! ### Refinement: the model of C13 is exact where it is meant to be -/

/-- **C116.** With at least two observations and correlated data sets the results are those of the model without special values (C13), provided that
error variances are not negative and no data set is without error. -/
theorem exact_model (rows : List Row) (h2 : 2 ≤ rows.length) (hc : Correlated (npCov rows)) (ref i : Fin 3) :
    (tcolFl rows ref i).beta = .fin ((tcolMetrics rows ref).beta i) ∧
    (0 ≤ errorVar (npCov rows) i → (tcolFl rows ref i).errStd = .fin ((tcolMetrics rows ref).errStd i)) ∧
    (|npCov rows i i / signalVar (npCov rows) i| ≠ 1 → (tcolFl rows ref i).snr = .fin ((tcolMetrics rows ref).snr i)) := by
  unfold tcolFl
  rw [npCovFl_fin rows h2]
  simp only [beta_correlated hc, errVar_correlated hc, snr_correlated hc]
  refine ⟨rfl, ?_, ?_⟩
  · intro h
    simp only [Fl.sqrt, if_neg (not_lt.mpr h), Fl.mul]
    rfl
  · intro h
    rw [if_neg h]
    unfold tcolMetrics tcolMetricsFromCov
    simp only [ratio_eq hc]

/-! ### Consistency -/

/-- the scaling coefficient as number -/
def betaOf (c : Fin 3 → Fin 3 → ℝ) (ref i : Fin 3) : ℝ := if i ≠ ref then c ref (otherInd ref i) / c i (otherInd ref i) else 1

/-- **C116.** If the implied variances of signal and error are positive, the reported signal-to-noise ratio is that of these two variances, the reported
error standard deviation is the root of the error variance in the units of the reference, and the two variances add up to the variance of the data. -/
theorem snr_and_error_agree_partial (rows : List Row) (h2 : 2 ≤ rows.length) (hc : Correlated (npCov rows)) (ref i : Fin 3)
    (hs : 0 < signalVar (npCov rows) i) (he : 0 < errorVar (npCov rows) i) :
    (tcolFl rows ref i).snr = .fin (10 * Real.logb 10 (signalVar (npCov rows) i / errorVar (npCov rows) i)) ∧
    (tcolFl rows ref i).errStd = .fin (Real.sqrt (errorVar (npCov rows) i) * betaOf (npCov rows) ref i) ∧
    signalVar (npCov rows) i + errorVar (npCov rows) i = npCov rows i i := by
  unfold tcolFl
  rw [npCovFl_fin rows h2]
  simp only [beta_correlated hc, errVar_correlated hc, snr_correlated hc]
  have hv : npCov rows i i = signalVar (npCov rows) i + errorVar (npCov rows) i := by unfold errorVar; ring
  have hq : npCov rows i i / signalVar (npCov rows) i = 1 + errorVar (npCov rows) i / signalVar (npCov rows) i := by
    rw [hv]; field_simp
  have hp : 0 < errorVar (npCov rows) i / signalVar (npCov rows) i := div_pos he hs
  refine ⟨?_, ?_, hv.symm⟩
  · rw [hq, abs_of_pos (by linarith), if_neg (by linarith), add_sub_cancel_left, abs_of_pos hp, inv_div]
  · simp only [Fl.sqrt, if_neg (not_lt.mpr he.le), Fl.mul]
    rfl

/-- **C116.** A data set without error: infinite signal-to-noise ratio, no error. -/
theorem no_error (rows : List Row) (h2 : 2 ≤ rows.length) (hc : Correlated (npCov rows)) (ref i : Fin 3)
    (he : errorVar (npCov rows) i = 0) : (tcolFl rows ref i).snr = .inf false ∧ (tcolFl rows ref i).errStd = .fin 0 := by
  unfold tcolFl
  rw [npCovFl_fin rows h2]
  simp only [beta_correlated hc, errVar_correlated hc, snr_correlated hc]
  have hv : npCov rows i i = signalVar (npCov rows) i := by unfold errorVar at he; linarith
  constructor
  · rw [hv, div_self (signal_ne hc), abs_one, if_pos rfl]
  · simp [he, Fl.sqrt, Fl.mul]

/-- **C116 fails** if the implied variance of the error is negative: the error standard deviation is NaN, but the signal-to-noise ratio is a number (the
ratio of the signal to the absolute value of the error variance). -/
theorem snr_without_error (rows : List Row) (h2 : 2 ≤ rows.length) (hc : Correlated (npCov rows)) (ref i : Fin 3)
    (hs : 0 < signalVar (npCov rows) i) (hi : 0 < npCov rows i i) (he : errorVar (npCov rows) i < 0) :
    (tcolFl rows ref i).errStd = .nan ∧
    (tcolFl rows ref i).snr = .fin (10 * Real.logb 10 (signalVar (npCov rows) i / -errorVar (npCov rows) i)) := by
  unfold tcolFl
  rw [npCovFl_fin rows h2]
  simp only [beta_correlated hc, errVar_correlated hc, snr_correlated hc]
  constructor
  · simp [Fl.sqrt, if_pos he, Fl.mul]
  · have hv : npCov rows i i = signalVar (npCov rows) i + errorVar (npCov rows) i := by unfold errorVar; ring
    have hq : npCov rows i i / signalVar (npCov rows) i = 1 + errorVar (npCov rows) i / signalVar (npCov rows) i := by
      rw [hv]; field_simp
    have hp : errorVar (npCov rows) i / signalVar (npCov rows) i < 0 := div_neg_of_neg_of_pos he hs
    have hpos : 0 < npCov rows i i / signalVar (npCov rows) i := div_pos hi hs
    rw [abs_of_pos hpos, hq, if_neg (by linarith), add_sub_cancel_left, abs_of_neg hp, ← div_neg, inv_div]
    congr 3
    rw [neg_div, ← div_neg]

/-- **C116 fails** if the implied variance of the signal is negative (one or three of the covariances are negative): the squared error standard deviation
is larger than the variance of the data, and still there is a signal-to-noise ratio; it is even infinite if the two variances are `-v` and `2 v`. -/
theorem snr_of_negative_signal (rows : List Row) (h2 : 2 ≤ rows.length) (hc : Correlated (npCov rows)) (ref i : Fin 3)
    (hs : signalVar (npCov rows) i < 0) (hi : 0 ≤ npCov rows i i) :
    (tcolFl rows ref i).errStd = .fin (Real.sqrt (errorVar (npCov rows) i) * betaOf (npCov rows) ref i) ∧
    npCov rows i i < Real.sqrt (errorVar (npCov rows) i) ^ 2 ∧
    (tcolFl rows ref i).snr = if npCov rows i i = -signalVar (npCov rows) i then .inf false
      else .fin (10 * Real.logb 10 (-signalVar (npCov rows) i / |npCov rows i i + signalVar (npCov rows) i|)) := by
  unfold tcolFl
  rw [npCovFl_fin rows h2]
  simp only [beta_correlated hc, errVar_correlated hc, snr_correlated hc]
  have he : 0 < errorVar (npCov rows) i := by unfold errorVar; linarith
  refine ⟨?_, ?_, ?_⟩
  · simp only [Fl.sqrt, if_neg (not_lt.mpr he.le), Fl.mul]
    rfl
  · rw [Real.sq_sqrt he.le]
    unfold errorVar
    linarith
  · set s := signalVar (npCov rows) i
    set v := npCov rows i i
    have habs : |v / s| = v / -s := by
      rw [abs_div, abs_of_nonneg hi, abs_of_neg hs]
    rw [habs]
    have hs' : 0 < -s := by linarith
    by_cases h : v = -s
    · rw [if_pos h, if_pos (by rw [h]; exact div_self hs'.ne')]
    · rw [if_neg h, if_neg (by rw [div_eq_one_iff_eq hs'.ne']; exact h)]
      congr 3
      have : v / -s - 1 = (v + s) / -s := by rw [add_div, sub_eq_add_neg, show s / -s = -1 by rw [div_neg, div_self hs.ne]]
      rw [this, abs_div, abs_of_pos hs', inv_div]

/-- **C116 fails** if the two other data sets are uncorrelated: the signal-to-noise ratio is 0 dB (signal and noise equal), whatever the data are, while
the error is NaN or infinite. -/
theorem snr_of_uncorrelated_others (rows : List Row) (h2 : 2 ≤ rows.length) (ref i : Fin 3) (h0 : npCov rows (i + 1) (i + 2) = 0)
    (h1 : npCov rows i (i + 1) ≠ 0) (h3 : npCov rows i (i + 2) ≠ 0) :
    (tcolFl rows ref i).snr = .fin 0 ∧ ∀ x, (tcolFl rows ref i).errStd ≠ .fin x := by
  unfold tcolFl
  rw [npCovFl_fin rows h2]
  have hp := mul_ne_zero h1 h3
  constructor
  · unfold snrFl
    have h10 : ¬ (1 : ℝ) < 0 := by norm_num
    simp only [Fl.mul, Fl.div, if_neg hp, h0, Fl.abs, Fl.sub, mul_zero, zero_div, abs_zero, zero_sub, abs_neg, abs_one, if_neg one_ne_zero, div_one, Fl.log10, if_neg h10, Real.logb_one]
  · intro x
    simp only [errVarFl, Fl.mul, Fl.div, h0, if_true, if_neg hp, Fl.sub, Fl.sqrt]
    by_cases hneg : npCov rows i (i + 1) * npCov rows i (i + 2) < 0
    · simp only [hneg, decide_true, Bool.not_true, Bool.false_eq_true, if_false]
      cases betaFl (fun i j => Fl.fin (npCov rows i j)) ref i <;> simp [Fl.mul]
      split <;> simp
    · simp [hneg, Fl.mul]

/-- **C116 fails** for a constant reference data set: it is reported with error 0. -/
theorem constant_reference_without_error (rows : List Row) (h2 : 2 ≤ rows.length) (ref : Fin 3) (h0 : npCov rows ref ref = 0)
    (h1 : npCov rows ref (ref + 1) = 0) (h3 : npCov rows (ref + 1) (ref + 2) ≠ 0) :
    (tcolFl rows ref ref).errStd = .fin 0 ∧ (tcolFl rows ref ref).snr = .nan := by
  unfold tcolFl
  rw [npCovFl_fin rows h2]
  constructor
  · simp [errVarFl, betaFl, Fl.mul, Fl.div, h0, h1, h3, Fl.sub, Fl.sqrt]
  · simp [snrFl, Fl.mul, Fl.div, h0, h1, Fl.abs, Fl.sub, Fl.log10]

/-- a constant series has no covariance with anything -/
theorem npCov_constant (rows : List Row) (h : rows ≠ []) (i j : Fin 3) (k : ℝ) (hk : ∀ r ∈ rows, r i = k) : npCov rows i j = 0 := by
  have hl : (rows.length : ℝ) ≠ 0 := by
    have := List.length_pos_iff.mpr h
    positivity
  have ha : avg rows (fun r => r i) = k := by
    unfold avg
    rw [List.map_congr_left hk]
    simp only [List.map_const', List.sum_replicate, nsmul_eq_mul]
    field_simp
  unfold npCov
  rw [ha, List.map_congr_left (g := fun _ => (0 : ℝ)) (by intro r hr; rw [hk r hr]; ring)]
  simp

/-- **C116.** Fewer than two observations: nothing but the scaling coefficient 1 of the reference. -/
theorem too_few_observations (rows : List Row) (h : rows.length < 2) (ref i : Fin 3) :
    (tcolFl rows ref i).snr = .nan ∧ (tcolFl rows ref i).errStd = .nan ∧ (tcolFl rows ref i).beta = if i = ref then .fin 1 else .nan := by
  have hc : npCovFl rows = fun _ _ => .nan := by
    funext i j
    unfold npCovFl
    rw [if_pos h]
  unfold tcolFl
  rw [hc]
  refine ⟨rfl, rfl, ?_⟩
  unfold betaFl
  by_cases hi : i = ref
  · simp [hi]
  · simp [hi, Fl.div]

/-! ### Data that meet the hypotheses -/

/-- four observations of a signal (1, 1, -1, -1) and of the signal plus and minus `a` times (1, -1, 1, -1) -/
def exRows (a : ℝ) : List Row := [![1, 1 + a, 1 - a], ![1, 1 - a, 1 + a], ![-1, -1 + a, -1 - a], ![-1, -1 - a, -1 + a]]

theorem exRows_cov (a : ℝ) : npCov (exRows a) 0 0 = 4 / 3 ∧ npCov (exRows a) 0 1 = 4 / 3 ∧ npCov (exRows a) 0 2 = 4 / 3 ∧
    npCov (exRows a) 1 2 = (4 - 4 * a ^ 2) / 3 ∧ npCov (exRows a) 1 1 = (4 + 4 * a ^ 2) / 3 ∧ npCov (exRows a) 2 2 = (4 + 4 * a ^ 2) / 3 := by
  refine ⟨?_, ?_, ?_, ?_, ?_, ?_⟩ <;> simp [npCov, exRows, avg] <;> ring_nf

theorem exRows_correlated (a : ℝ) (h : a ^ 2 ≠ 1) : Correlated (npCov (exRows a)) := by
  obtain ⟨-, h1, h2, h3, -⟩ := exRows_cov a
  have h3' : npCov (exRows a) 1 2 ≠ 0 := by
    rw [h3]
    intro h0
    apply h
    linarith
  intro i j hij
  fin_cases i <;> fin_cases j <;> simp only [Fin.zero_eta, Fin.mk_one, Fin.reduceFinMk, ne_eq, not_true_eq_false] at hij ⊢
  · rw [h1]; norm_num
  · rw [h2]; norm_num
  · rw [npCov_symm, h1]; norm_num
  · exact h3'
  · rw [npCov_symm, h2]; norm_num
  · rw [npCov_symm]; exact h3'

theorem exRows_signal (a : ℝ) : signalVar (npCov (exRows a)) 0 = 16 / 9 / ((4 - 4 * a ^ 2) / 3) := by
  obtain ⟨-, h1, h2, h3, -⟩ := exRows_cov a
  unfold signalVar
  simp only [zero_add]
  rw [h1, h2, h3]
  norm_num

example := exact_model (exRows (1 / 2)) (by simp [exRows]) (exRows_correlated _ (by norm_num)) 0 1

/-- the second data set for `a = 1/2`: positive variances of signal and error -/
example := snr_and_error_agree_partial (exRows (1 / 2)) (by simp [exRows]) (exRows_correlated _ (by norm_num)) 0 1
  (by
    have e1 : signalVar (npCov (exRows (1 / 2))) 1 = npCov (exRows (1 / 2)) 1 2 * npCov (exRows (1 / 2)) 1 0 / npCov (exRows (1 / 2)) 2 0 := rfl
    obtain ⟨-, h1, h2, h3, -⟩ := exRows_cov (1 / 2)
    rw [e1, npCov_symm _ 1 0, npCov_symm _ 2 0, h1, h2, h3]; norm_num)
  (by
    have e1 : errorVar (npCov (exRows (1 / 2))) 1 = npCov (exRows (1 / 2)) 1 1 - npCov (exRows (1 / 2)) 1 2 * npCov (exRows (1 / 2)) 1 0 / npCov (exRows (1 / 2)) 2 0 := rfl
    obtain ⟨-, h1, h2, h3, h4, -⟩ := exRows_cov (1 / 2)
    rw [e1, npCov_symm _ 1 0, npCov_symm _ 2 0, h1, h2, h3, h4]; norm_num)

/-- the first data set for `a = 0`: all three are equal, no error -/
example := no_error (exRows 0) (by simp [exRows]) (exRows_correlated _ (by norm_num)) 0 0
  (by unfold errorVar; rw [exRows_signal, (exRows_cov 0).1]; norm_num)

/-- the first data set for `a = 1/2`: signal variance 16/9, error variance -4/9 -/
example := snr_without_error (exRows (1 / 2)) (by simp [exRows]) (exRows_correlated _ (by norm_num)) 0 0
  (by rw [exRows_signal]; norm_num) (by rw [(exRows_cov _).1]; norm_num) (by unfold errorVar; rw [exRows_signal, (exRows_cov _).1]; norm_num)

/-- the first data set for `a = 2`: signal variance -4/9 -/
example := snr_of_negative_signal (exRows 2) (by simp [exRows]) (exRows_correlated _ (by norm_num)) 0 0
  (by rw [exRows_signal]; norm_num) (by rw [(exRows_cov _).1]; norm_num)

/-- the first data set for `a = 1`: the others are uncorrelated -/
example := snr_of_uncorrelated_others (exRows 1) (by simp [exRows]) 0 0
  (by show npCov (exRows 1) 1 2 = 0; rw [(exRows_cov 1).2.2.2.1]; norm_num) (by show npCov (exRows 1) 0 1 ≠ 0; rw [(exRows_cov 1).2.1]; norm_num)
  (by show npCov (exRows 1) 0 2 ≠ 0; rw [(exRows_cov 1).2.2.1]; norm_num)

/-- a constant reference -/
example := constant_reference_without_error [![5, 1, 1], ![5, 2, 3]] (by simp) 0 (npCov_constant _ (by simp) 0 0 5 (by simp))
  (npCov_constant _ (by simp) 0 1 5 (by simp)) (by show npCov [![5, 1, 1], ![5, 2, 3]] 1 2 ≠ 0; simp [npCov, avg]; norm_num)

example := too_few_observations [![1, 2, 3]] (by simp) 0 1

end Verif.Tcol
