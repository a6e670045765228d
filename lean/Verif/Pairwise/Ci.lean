import Mathlib.Analysis.Complex.ExponentialBounds
import Verif.Pairwise.Props

/-! C50: analytical confidence intervals. The scipy quantile functions are parameters; the facts about them that are needed
(monotone, zero median of symmetric distributions) are explicit hypotheses. -/

namespace Verif.Pairwise

open Verif.Moments

/-- What is used of a quantile function of a distribution that is symmetric around 0: monotone, median 0. -/
structure SymQuantile (q : ℝ → ℝ) : Prop where
  mono : ∀ a b, 0 < a → a ≤ b → b < 1 → q a ≤ q b
  median : q (1 / 2) = 0

theorem SymQuantile.nonneg {q : ℝ → ℝ} (h : SymQuantile q) {alpha : ℝ} (h0 : 0 < alpha) (ha : alpha ≤ 1) :
    0 ≤ q (1 - alpha / 2) := by
  rw [← h.median]; exact h.mono _ _ (by norm_num) (by linarith) (by linarith)

/-- the interval `i` contains `v` -/
def Encloses (i : ℝ × ℝ) (v : ℝ) : Prop := i.1 ≤ v ∧ v ≤ i.2
/-- the interval `i` is contained in `j` -/
def Within (i j : ℝ × ℝ) : Prop := j.1 ≤ i.1 ∧ i.2 ≤ j.2

/-- C50, bias: encloses the estimate; smaller alpha gives a wider interval. -/
theorem bias_ci_correct (tppf : ℝ → ℝ → ℝ) (ht : ∀ df, SymQuantile (fun q => tppf q df)) (l : Pairs) (b : ℝ) :
    (∀ alpha, 0 < alpha → alpha ≤ 1 → Encloses (biasCi tppf l b alpha) b) ∧
    (∀ a a', 0 < a → a ≤ a' → a' ≤ 1 → Within (biasCi tppf l b a') (biasCi tppf l b a)) := by
  have hs : 0 ≤ npStd1 (l.map (fun p => p.1 - p.2)) / Real.sqrt (num l) :=
    div_nonneg (Real.sqrt_nonneg _) (Real.sqrt_nonneg _)
  constructor
  · intro alpha h0 ha
    have := mul_nonneg hs ((ht (num l - 1)).nonneg h0 ha)
    simp only [biasCi, Encloses]
    constructor <;> linarith
  · intro a a' h0 h h1
    have := mul_le_mul_of_nonneg_left ((ht (num l - 1)).mono (1 - a' / 2) (1 - a / 2) (by linarith) (by linarith)
      (by linarith)) hs
    simp only [biasCi, Within]
    constructor <;> linarith

/-- C50, bias: the interval computed from the moments (used by the intercomparison calculators) is the same interval. -/
theorem bias_ci_from_moments_eq (tppf : ℝ → ℝ → ℝ) (l : Pairs) (h : 2 ≤ l.length) (alpha : ℝ) :
    biasCiFromMoments tppf alpha (momentsWelford l) (num l) = biasCi tppf l (bias l) alpha := by
  have hne : l ≠ [] := by rintro rfl; simp at h
  have hn := len_pos (K := ℝ) l hne
  have hn1 : (0 : ℝ) < (l.length : ℝ) - 1 := by
    have : (2 : ℝ) ≤ (l.length : ℝ) := by exact_mod_cast h
    linarith
  have hstd : npStd1 (l.map (fun p => p.1 - p.2)) = Real.sqrt ((l.length : ℝ) / ((l.length : ℝ) - 1) *
      (pvar (l.map Prod.fst) + pvar (l.map Prod.snd) - 2 * pcov l)) := by
    unfold npStd1
    congr 1
    rw [npMean_eq, List.map_map, List.length_map]
    have hvar := pvar_eq l (fun p : ℝ × ℝ => p.1 - p.2)
    have hdec := meanSqDiff_decomp l hne
    have e1 : ((l.map ((fun a => (a - mean (l.map fun p => p.1 - p.2)) ^ 2) ∘ fun p : ℝ × ℝ => p.1 - p.2)).sum) =
        (l.length : ℝ) * pvar (l.map fun p => p.1 - p.2) := by
      unfold pvar; rw [List.map_map, len_mul_mean]; rfl
    rw [e1]
    have e2 : (l.length : ℝ) * meanSqDiff l = S l (fun p => (p.1 - p.2) * (p.1 - p.2)) := by
      unfold meanSqDiff; rw [len_mul_mean]; exact S_congr _ _ _ (fun p _ => sq _)
    have e3 : mean (l.map fun p => p.1 - p.2) = mean (l.map Prod.fst) - mean (l.map Prod.snd) := by
      rw [mean_map, mean_map, mean_map, S_sub]; ring
    rw [e3] at hvar
    rw [div_mul_eq_mul_div]
    congr 1
    linear_combination hvar - e2 + (l.length : ℝ) * hdec
  unfold biasCiFromMoments biasCi
  rw [moments_welford_correct l hne, bias_mean, hstd]
  rfl

/-- C50, correlations: shape shared by the three intervals. -/
theorem fisher_ci (r z w z' : ℝ) (hr : -1 < r ∧ r < 1) (hw : 0 ≤ w) (hz : 0 ≤ z) (hzz : z ≤ z') :
    Encloses (Real.tanh (Real.artanh r - z * w), Real.tanh (Real.artanh r + z * w)) r ∧
    Within (Real.tanh (Real.artanh r - z * w), Real.tanh (Real.artanh r + z * w))
      (Real.tanh (Real.artanh r - z' * w), Real.tanh (Real.artanh r + z' * w)) ∧
    -1 < Real.tanh (Real.artanh r - z * w) ∧ Real.tanh (Real.artanh r + z * w) < 1 := by
  have h1 := mul_nonneg hz hw
  have h2 := mul_le_mul_of_nonneg_right hzz hw
  have h3 := Real.tanh_artanh (x := r) hr
  refine ⟨⟨?_, ?_⟩, ⟨?_, ?_⟩, Real.neg_one_lt_tanh _, Real.tanh_lt_one _⟩
  · conv_rhs => rw [← h3]
    exact tanh_mono (by linarith)
  · conv_lhs => rw [← h3]
    exact tanh_mono (by linarith)
  · exact tanh_mono (by linarith)
  · exact tanh_mono (by linarith)

/-- C50, Pearson, Spearman, Kendall and the deprecated `pearson_conf`, for |r| < 1 and more than three observations. -/
theorem correlation_ci_correct (normppf : ℝ → ℝ) (hq : SymQuantile normppf) (n r : ℝ) (_hn : 3 < n)
    (hr : -1 < r ∧ r < 1) (a a' : ℝ) (h0 : 0 < a') (haa : a' ≤ a) (ha : a ≤ 1) :
    (Encloses (pearsonCi normppf n r a) r ∧ Within (pearsonCi normppf n r a) (pearsonCi normppf n r a')) ∧
    (Encloses (spearmanCi normppf n r a) r ∧ Within (spearmanCi normppf n r a) (spearmanCi normppf n r a')) ∧
    (Encloses (kendallCi normppf n r a) r ∧ Within (kendallCi normppf n r a) (kendallCi normppf n r a')) ∧
    pearsonConf normppf r n (100 * (1 - a)) = pearsonCi normppf n r a := by
  have hz := hq.nonneg (lt_of_lt_of_le h0 haa) ha
  have hzz := hq.mono (1 - a / 2) (1 - a' / 2) (by linarith) (by linarith) (by linarith)
  have hs : 0 ≤ Real.sqrt (n - 3) := Real.sqrt_nonneg _
  have k1 := fisher_ci r _ (1 / Real.sqrt (n - 3)) _ hr (by positivity) hz hzz
  have k2 := fisher_ci r _ (Real.sqrt (1 + r ^ 2 / 2) / Real.sqrt (n - 3)) _ hr
    (div_nonneg (Real.sqrt_nonneg _) hs) hz hzz
  have k3 := fisher_ci r _ (0.431 / Real.sqrt (n - 3)) _ hr (div_nonneg (by norm_num) hs) hz hzz
  simp only [mul_one_div] at k1
  simp only [← mul_div_assoc] at k2 k3
  refine ⟨⟨k1.1, k1.2.1⟩, ⟨k2.1, k2.2.1⟩, ⟨k3.1, k3.2.1⟩, ?_⟩
  unfold pearsonConf pearsonCi
  have : 1 - (1 - 100 * (1 - a) / 100) / 2 = 1 - a / 2 := by ring
  simp only [this, one_div, inv_mul_eq_div]

example : Encloses (pearsonCi (fun q => q - 1 / 2) 20 0.7 0.05) 0.7 ∧
    Within (kendallCi (fun q => q - 1 / 2) 20 0.7 0.05) (kendallCi (fun q => q - 1 / 2) 20 0.7 0.01) :=
  have h := correlation_ci_correct (fun q => q - 1 / 2) ⟨fun a b _ h _ => by linarith, by norm_num⟩ 20 0.7 (by norm_num) (by norm_num) 0.05 0.01
    (by norm_num) (by norm_num) (by norm_num)
  ⟨h.1.1, h.2.2.1.2⟩

/-- A function meeting the hypotheses. -/
example : SymQuantile (fun q => q - 1 / 2) := ⟨fun a b _ h _ => by linarith, by norm_num⟩

/-- C50, ubRMSD: monotone positive quantiles give nested intervals, and the interval encloses the estimate whenever `n` lies
between the two quantiles. Missing for the full claim: enclosure for every alpha, which is false
(`ubrmsd_ci_misses_estimate`). -/
theorem ubrmsd_ci_partial (chi2ppf : ℝ → ℝ → ℝ) (l : Pairs) (u : ℝ) (hu : 0 ≤ u)
    (hpos : ∀ q, 0 < q → q < 1 → 0 < chi2ppf q (num l - 1))
    (hmono : ∀ p q, 0 < p → p ≤ q → q < 1 → chi2ppf p (num l - 1) ≤ chi2ppf q (num l - 1)) :
    (∀ a, 0 < a → a < 1 → chi2ppf (a / 2) (num l - 1) ≤ num l → num l ≤ chi2ppf (1 - a / 2) (num l - 1) →
      Encloses (ubrmsdCi chi2ppf l u a) u) ∧
    (∀ a a', 0 < a' → a' ≤ a → a < 1 → Within (ubrmsdCi chi2ppf l u a) (ubrmsdCi chi2ppf l u a')) := by
  have hn : 0 ≤ num l := by unfold num; positivity
  have hnu : 0 ≤ num l * u ^ 2 := by positivity
  constructor
  · intro a h0 h1 hlo hhi
    have q1 := hpos (a / 2) (by linarith) (by linarith)
    have q2 := hpos (1 - a / 2) (by linarith) (by linarith)
    constructor
    · rw [ubrmsdCi]
      apply Real.sqrt_le_iff.mpr
      refine ⟨hu, ?_⟩
      rw [div_le_iff₀ q2]
      nlinarith [sq_nonneg u]
    · rw [ubrmsdCi]
      apply Real.le_sqrt_of_sq_le
      rw [le_div_iff₀ q1]
      nlinarith [sq_nonneg u]
  · intro a a' h0 haa h1
    have q1 := hpos (a' / 2) (by linarith) (by linarith)
    have q2 := hpos (1 - a / 2) (by linarith) (by linarith)
    constructor
    · rw [ubrmsdCi, ubrmsdCi]
      apply Real.sqrt_le_sqrt
      exact div_le_div_of_nonneg_left hnu q2 (hmono _ _ (by linarith) (by linarith) (by linarith))
    · rw [ubrmsdCi, ubrmsdCi]
      apply Real.sqrt_le_sqrt
      exact div_le_div_of_nonneg_left hnu q1 (hmono _ _ (by linarith) (by linarith) (by linarith))

/-- C50 fails for ubRMSD: with three observations the chi-square distribution has 2 degrees of freedom, its quantile function
is `-2 ln(1-q)`, and the 50 % interval of a positive estimate lies above the estimate. -/
theorem ubrmsd_ci_misses_estimate (chi2ppf : ℝ → ℝ → ℝ) (h2 : ∀ q, chi2ppf q 2 = -2 * Real.log (1 - q))
    (l : Pairs) (hl : l.length = 3) (u : ℝ) (hu : 0 < u) : ¬ Encloses (ubrmsdCi chi2ppf l u (1 / 2)) u := by
  have hn : num l = 3 := by unfold num; rw [hl]; norm_num
  rintro ⟨h, -⟩
  revert h
  rw [imp_false, not_le, ubrmsdCi]
  have e : chi2ppf (1 - 1 / 2 / 2) (num l - 1) = 4 * Real.log 2 := by
    rw [hn, show (3 : ℝ) - 1 = 2 by norm_num, h2, show (1 : ℝ) - (1 - 1 / 2 / 2) = 1 / (2 * 2) by norm_num,
      Real.log_div (by norm_num) (by norm_num), Real.log_mul (by norm_num) (by norm_num)]
    simp; ring
  simp only
  rw [e, hn]
  apply Real.lt_sqrt_of_sq_lt
  have l1 := Real.log_two_lt_d9
  have l2 := Real.log_two_gt_d9
  rw [lt_div_iff₀ (by linarith)]
  have : 4 * Real.log 2 < 3 := by linarith
  nlinarith [sq_pos_of_pos hu]

end Verif.Pairwise
