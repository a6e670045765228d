import Verif.Pairwise.Exact
import Verif.Pairwise.Props

/-!
C93: the metrics of a set of pairs do not depend on the order in which the pairs are given, and follow a change of units.

`momentsWelford` and the loops of `_fast_pairwise.pyx` run over the pairs one after the other, so the independence of the
order is a statement about the algorithms, not about the formulas.
-/

set_option linter.unusedSectionVars false

namespace Verif.Pairwise

open Verif.Moments

/-! ### Specification -/

/-- every pair expressed in other units: `x ↦ a x + b` for the first and `y ↦ c y + d` for the second series -/
def units (a b c d : ℝ) (l : List (ℝ × ℝ)) : List (ℝ × ℝ) := l.map (fun p => (a * p.1 + b, c * p.2 + d))

/-! ### Sums under permutation and change of units -/

theorem S_perm {α : Type} {l l' : List α} (h : l.Perm l') (f : α → ℝ) : S l f = S l' f :=
  (h.map f).sum_eq

theorem S_map {α β : Type} (l : List α) (g : α → β) (f : β → ℝ) : S (l.map g) f = S l (fun a => f (g a)) := by
  unfold S; rw [List.map_map]; rfl

theorem mean_perm {l l' : List ℝ} (h : l.Perm l') : mean l = mean l' := by
  unfold mean; rw [h.sum_eq, h.length_eq]

theorem pvar_perm {l l' : List ℝ} (h : l.Perm l') : pvar l = pvar l' := by
  unfold pvar; rw [mean_perm h]; exact mean_perm (h.map _)

theorem pcov_perm {l l' : Pairs} (h : l.Perm l') : pcov l = pcov l' := by
  unfold pcov; rw [mean_perm (h.map Prod.fst), mean_perm (h.map Prod.snd)]; exact mean_perm (h.map _)

theorem moments_perm {l l' : Pairs} (h : l.Perm l') : momentsWelford l = momentsWelford l' := by
  by_cases hl : l = []
  · subst hl; rw [List.nil_perm.mp h]
  · have hl' : l' ≠ [] := by rintro rfl; exact hl (List.perm_nil.mp h)
    rw [moments_welford_correct l hl, moments_welford_correct l' hl', mean_perm (h.map Prod.fst),
      mean_perm (h.map Prod.snd), pvar_perm (h.map Prod.fst), pvar_perm (h.map Prod.snd), pcov_perm h]

theorem maxBoth_perm {l l' : Pairs} (h : l.Perm l') : maxBoth l = maxBoth l' := by
  by_cases hl : l = []
  · subst hl; rw [List.nil_perm.mp h]
  · have hl' : l' ≠ [] := by rintro rfl; exact hl (List.perm_nil.mp h)
    apply le_antisymm
    · obtain ⟨p, hp, e | e⟩ := maxBoth_mem l hl <;> rw [e]
      · exact (maxBoth_ge l' p (h.mem_iff.mp hp)).1
      · exact (maxBoth_ge l' p (h.mem_iff.mp hp)).2
    · obtain ⟨p, hp, e | e⟩ := maxBoth_mem l' hl' <;> rw [e]
      · exact (maxBoth_ge l p (h.mem_iff.mpr hp)).1
      · exact (maxBoth_ge l p (h.mem_iff.mpr hp)).2

theorem minBoth_perm {l l' : Pairs} (h : l.Perm l') : minBoth l = minBoth l' := by
  by_cases hl : l = []
  · subst hl; rw [List.nil_perm.mp h]
  · have hl' : l' ≠ [] := by rintro rfl; exact hl (List.perm_nil.mp h)
    apply le_antisymm
    · obtain ⟨p, hp, e | e⟩ := minBoth_mem l' hl' <;> rw [e]
      · exact (minBoth_le l p (h.mem_iff.mpr hp)).1
      · exact (minBoth_le l p (h.mem_iff.mpr hp)).2
    · obtain ⟨p, hp, e | e⟩ := minBoth_mem l hl <;> rw [e]
      · exact (minBoth_le l' p (h.mem_iff.mp hp)).1
      · exact (minBoth_le l' p (h.mem_iff.mp hp)).2

theorem RSS_perm {l l' : Pairs} (h : l.Perm l') : RSS l = RSS l' := by rw [RSS_eq, RSS_eq, S_perm h]

theorem num_perm {l l' : Pairs} (h : l.Perm l') : num l = num l' := by unfold num; rw [h.length_eq]

theorem npMean_perm {l l' : List ℝ} (h : l.Perm l') : npMean l = npMean l' := mean_perm h

theorem rmsd_perm {l l' : Pairs} (h : l.Perm l') (d : ℤ) : rmsd l d = rmsd l' d := by
  unfold rmsd msd; rw [RSS_perm h, num_perm h]

theorem ubrmsd0_perm {l l' : Pairs} (h : l.Perm l') : ubrmsd0 l = ubrmsd0 l' := by
  by_cases hl : l = []
  · subst hl; rw [List.nil_perm.mp h]
  · have hl' : l' ≠ [] := by rintro rfl; exact hl (List.perm_nil.mp h)
    rw [ubrmsd0_eq l hl, ubrmsd0_eq l' hl', pvar_perm (h.map Prod.fst), pvar_perm (h.map Prod.snd), pcov_perm h]

/-- C93, order: reordering the pairs changes none of the pairwise metrics, nor the bounds of the confidence intervals that are computed from
the data. -/
theorem metrics_order_irrelevant (l l' : Pairs) (h : l.Perm l') (d : ℤ) (betainc : ℝ → ℝ → ℝ → ℝ) (tppf : ℝ → ℝ → ℝ)
    (b alpha : ℝ) :
    bias l = bias l' ∧ aad l = aad l' ∧ RSS l = RSS l' ∧ msd l = msd l' ∧ rmsd l d = rmsd l' d ∧ nrmsd l d = nrmsd l' d ∧
    ubrmsd l d = ubrmsd l' d ∧ mseCorr l = mseCorr l' ∧ mseVar l = mseVar l' ∧ mseBias l = mseBias l' ∧
    mseDecomposition l = mseDecomposition l' ∧ nashSutcliffe l = nashSutcliffe l' ∧
    indexOfAgreement l = indexOfAgreement l' ∧ biasCi tppf l b alpha = biasCi tppf l' b alpha ∧
    momentsWelford l = momentsWelford l' ∧
    (∀ m m', m = momentsWelford l → m' = momentsWelford l' →
      pearsonrFromMoments betainc m.varx m.vary m.cov l.length =
        pearsonrFromMoments betainc m'.varx m'.vary m'.cov l'.length) := by
  have hb : bias l = bias l' := by rw [bias_eq, bias_eq, S_perm h, h.length_eq]
  have hm := moments_perm h
  refine ⟨hb, npMean_perm (h.map _), RSS_perm h, ?_, rmsd_perm h d, ?_, ?_, ?_, ?_, ?_, ?_, ?_, ?_, ?_, hm, ?_⟩
  · unfold msd; rw [RSS_perm h, num_perm h]
  · unfold nrmsd; rw [rmsd_perm h, maxBoth_perm h, minBoth_perm h]
  · unfold ubrmsd
    split
    · simp only
      rw [num_perm h, npMean_perm (h.map Prod.fst), npMean_perm (h.map Prod.snd), RSS_perm (h.map _)]
    · exact ubrmsd0_perm h
  · unfold mseCorr; rw [hm]
  · unfold mseVar; rw [hm]
  · unfold mseBias; rw [hb]
  · unfold mseDecomposition; rw [hm]
  · unfold nashSutcliffe; simp only
    rw [npMean_perm (h.map Prod.fst), (h.map _).sum_eq, (h.map _).sum_eq]
  · unfold indexOfAgreement; simp only
    rw [npMean_perm (h.map Prod.fst), RSS_perm h, (h.map _).sum_eq]
  · unfold biasCi npStd1
    simp only
    rw [npMean_perm (h.map _), (((h.map _).map _)).sum_eq, num_perm h, List.length_map, List.length_map, h.length_eq]
  · rintro m m' rfl rfl; rw [hm, h.length_eq]

example : nashSutcliffe [(1, 2), (3, 5), (4, 4)] = nashSutcliffe [(3, 5), (1, 2), (4, 4)] :=
  (metrics_order_irrelevant _ _ (List.Perm.swap _ _ _) 0 (fun _ _ _ => 0) (fun _ _ => 0) 0 0).2.2.2.2.2.2.2.2.2.2.2.1

/-! ### Change of units -/

theorem mean_affine {α : Type} (l : List α) (hl : l ≠ []) (f : α → ℝ) (a b : ℝ) :
    mean (l.map (fun p => a * f p + b)) = a * mean (l.map f) + b := by
  have hn : (l.length : ℝ) ≠ 0 := by
    have : l.length ≠ 0 := by simpa using hl
    exact_mod_cast this
  rw [mean_map, mean_map, S_add, S_mul, S_const]
  field_simp

theorem pvar_affine {α : Type} (l : List α) (hl : l ≠ []) (f : α → ℝ) (a b : ℝ) :
    pvar (l.map (fun p => a * f p + b)) = a ^ 2 * pvar (l.map f) := by
  unfold pvar
  rw [mean_affine l hl]
  generalize mean (l.map f) = m
  rw [List.map_map, List.map_map, mean_map, mean_map, ← mul_div_assoc, ← S_mul]
  congr 1
  exact S_congr _ _ _ (fun p _ => by simp only [Function.comp]; ring)

theorem units_ne {a b c d : ℝ} {l : Pairs} (hl : l ≠ []) : units a b c d l ≠ [] := by
  unfold units; simpa using hl

theorem units_fst (a b c d : ℝ) (l : Pairs) : (units a b c d l).map Prod.fst = l.map (fun p => a * p.1 + b) := by
  unfold units; rw [List.map_map]; rfl

theorem units_snd (a b c d : ℝ) (l : Pairs) : (units a b c d l).map Prod.snd = l.map (fun p => c * p.2 + d) := by
  unfold units; rw [List.map_map]; rfl

theorem units_length (a b c d : ℝ) (l : Pairs) : (units a b c d l).length = l.length := by unfold units; simp

theorem pcov_units (a b c d : ℝ) (l : Pairs) (hl : l ≠ []) : pcov (units a b c d l) = a * c * pcov l := by
  unfold pcov
  rw [units_fst, units_snd, mean_affine l hl Prod.fst, mean_affine l hl Prod.snd]
  unfold units
  generalize mean (l.map Prod.fst) = m
  generalize mean (l.map Prod.snd) = m'
  rw [List.map_map, mean_map, mean_map, ← mul_div_assoc, ← S_mul]
  congr 1
  exact S_congr _ _ _ (fun p _ => by simp only [Function.comp]; ring)

/-- C93: the moments in other units -/
theorem moments_units (a b c d : ℝ) (l : Pairs) (hl : l ≠ []) :
    momentsWelford (units a b c d l) =
      ⟨a * (momentsWelford l).mx + b, c * (momentsWelford l).my + d, a ^ 2 * (momentsWelford l).varx,
        c ^ 2 * (momentsWelford l).vary, a * c * (momentsWelford l).cov⟩ := by
  rw [moments_welford_correct _ (units_ne hl), moments_welford_correct _ hl, units_fst, units_snd, pcov_units a b c d l hl,
    mean_affine l hl Prod.fst, mean_affine l hl Prod.snd, pvar_affine l hl Prod.fst, pvar_affine l hl Prod.snd]

theorem RSS_units (a b : ℝ) (l : Pairs) : RSS (units a b a b l) = a ^ 2 * RSS l := by
  rw [RSS_eq, RSS_eq, units, S_map, ← S_mul]
  exact S_congr _ _ _ (fun p _ => by ring)

theorem num_units (a b c d : ℝ) (l : Pairs) : num (units a b c d l) = num l := by
  unfold num; rw [units_length]

theorem rmsd_units (a b : ℝ) (l : Pairs) (d : ℤ) : rmsd (units a b a b l) d = |a| * rmsd l d := by
  unfold rmsd msd
  rw [RSS_units, num_units]
  split <;> rw [mul_div_assoc, Real.sqrt_mul (sq_nonneg a), Real.sqrt_sq_eq_abs]

theorem bothRange_units (a b : ℝ) (l : Pairs) (hl : l ≠ []) :
    maxBoth (units a b a b l) - minBoth (units a b a b l) = |a| * (maxBoth l - minBoth l) := by
  have hU := units_ne (a := a) (b := b) (c := a) (d := b) hl
  have mem : ∀ p ∈ l, (a * p.1 + b, a * p.2 + b) ∈ units a b a b l := fun p hp => List.mem_map_of_mem hp
  have ge : ∀ v, (∃ p ∈ l, v = p.1 ∨ v = p.2) → minBoth (units a b a b l) ≤ a * v + b ∧ a * v + b ≤ maxBoth (units a b a b l) := by
    rintro v ⟨p, hp, rfl | rfl⟩
    · exact ⟨(minBoth_le _ _ (mem p hp)).1, (maxBoth_ge _ _ (mem p hp)).1⟩
    · exact ⟨(minBoth_le _ _ (mem p hp)).2, (maxBoth_ge _ _ (mem p hp)).2⟩
  have le : ∀ w, (∃ p ∈ units a b a b l, w = p.1 ∨ w = p.2) → ∃ v, minBoth l ≤ v ∧ v ≤ maxBoth l ∧ w = a * v + b := by
    rintro w ⟨q, hq, hw⟩
    obtain ⟨p, hp, rfl⟩ := List.mem_map.mp hq
    rcases hw with rfl | rfl
    · exact ⟨p.1, (minBoth_le _ _ hp).1, (maxBoth_ge _ _ hp).1, rfl⟩
    · exact ⟨p.2, (minBoth_le _ _ hp).2, (maxBoth_ge _ _ hp).2, rfl⟩
  obtain ⟨g1, g2⟩ := ge _ (maxBoth_mem l hl)
  obtain ⟨g3, g4⟩ := ge _ (minBoth_mem l hl)
  obtain ⟨v, v1, v2, hv⟩ := le _ (maxBoth_mem _ hU)
  obtain ⟨w, w1, w2, hw⟩ := le _ (minBoth_mem _ hU)
  rcases le_total 0 a with h | h
  · rw [abs_of_nonneg h]
    have e1 : a * v ≤ a * maxBoth l := mul_le_mul_of_nonneg_left v2 h
    have e2 : a * minBoth l ≤ a * w := mul_le_mul_of_nonneg_left w1 h
    linarith
  · rw [abs_of_nonpos h]
    have e1 : a * v ≤ a * minBoth l := mul_le_mul_of_nonpos_left v1 h
    have e2 : a * maxBoth l ≤ a * w := mul_le_mul_of_nonpos_left w2 h
    linarith

theorem ubrmsd_units (a b d : ℝ) (l : Pairs) (hl : l ≠ []) (dd : ℤ) :
    ubrmsd (units a b a d l) dd = |a| * ubrmsd l dd := by
  unfold ubrmsd
  split
  · simp only [npMean_eq]
    rw [units_fst, units_snd, mean_affine l hl Prod.fst, mean_affine l hl Prod.snd, num_units, RSS_eq, RSS_eq, units,
      S_map, S_map, S_map]
    have e : S l (fun p : ℝ × ℝ => (a * p.1 + b - (a * mean (l.map Prod.fst) + b) -
        (a * p.2 + d - (a * mean (l.map Prod.snd) + d))) ^ 2) =
        a ^ 2 * S l (fun p => (p.1 - mean (l.map Prod.fst) - (p.2 - mean (l.map Prod.snd))) ^ 2) := by
      rw [← S_mul]; exact S_congr _ _ _ (fun p _ => by ring)
    rw [e, mul_div_assoc, Real.sqrt_mul (sq_nonneg a), Real.sqrt_sq_eq_abs]
  · rw [ubrmsd0_eq _ (units_ne hl), ubrmsd0_eq _ hl, units_fst, units_snd, pvar_affine l hl Prod.fst,
      pvar_affine l hl Prod.snd, pcov_units _ _ _ _ l hl]
    rw [show a ^ 2 * pvar (l.map Prod.fst) + a ^ 2 * pvar (l.map Prod.snd) - 2 * (a * a * pcov l) =
      a ^ 2 * (pvar (l.map Prod.fst) + pvar (l.map Prod.snd) - 2 * pcov l) by ring,
      Real.sqrt_mul (sq_nonneg a), Real.sqrt_sq_eq_abs]

/-- C93, units: both series converted to other units (`a ≠ 0`). Differences scale with the unit, squared differences with its square, the relative
metrics stay. -/
theorem metrics_units (l : Pairs) (hl : l ≠ []) (a b : ℝ) (ha : a ≠ 0) (d : ℤ) :
    bias (units a b a b l) = a * bias l ∧ aad (units a b a b l) = |a| * aad l ∧ RSS (units a b a b l) = a ^ 2 * RSS l ∧
    msd (units a b a b l) = a ^ 2 * msd l ∧ rmsd (units a b a b l) d = |a| * rmsd l d ∧
    ubrmsd (units a b a b l) d = |a| * ubrmsd l d ∧ nrmsd (units a b a b l) d = nrmsd l d ∧
    mseCorr (units a b a b l) = a ^ 2 * mseCorr l ∧ mseVar (units a b a b l) = a ^ 2 * mseVar l ∧
    mseBias (units a b a b l) = a ^ 2 * mseBias l ∧
    nashSutcliffe (units a b a b l) = nashSutcliffe l ∧ indexOfAgreement (units a b a b l) = indexOfAgreement l := by
  have ha2 : a ^ 2 ≠ 0 := pow_ne_zero 2 ha
  have habs : |a| ≠ 0 := abs_ne_zero.mpr ha
  have hb : bias (units a b a b l) = a * bias l := by
    rw [bias_eq, bias_eq, units_length, units, S_map, ← mul_div_assoc, ← S_mul]
    congr 1; exact S_congr _ _ _ (fun p _ => by ring)
  have hsq : ∀ v : ℝ, Real.sqrt (a ^ 2 * v) = |a| * Real.sqrt v := fun v => by
    rw [Real.sqrt_mul (sq_nonneg a), Real.sqrt_sq_eq_abs]
  have hab : |a| * |a| = a ^ 2 := by rw [abs_mul_abs_self, sq]
  refine ⟨hb, ?_, RSS_units a b l, ?_, rmsd_units a b l d, ubrmsd_units a b b l hl d, ?_, ?_, ?_, ?_, ?_, ?_⟩
  · unfold aad
    rw [npMean_eq, npMean_eq, mean_map, mean_map, units_length, units, S_map, ← mul_div_assoc, ← S_mul]
    congr 1
    refine S_congr _ _ _ (fun p _ => ?_)
    simp only
    rw [← abs_mul]; congr 1; ring
  · unfold msd; rw [RSS_units, num_units, mul_div_assoc]
  · unfold nrmsd; rw [rmsd_units, bothRange_units a b l hl, mul_div_mul_left _ _ habs]
  · unfold mseCorr mseCorrFromMoments
    rw [moments_units _ _ _ _ l hl]
    simp only [hsq]
    rw [← mul_zero (a ^ 2), mul_zero (a ^ 2)]
    rw [show 2 * (|a| * Real.sqrt (momentsWelford l).varx) * (|a| * Real.sqrt (momentsWelford l).vary) -
      2 * (a * a * (momentsWelford l).cov) = a ^ 2 * (2 * Real.sqrt (momentsWelford l).varx * Real.sqrt (momentsWelford l).vary
        - 2 * (momentsWelford l).cov) by rw [← hab]; linear_combination (2 * (momentsWelford l).cov) * (hab.trans (sq a))]
    rw [mul_max_of_nonneg _ _ (sq_nonneg a), mul_zero]
  · unfold mseVar mseVarFromMoments
    rw [moments_units _ _ _ _ l hl]
    simp only [hsq]
    rw [← mul_sub, mul_pow, sq_abs]
  · unfold mseBias; rw [hb, mul_pow]
  · unfold nashSutcliffe
    simp only [npMean_eq]
    rw [units_fst, mean_affine l hl Prod.fst]
    have e1 : ((units a b a b l).map (fun p => (p.1 - p.2) ^ 2)).sum = a ^ 2 * (l.map (fun p => (p.1 - p.2) ^ 2)).sum := by
      have := RSS_units a b l; rw [RSS_eq, RSS_eq] at this; exact this
    have e2 : ((units a b a b l).map (fun p => (p.1 - (a * mean (l.map Prod.fst) + b)) ^ 2)).sum =
        a ^ 2 * (l.map (fun p => (p.1 - mean (l.map Prod.fst)) ^ 2)).sum := by
      change S (units a b a b l) _ = a ^ 2 * S l _
      rw [units, S_map, ← S_mul]; exact S_congr _ _ _ (fun p _ => by ring)
    rw [e1, e2, mul_div_mul_left _ _ ha2]
  · unfold indexOfAgreement
    simp only [npMean_eq]
    rw [units_fst, mean_affine l hl Prod.fst, RSS_units]
    have e2 : ((units a b a b l).map (fun p => (|p.2 - (a * mean (l.map Prod.fst) + b)| +
        |p.1 - (a * mean (l.map Prod.fst) + b)|) ^ 2)).sum =
        a ^ 2 * (l.map (fun p => (|p.2 - mean (l.map Prod.fst)| + |p.1 - mean (l.map Prod.fst)|) ^ 2)).sum := by
      change S (units a b a b l) _ = a ^ 2 * S l _
      rw [units, S_map, ← S_mul]
      refine S_congr _ _ _ (fun p _ => ?_)
      simp only
      rw [show a * p.2 + b - (a * mean (l.map Prod.fst) + b) = a * (p.2 - mean (l.map Prod.fst)) by ring,
        show a * p.1 + b - (a * mean (l.map Prod.fst) + b) = a * (p.1 - mean (l.map Prod.fst)) by ring, abs_mul, abs_mul,
        ← mul_add, mul_pow, sq_abs]
    rw [e2, mul_div_mul_left _ _ ha2]

/-- C93, offsets: an offset added to each series moves the bias only; the ubRMSD, the correlation and variance parts of the MSE stay
(for Pearson's R see `pearson_units`). -/
theorem metrics_offsets (l : Pairs) (hl : l ≠ []) (b d : ℝ) (dd : ℤ) :
    bias (units 1 b 1 d l) = bias l + (b - d) ∧ ubrmsd (units 1 b 1 d l) dd = ubrmsd l dd ∧
    mseCorr (units 1 b 1 d l) = mseCorr l ∧ mseVar (units 1 b 1 d l) = mseVar l ∧
    mseBias (units 1 b 1 d l) = (bias l + (b - d)) ^ 2 := by
  have hb : bias (units 1 b 1 d l) = bias l + (b - d) := by
    rw [bias_mean, bias_mean, units_fst, units_snd, mean_affine l hl Prod.fst, mean_affine l hl Prod.snd]; ring
  refine ⟨hb, ?_, ?_, ?_, ?_⟩
  · rw [ubrmsd_units _ _ _ l hl]; simp
  · unfold mseCorr mseCorrFromMoments; rw [moments_units _ _ _ _ l hl]; simp
  · unfold mseVar mseVarFromMoments; rw [moments_units _ _ _ _ l hl]; simp
  · unfold mseBias; rw [hb]

/-- K and °C -/
example : bias (units 1 273.15 1 0 [(1, 2), (3, 5)]) = 271.65 := by
  rw [(metrics_offsets [(1, 2), (3, 5)] (by simp) 273.15 0 0).1]
  norm_num [bias, num]

/-- The correlation coefficient and p-value as the calculators compute them from the data (metric_calculators.py, `_pearsonr_from_moments` of the
moments of the pairs). -/
noncomputable def pearsonOf (betainc : ℝ → ℝ → ℝ → ℝ) (l : Pairs) : Option (ℝ × ℝ) :=
  pearsonrFromMoments betainc (momentsWelford l).varx (momentsWelford l).vary (momentsWelford l).cov l.length

theorem clamp_neg (x : ℝ) : max (-1) (min (-x) 1) = -max (-1) (min x 1) := by
  rcases le_total x 1 with h1 | h1 <;> rcases le_total (-1) x with h2 | h2
  · rw [min_eq_left h1, max_eq_right h2, min_eq_left (by linarith), max_eq_right (by linarith)]
  · rw [min_eq_left h1, max_eq_left h2, min_eq_right (by linarith), max_eq_right (by linarith)]; norm_num
  · rw [min_eq_right h1, max_eq_right (show (-1 : ℝ) ≤ 1 by norm_num),
      min_eq_left (by linarith), max_eq_left (by linarith)]
  · linarith

theorem pearsonrFromMoments_scale (betainc : ℝ → ℝ → ℝ → ℝ) (vx vy cv a c : ℝ) (n : ℤ) (ha : a ≠ 0) (hc : c ≠ 0) :
    pearsonrFromMoments betainc (a ^ 2 * vx) (c ^ 2 * vy) (a * c * cv) n =
      if 0 < a * c then pearsonrFromMoments betainc vx vy cv n
      else (pearsonrFromMoments betainc vx vy cv n).map (fun r => (-r.1, r.2)) := by
  have ha2 : a ^ 2 ≠ 0 := pow_ne_zero 2 ha
  have hc2 : c ^ 2 ≠ 0 := pow_ne_zero 2 hc
  have hac : a * c ≠ 0 := mul_ne_zero ha hc
  have hs : Real.sqrt (a ^ 2 * vx * (c ^ 2 * vy)) = |a * c| * Real.sqrt (vx * vy) := by
    rw [show a ^ 2 * vx * (c ^ 2 * vy) = (a * c) ^ 2 * (vx * vy) by ring, Real.sqrt_mul (sq_nonneg _), Real.sqrt_sq_eq_abs]
  unfold pearsonrFromMoments
  simp only [mul_eq_zero, ha2, hc2, false_or, hs]
  by_cases h0 : vx = 0 ∨ vy = 0
  · simp only [if_pos h0]; split <;> rfl
  · simp only [if_neg h0]
    by_cases hp : 0 < a * c
    · rw [if_pos hp, abs_of_pos hp, mul_div_mul_left _ _ hac]
    · rw [if_neg hp]
      have hq : a * c < 0 := lt_of_le_of_ne (not_lt.mp hp) hac
      have e : a * c * cv / (|a * c| * Real.sqrt (vx * vy)) = -(cv / Real.sqrt (vx * vy)) := by
        rw [abs_of_neg hq, neg_mul, div_neg, mul_div_mul_left _ _ hac]
      rw [e, clamp_neg, abs_neg]
      split
      · simp
      · simp only [Option.map_some, Option.some.injEq, Prod.mk.injEq, true_and]
        congr 2
        ring_nf

/-- C93, Pearson: units and offsets of the two series, chosen separately, leave R and its p-value (or their absence) as they are; turning one series
over flips the sign of R and keeps the p-value. -/
theorem pearson_units (betainc : ℝ → ℝ → ℝ → ℝ) (l : Pairs) (hl : l ≠ []) (a b c d : ℝ) (ha : a ≠ 0) (hc : c ≠ 0) :
    pearsonOf betainc (units a b c d l) =
      if 0 < a * c then pearsonOf betainc l else (pearsonOf betainc l).map (fun r => (-r.1, r.2)) := by
  unfold pearsonOf
  rw [moments_units _ _ _ _ l hl, units_length]
  exact pearsonrFromMoments_scale betainc _ _ _ a c _ ha hc

/-- concrete case: °C to °F on two pairs, the order of the pairs reversed -/
example : ([(1, 2), (3, 5)] : Pairs) ≠ [] ∧ List.Perm ([(1, 2), (3, 5)] : Pairs) [(3, 5), (1, 2)] ∧
    bias (units 1.8 32 1.8 32 [(1, 2), (3, 5)]) = -2.7 := by
  refine ⟨by simp, List.Perm.swap _ _ _, ?_⟩
  rw [(metrics_units [(1, 2), (3, 5)] (by simp) 1.8 32 (by norm_num) 0).1]
  norm_num [bias, num]

end Verif.Pairwise
