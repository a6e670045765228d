import Verif.Pairwise.Lemmas

/-! C10, C11, C12, C43 and the correlation computed from moments. -/

namespace Verif.Pairwise

open Verif.Moments

/-- C10. -/
theorem mse_decomposition_exact (l : Pairs) (h : l ≠ []) :
    let r := mseDecomposition l
    r.1 = r.2.1 + r.2.2.1 + r.2.2.2 ∧
    r.1 = meanSqDiff l ∧
    r.2.1 = mseCorr l ∧ r.2.2.1 = mseBias l ∧ r.2.2.2 = mseVar l ∧
    0 ≤ r.2.1 ∧ 0 ≤ r.2.2.1 ∧ 0 ≤ r.2.2.2 ∧
    r.2.1 = 2 * Real.sqrt (pvar (l.map Prod.fst)) * Real.sqrt (pvar (l.map Prod.snd)) - 2 * pcov l ∧
    r.2.2.1 = (mean (l.map Prod.fst) - mean (l.map Prod.snd)) ^ 2 ∧
    r.2.2.2 = (Real.sqrt (pvar (l.map Prod.fst)) - Real.sqrt (pvar (l.map Prod.snd))) ^ 2 := by
  have hm := moments_welford_correct l h
  have hc := abs_pcov_le l
  have hc' := le_trans (le_abs_self _) hc
  have hnn : 0 ≤ 2 * Real.sqrt (pvar (l.map Prod.fst)) * Real.sqrt (pvar (l.map Prod.snd)) - 2 * pcov l := by
    linarith
  have e1 : mseCorrFromMoments (momentsWelford l) =
      2 * Real.sqrt (pvar (l.map Prod.fst)) * Real.sqrt (pvar (l.map Prod.snd)) - 2 * pcov l := by
    rw [hm]; unfold mseCorrFromMoments; exact max_eq_left hnn
  have e2 : mseBiasFromMoments (momentsWelford l) = (mean (l.map Prod.fst) - mean (l.map Prod.snd)) ^ 2 := by
    rw [hm]; rfl
  have e3 : mseVarFromMoments (momentsWelford l) =
      (Real.sqrt (pvar (l.map Prod.fst)) - Real.sqrt (pvar (l.map Prod.snd))) ^ 2 := by
    rw [hm]; rfl
  have sx := Real.sq_sqrt (pvar_nonneg (l.map Prod.fst))
  have sy := Real.sq_sqrt (pvar_nonneg (l.map Prod.snd))
  intro r
  refine ⟨?_, ?_, rfl, ?_, rfl, ?_, ?_, ?_, e1, e2, e3⟩
  · simp only [r, mseDecomposition]; ring
  · simp only [r, mseDecomposition]
    rw [e1, e2, e3, meanSqDiff_decomp l h]
    linear_combination sx + sy
  · simp only [r, mseDecomposition]; rw [e2, mseBias, bias_mean]
  · simp only [r, mseDecomposition]; rw [e1]; exact hnn
  · simp only [r, mseDecomposition]; rw [e2]; positivity
  · simp only [r, mseDecomposition]; rw [e3]; positivity

/-- hypotheses of `mse_decomposition_exact` met by a non-trivial case -/
example : ([(1, 2), (3, 5), (8, 2)] : Pairs) ≠ [] ∧ meanSqDiff [(1, 2), (3, 5), (8, 2)] = 41 / 3 := by
  refine ⟨by simp, ?_⟩
  norm_num [meanSqDiff, mean]

/-- C11, equalities. -/
theorem difference_metrics_consistent (l : Pairs) (h : l ≠ []) :
    msd l = meanSqDiff l ∧ msd l = RSS l / (l.length : ℝ) ∧
    rmsd l 0 ^ 2 = msd l ∧ 0 ≤ rmsd l 0 ∧
    rmsd l 0 ^ 2 = bias l ^ 2 + ubrmsd l 0 ^ 2 ∧
    bias l = mean (l.map Prod.fst) - mean (l.map Prod.snd) ∧
    aad l ≤ rmsd l 0 ∧ |bias l| ≤ aad l ∧ ubrmsd l 0 ≤ rmsd l 0 := by
  have hmsd : msd l = meanSqDiff l := by rw [meanSqDiff_eq]; rfl
  have hnn : 0 ≤ meanSqDiff l := mean_nonneg l _ (fun _ _ => sq_nonneg _)
  have hr : rmsd l 0 ^ 2 = msd l := by
    simp only [rmsd, if_true]; rw [hmsd, Real.sq_sqrt hnn]
  have hr0 : 0 ≤ rmsd l 0 := by simp only [rmsd, if_true]; exact Real.sqrt_nonneg _
  have hd := meanSqDiff_decomp l h
  have hub : ubrmsd l 0 ^ 2 = pvar (l.map Prod.fst) + pvar (l.map Prod.snd) - 2 * pcov l := by
    simp only [ubrmsd, ne_eq, not_true_eq_false, if_false]
    rw [ubrmsd0_eq l h, Real.sq_sqrt]
    have hc' := le_trans (le_abs_self _) (abs_pcov_le l)
    have sx := Real.sq_sqrt (pvar_nonneg (l.map Prod.fst))
    have sy := Real.sq_sqrt (pvar_nonneg (l.map Prod.snd))
    nlinarith [sq_nonneg (Real.sqrt (pvar (l.map Prod.fst)) - Real.sqrt (pvar (l.map Prod.snd)))]
  have hsplit : rmsd l 0 ^ 2 = bias l ^ 2 + ubrmsd l 0 ^ 2 := by
    rw [hr, hmsd, hd, hub, bias_mean]; ring
  have hn := len_pos (K := ℝ) l h
  refine ⟨hmsd, rfl, hr, hr0, hsplit, bias_mean l, ?_, ?_, ?_⟩
  · -- Cauchy–Schwarz against the constant 1
    have hc := S_cauchy l (fun p : ℝ × ℝ => |p.1 - p.2|) (fun _ => (1 : ℝ))
    simp only [mul_one, abs_mul_abs_self] at hc
    rw [S_const, mul_one] at hc
    apply abs_le_of_sq_le_sq' _ hr0 |>.2
    rw [hr, hmsd]
    unfold aad meanSqDiff
    rw [npMean_eq, mean_map, mean_map, div_pow, div_le_div_iff₀ (by positivity) hn]
    have : S l (fun p : ℝ × ℝ => (p.1 - p.2) ^ 2) = S l (fun p => (p.1 - p.2) * (p.1 - p.2)) :=
      S_congr _ _ _ (fun p _ => sq _)
    rw [this]
    nlinarith
  · rw [bias_eq]
    unfold aad
    rw [npMean_eq, mean_map, abs_div, abs_of_pos hn]
    apply div_le_div_of_nonneg_right _ hn.le
    rw [abs_le]
    constructor
    · have := S_le l (fun p : ℝ × ℝ => -(p.1 - p.2)) (fun p => |p.1 - p.2|) (fun p _ => neg_le_abs _)
      have e : S l (fun p : ℝ × ℝ => -(p.1 - p.2)) = -S l (fun p : ℝ × ℝ => p.1 - p.2) := by
        rw [← neg_one_mul, ← S_mul]; exact S_congr _ _ _ (fun p _ => by ring)
      rw [e] at this
      linarith
    · exact S_le l _ _ (fun p _ => le_abs_self _)
  · apply abs_le_of_sq_le_sq' _ hr0 |>.2
    rw [hsplit]; nlinarith [sq_nonneg (bias l)]

/-- C11, exchanging the arguments. -/
theorem difference_metrics_symmetric (l : Pairs) (h : l ≠ []) :
    bias (swapped l) = -bias l ∧ msd (swapped l) = msd l ∧ rmsd (swapped l) 0 = rmsd l 0 ∧
    ubrmsd (swapped l) 0 = ubrmsd l 0 ∧ aad (swapped l) = aad l := by
  have hR : RSS (swapped l) = RSS l := by
    rw [RSS_eq, RSS_eq, S_swapped]; exact S_congr _ _ _ (fun p _ => by simp; ring)
  have hm : msd (swapped l) = msd l := by unfold msd num; rw [hR, swapped_length]
  refine ⟨?_, hm, ?_, ?_, ?_⟩
  · rw [bias_mean, bias_mean, swapped_fst, swapped_snd]; ring
  · simp only [rmsd, if_true, hm]
  · simp only [ubrmsd, ne_eq, not_true_eq_false, if_false]
    rw [ubrmsd0_eq _ (swapped_ne h), ubrmsd0_eq _ h, swapped_fst, swapped_snd, pcov_swapped]
    congr 1; ring
  · unfold aad
    rw [npMean_eq, npMean_eq, mean_map, mean_map, swapped_length, S_swapped]
    congr 1
    exact S_congr _ _ _ (fun p _ => by simp [abs_sub_comm])

/-- C11, identical series: the squared and absolute measures vanish exactly then. -/
theorem difference_metrics_zero (l : Pairs) (h : l ≠ []) :
    (aad l = 0 ↔ ∀ p ∈ l, p.1 = p.2) ∧ (rmsd l 0 = 0 ↔ ∀ p ∈ l, p.1 = p.2) ∧
    ((∀ p ∈ l, p.1 = p.2) → bias l = 0 ∧ ubrmsd l 0 = 0 ∧ msd l = 0) := by
  have hn := len_pos (K := ℝ) l h
  obtain ⟨c1, _, c3, c4, c5, _, _, _, _⟩ := difference_metrics_consistent l h
  have hr : rmsd l 0 = 0 ↔ ∀ p ∈ l, p.1 = p.2 := by
    have : rmsd l 0 = 0 ↔ rmsd l 0 ^ 2 = 0 := by simp
    rw [this, c3, c1]
    unfold meanSqDiff
    rw [mean_map, div_eq_zero_iff]
    constructor
    · rintro (h0 | h0)
      · intro p hp
        have := S_eq_zero l (fun p : ℝ × ℝ => (p.1 - p.2) ^ 2) (fun _ _ => sq_nonneg _) h0 p hp
        have := pow_eq_zero_iff (two_ne_zero) |>.mp this
        linarith
      · exact absurd h0 hn.ne'
    · intro hp
      left
      rw [S_congr l _ (fun _ => (0 : ℝ)) (fun p hpl => by rw [hp p hpl]; ring), S_const]; ring
  refine ⟨?_, hr, ?_⟩
  · unfold aad
    rw [npMean_eq, mean_map, div_eq_zero_iff]
    constructor
    · rintro (h0 | h0)
      · intro p hp
        have := S_eq_zero l (fun p : ℝ × ℝ => |p.1 - p.2|) (fun _ _ => abs_nonneg _) h0 p hp
        have := abs_eq_zero.mp this
        linarith
      · exact absurd h0 hn.ne'
    · intro hp
      left
      rw [S_congr l _ (fun _ => (0 : ℝ)) (fun p hpl => by rw [hp p hpl]; simp), S_const]; ring
  · intro hp
    have h0 := hr.mpr hp
    rw [h0] at c5 c3
    refine ⟨?_, ?_, ?_⟩
    · nlinarith [sq_nonneg (bias l), sq_nonneg (ubrmsd l 0)]
    · nlinarith [sq_nonneg (bias l), sq_nonneg (ubrmsd l 0)]
    · rw [← c3]; ring

example : aad [(1, 1), (2, 2)] = 0 ∧ rmsd [(1, 1), (2, 3)] 0 ≠ 0 :=
  ⟨(difference_metrics_zero [(1, 1), (2, 2)] (by simp)).1.mpr (by simp),
    fun h => by simpa using (difference_metrics_zero [(1, 1), (2, 3)] (by simp)).2.1.mp h (2, 3) (by simp)⟩

/-- C11, `nrmsd` is a fraction of the common range. -/
theorem nrmsd_range (l : Pairs) (hr : minBoth l < maxBoth l) : 0 ≤ nrmsd l 0 ∧ nrmsd l 0 ≤ 1 := by
  have h : l ≠ [] := by rintro rfl; simp [minBoth, maxBoth] at hr
  have hn := len_pos (K := ℝ) l h
  obtain ⟨c1, _, c3, c4, _, _, _, _, _⟩ := difference_metrics_consistent l h
  have hpos : 0 < maxBoth l - minBoth l := by linarith
  unfold nrmsd
  refine ⟨div_nonneg c4 hpos.le, ?_⟩
  rw [div_le_one hpos]
  apply abs_le_of_sq_le_sq' _ hpos.le |>.2
  rw [c3, c1]
  unfold meanSqDiff
  rw [mean_map, div_le_iff₀ hn]
  calc S l (fun p => (p.1 - p.2) ^ 2) ≤ S l (fun _ => (maxBoth l - minBoth l) ^ 2) := by
        apply S_le
        intro p hp
        obtain ⟨a1, a2⟩ := maxBoth_ge l p hp
        obtain ⟨b1, b2⟩ := minBoth_le l p hp
        apply sq_le_sq'
        · linarith
        · linarith
    _ = (maxBoth l - minBoth l) ^ 2 * (l.length : ℝ) := by rw [S_const]; ring

example : 0 ≤ nrmsd [(1, 2), (3, 5)] 0 ∧ nrmsd [(1, 2), (3, 5)] 0 ≤ 1 :=
  nrmsd_range _ (by norm_num [minBoth, maxBoth])

theorem const_of_denom_zero (l : Pairs) (c : ℝ) (f : ℝ × ℝ → ℝ)
    (h0 : S l (fun p => (f p - c) ^ 2) = 0) : ∀ p ∈ l, f p = c := by
  intro p hp
  have := S_eq_zero l (fun p : ℝ × ℝ => (f p - c) ^ 2) (fun _ _ => sq_nonneg _) h0 p hp
  have := pow_eq_zero_iff (two_ne_zero) |>.mp this
  linarith

/-- C12, Nash–Sutcliffe, for a reference that is not constant. -/
theorem nash_sutcliffe_range (l : Pairs) (hv : ∃ p ∈ l, ∃ q ∈ l, p.1 ≠ q.1) :
    nashSutcliffe l ≤ 1 ∧ (nashSutcliffe l = 1 ↔ ∀ p ∈ l, p.1 = p.2) ∧
    ((∀ p ∈ l, p.2 = mean (l.map Prod.fst)) → nashSutcliffe l = 0) := by
  obtain ⟨p, hp, q, hq, hpq⟩ := hv
  set m := mean (l.map Prod.fst) with hm
  have hden : 0 < S l (fun p => (p.1 - m) ^ 2) := by
    apply lt_of_le_of_ne (S_nonneg _ _ (fun _ _ => sq_nonneg _))
    intro h0
    have := const_of_denom_zero l m Prod.fst h0.symm
    exact hpq ((this p hp).trans (this q hq).symm)
  have e : nashSutcliffe l = 1 - S l (fun p => (p.1 - p.2) ^ 2) / S l (fun p => (p.1 - m) ^ 2) := rfl
  have hnum : 0 ≤ S l (fun p => (p.1 - p.2) ^ 2) := S_nonneg _ _ (fun _ _ => sq_nonneg _)
  refine ⟨?_, ?_, ?_⟩
  · rw [e]; have := div_nonneg hnum hden.le; linarith
  · rw [e]
    constructor
    · intro h1
      have h2 : S l (fun p => (p.1 - p.2) ^ 2) / S l (fun p => (p.1 - m) ^ 2) = 0 := by linarith
      rcases div_eq_zero_iff.mp h2 with h3 | h3
      · intro p hp
        have := S_eq_zero l (fun p : ℝ × ℝ => (p.1 - p.2) ^ 2) (fun _ _ => sq_nonneg _) h3 p hp
        have := pow_eq_zero_iff (two_ne_zero) |>.mp this
        linarith
      · exact absurd h3 hden.ne'
    · intro hp
      rw [S_congr l (fun p => (p.1 - p.2) ^ 2) (fun _ => (0 : ℝ)) (fun p hpl => by rw [hp p hpl]; ring), S_const]
      simp
  · intro hp
    rw [e, S_congr l (fun p => (p.1 - p.2) ^ 2) (fun p => (p.1 - m) ^ 2) (fun p hpl => by rw [hp p hpl]),
      div_self hden.ne']
    ring

example : nashSutcliffe [(1, 2), (3, 2)] = 0 :=
  (nash_sutcliffe_range [(1, 2), (3, 2)] ⟨(1, 2), by simp, (3, 2), by simp, by norm_num⟩).2.2 (by norm_num [mean])

/-- C12, index of agreement, for a reference that is not constant. -/
theorem index_of_agreement_range (l : Pairs) (hv : ∃ p ∈ l, ∃ q ∈ l, p.1 ≠ q.1) :
    0 ≤ indexOfAgreement l ∧ indexOfAgreement l ≤ 1 ∧
    (indexOfAgreement l = 1 ↔ ∀ p ∈ l, p.1 = p.2) := by
  obtain ⟨p, hp, q, hq, hpq⟩ := hv
  set m := mean (l.map Prod.fst) with hm
  have e : indexOfAgreement l = 1 - RSS l / S l (fun p => (|p.2 - m| + |p.1 - m|) ^ 2) := rfl
  have hden : 0 < S l (fun p => (|p.2 - m| + |p.1 - m|) ^ 2) := by
    apply lt_of_le_of_ne (S_nonneg _ _ (fun _ _ => sq_nonneg _))
    intro h0
    have hz := S_eq_zero l (fun p : ℝ × ℝ => (|p.2 - m| + |p.1 - m|) ^ 2) (fun _ _ => sq_nonneg _) h0.symm
    have hc : ∀ r ∈ l, r.1 = m := by
      intro r hr
      have := pow_eq_zero_iff (two_ne_zero) |>.mp (hz r hr)
      have h1 := abs_nonneg (r.2 - m)
      have h2 := abs_nonneg (r.1 - m)
      have h3 : |r.1 - m| = 0 := by linarith
      have := abs_eq_zero.mp h3
      linarith
    exact hpq ((hc p hp).trans (hc q hq).symm)
  have hle : RSS l ≤ S l (fun p => (|p.2 - m| + |p.1 - m|) ^ 2) := by
    rw [RSS_eq]
    apply S_le
    intro r _
    apply sq_le_sq'
    · have h1 := neg_abs_le (r.1 - m); have h2 := le_abs_self (r.2 - m)
      linarith
    · have h1 := le_abs_self (r.1 - m); have h2 := neg_abs_le (r.2 - m)
      linarith
  have hnn : 0 ≤ RSS l := by rw [RSS_eq]; exact S_nonneg _ _ (fun _ _ => sq_nonneg _)
  refine ⟨?_, ?_, ?_⟩
  · rw [e]; have := (div_le_one hden).mpr hle; linarith
  · rw [e]; have := div_nonneg hnn hden.le; linarith
  · rw [e]
    constructor
    · intro h1
      have h2 : RSS l / S l (fun p => (|p.2 - m| + |p.1 - m|) ^ 2) = 0 := by linarith
      rcases div_eq_zero_iff.mp h2 with h3 | h3
      · intro p hp
        rw [RSS_eq] at h3
        have := S_eq_zero l (fun p : ℝ × ℝ => (p.1 - p.2) ^ 2) (fun _ _ => sq_nonneg _) h3 p hp
        have := pow_eq_zero_iff (two_ne_zero) |>.mp this
        linarith
      · exact absurd h3 hden.ne'
    · intro hp
      rw [RSS_eq, S_congr l (fun p => (p.1 - p.2) ^ 2) (fun _ => (0 : ℝ)) (fun p hpl => by rw [hp p hpl]; ring), S_const]
      simp

example : indexOfAgreement [(1, 1), (3, 3)] = 1 :=
  (index_of_agreement_range [(1, 1), (3, 3)] ⟨(1, 1), by simp, (3, 3), by simp, by norm_num⟩).2.2.mpr (by simp)

/-- a non-constant reference exists -/
example : ∃ p ∈ ([(1, 2), (3, 5)] : Pairs), ∃ q ∈ ([(1, 2), (3, 5)] : Pairs), p.1 ≠ q.1 :=
  ⟨(1, 2), by simp, (3, 5), by simp, by norm_num⟩

/-- The correlation computed from the one-pass moments is Pearson's: the clamp to [-1, 1] never changes the exact value, the
result is NaN exactly if one series is constant, the p-value is 0 for perfect correlation. Any common positive factor
`c` of the moments is irrelevant (the rolling version passes sums instead of means). -/
theorem pearsonr_from_moments_correct (betainc : ℝ → ℝ → ℝ → ℝ) (l : Pairs) (c : ℝ) (hc : 0 < c) (n : ℤ) :
    (pearsonrFromMoments betainc (c * pvar (l.map Prod.fst)) (c * pvar (l.map Prod.snd)) (c * pcov l) n).map
      Prod.fst = pearson l ∧
    (∀ r p, pearsonrFromMoments betainc (c * pvar (l.map Prod.fst)) (c * pvar (l.map Prod.snd)) (c * pcov l) n =
      some (r, p) → |r| ≤ 1 ∧ (|r| = 1 → p = 0)) := by
  have hvx := pvar_nonneg (l.map Prod.fst)
  have hvy := pvar_nonneg (l.map Prod.snd)
  unfold pearsonrFromMoments pearson
  by_cases hz : pvar (l.map Prod.fst) = 0 ∨ pvar (l.map Prod.snd) = 0
  · have hz' : c * pvar (l.map Prod.fst) = 0 ∨ c * pvar (l.map Prod.snd) = 0 := by
      rcases hz with hz | hz <;> simp [hz]
    rw [if_pos hz, if_pos hz']
    simp
  · have hz' : ¬ (c * pvar (l.map Prod.fst) = 0 ∨ c * pvar (l.map Prod.snd) = 0) := by
      push Not at hz ⊢
      exact ⟨mul_ne_zero hc.ne' hz.1, mul_ne_zero hc.ne' hz.2⟩
    rw [if_neg hz, if_neg hz']
    push Not at hz
    set sx := Real.sqrt (pvar (l.map Prod.fst)) with hsx
    set sy := Real.sqrt (pvar (l.map Prod.snd)) with hsy
    have p1 : 0 < sx := Real.sqrt_pos.mpr (lt_of_le_of_ne hvx (Ne.symm hz.1))
    have p2 : 0 < sy := Real.sqrt_pos.mpr (lt_of_le_of_ne hvy (Ne.symm hz.2))
    have hs : Real.sqrt (c * pvar (l.map Prod.fst) * (c * pvar (l.map Prod.snd))) = c * (sx * sy) := by
      rw [show c * pvar (l.map Prod.fst) * (c * pvar (l.map Prod.snd)) =
        c ^ 2 * (pvar (l.map Prod.fst) * pvar (l.map Prod.snd)) by ring,
        Real.sqrt_mul (sq_nonneg c), Real.sqrt_sq hc.le, Real.sqrt_mul hvx]
    have hq : c * pcov l / (c * (sx * sy)) = pcov l / (sx * sy) := by field_simp
    rw [hs, hq]
    have hb : |pcov l / (sx * sy)| ≤ 1 := by
      rw [abs_div, abs_of_pos (mul_pos p1 p2), div_le_one (mul_pos p1 p2)]
      exact abs_pcov_le l
    have hR : max (-1) (min (pcov l / (sx * sy)) 1) = pcov l / (sx * sy) := by
      rw [abs_le] at hb
      rw [min_eq_left hb.2, max_eq_right hb.1]
    simp only [hR]
    by_cases h1 : |pcov l / (sx * sy)| = 1
    · rw [if_pos h1]
      refine ⟨rfl, ?_⟩
      intro r p he
      simp only [Option.some.injEq, Prod.mk.injEq] at he
      obtain ⟨rfl, rfl⟩ := he
      exact ⟨hb, fun _ => rfl⟩
    · rw [if_neg h1]
      refine ⟨rfl, ?_⟩
      intro r p he
      simp only [Option.some.injEq, Prod.mk.injEq] at he
      obtain ⟨rfl, rfl⟩ := he
      exact ⟨hb, fun h => absurd h h1⟩

/-- C43. Chunk by chunk: after every chunk the returned coefficient is Pearson's correlation of everything passed so far (and
undefined exactly if that is). -/
theorem pearsonr_recursive_chunks (chunks : List Pairs) (h : ∀ c ∈ chunks, c ≠ []) :
    (recursiveRun chunks RecParams.init).length = chunks.length ∧
    ∀ k, k < chunks.length →
      (recursiveRun chunks RecParams.init)[k]? = some (pearson (chunks.take (k + 1)).flatten) := by
  have key : ∀ (chunks : List Pairs) (past : Pairs) (s : RecParams), RecInv past s → (∀ c ∈ chunks, c ≠ []) →
      (recursiveRun chunks s).length = chunks.length ∧
      ∀ k, k < chunks.length → (recursiveRun chunks s)[k]? =
        some (pearson (past ++ (chunks.take (k + 1)).flatten)) := by
    intro chunks
    induction chunks with
    | nil => intro past s _ _; simp [recursiveRun]
    | cons c cs ih =>
      intro past s hs hne
      obtain ⟨i1, i2⟩ := ih (past ++ c) _ (RecInv_step past c s hs)
        (fun d hd => hne d (List.mem_cons_of_mem _ hd))
      refine ⟨by simp [recursiveRun, i1], ?_⟩
      intro k hk
      cases k with
      | zero =>
        have := rec_value past c s hs (by simp [hne c (List.mem_cons_self ..)])
        simpa [recursiveRun] using this
      | succ k =>
        have := i2 k (by simpa using hk)
        simpa [recursiveRun] using this
  have := key chunks [] RecParams.init (by constructor <;> simp [RecParams.init]) h
  simpa using this

example : (recursiveRun [[(1, 2), (3, 5)], [(4, 4)]] RecParams.init)[1]? = some (pearson [(1, 2), (3, 5), (4, 4)]) :=
  (pearsonr_recursive_chunks [[(1, 2), (3, 5)], [(4, 4)]] (by simp)).2 1 (by simp)

/-- two chunks -/
example : ∀ c ∈ ([[(1, 2), (3, 5)], [(4, 4)]] : List Pairs), c ≠ [] := by simp

end Verif.Pairwise
