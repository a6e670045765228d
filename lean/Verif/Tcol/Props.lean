import Mathlib.Tactic.FieldSimp
import Mathlib.Tactic.FinCases
import Mathlib.Tactic.Positivity
import Mathlib.Tactic.LinearCombination
import Verif.Moments.Ineq
import Verif.Tcol.Model
import Verif.Tcol.Spec

/-! C13: triple collocation recovers the parameters of the error model. -/

namespace Verif.Tcol

open Verif.Moments

theorem otherInd_spec (ref i : Fin 3) (h : i ≠ ref) : otherInd ref i ≠ ref ∧ otherInd ref i ≠ i := by
  revert ref i; decide

/-- `tcol_metrics` on the covariance matrix of the error model. -/
theorem tcol_from_cov_recovers (m : ErrorModel) (ref : Fin 3) (i : Fin 3) :
    (tcolMetricsFromCov m.cov ref).beta i = m.b ref / m.b i ∧
    (tcolMetricsFromCov m.cov ref).errStd i = Real.sqrt (m.e i) * (m.b ref / m.b i) ∧
    (tcolMetricsFromCov m.cov ref).snr i = 10 * Real.logb 10 (m.b i ^ 2 * m.s / m.e i) := by
  have hs := m.s_pos.ne'
  have n01 : i ≠ i + 1 := by clear * -; revert i; decide
  have n02 : i ≠ i + 2 := by clear * -; revert i; decide
  have n12 : i + 1 ≠ i + 2 := by clear * -; revert i; decide
  have hi := m.b_ne i
  have hj := m.b_ne (i + 1)
  have hk := m.b_ne (i + 2)
  have hei := m.e_pos i
  have hbeta : (tcolMetricsFromCov m.cov ref).beta i = m.b ref / m.b i := by
    simp only [tcolMetricsFromCov]
    by_cases h : i = ref
    · subst h; rw [if_neg (by simp), div_self hi]
    · rw [if_pos h]
      obtain ⟨o1, o2⟩ := otherInd_spec ref i h
      have ho := m.b_ne (otherInd ref i)
      simp only [ErrorModel.cov, if_neg o1.symm, if_neg o2.symm, add_zero]
      field_simp
  refine ⟨hbeta, ?_, ?_⟩
  · have : (tcolMetricsFromCov m.cov ref).errStd i =
        Real.sqrt (m.cov i i - (m.cov i (i + 1) * m.cov i (i + 2)) / m.cov (i + 1) (i + 2)) *
          (tcolMetricsFromCov m.cov ref).beta i := rfl
    rw [this, hbeta]
    congr 2
    simp only [ErrorModel.cov, if_neg n01, if_neg n02, if_neg n12, add_zero, if_true]
    field_simp
    ring
  · have : (tcolMetricsFromCov m.cov ref).snr i = 10 * Real.logb 10 (|(|(m.cov i i * m.cov (i + 1) (i + 2)) /
        (m.cov i (i + 1) * m.cov i (i + 2))| - 1)|⁻¹) := rfl
    rw [this]
    congr 2
    simp only [ErrorModel.cov, if_neg n01, if_neg n02, if_neg n12, add_zero, if_true]
    have hb2 : 0 < m.b i ^ 2 * m.s := by have := m.s_pos; positivity
    have e1 : (m.b i * m.b i * m.s + m.e i) * (m.b (i + 1) * m.b (i + 2) * m.s) /
        (m.b i * m.b (i + 1) * m.s * (m.b i * m.b (i + 2) * m.s)) = 1 + m.e i / (m.b i ^ 2 * m.s) := by
      field_simp
    have hq : 0 < m.e i / (m.b i ^ 2 * m.s) := div_pos hei hb2
    have hq1 : 0 < 1 + m.e i / (m.b i ^ 2 * m.s) := by linarith
    rw [e1, abs_of_pos hq1, add_sub_cancel_left, abs_of_pos hq, inv_div]

/-- Sample covariances of the observations in terms of those of truth and errors. -/
theorem npCov_observe (a b : Fin 3 → ℝ) (ts : List Truth) (hts : ts ≠ []) (i j : Fin 3) :
    npCov (ts.map (observe a b)) i j =
      b i * b j * sampleCov ts Truth.signal Truth.signal + b i * sampleCov ts Truth.signal (fun t => t.err j) +
      b j * sampleCov ts Truth.signal (fun t => t.err i) +
      sampleCov ts (fun t => t.err i) (fun t => t.err j) := by
  have hn := (len_pos (K := ℝ) ts hts).ne'
  have hmean : ∀ i : Fin 3, avg (ts.map (observe a b)) (fun r => r i) =
      a i + b i * sampleMean ts Truth.signal + sampleMean ts (fun t => t.err i) := by
    intro i
    unfold avg sampleMean
    rw [List.map_map, List.length_map]
    have : (ts.map ((fun r : Row => r i) ∘ observe a b)).sum =
        (ts.length : ℝ) * a i + b i * S ts Truth.signal + S ts (fun t => t.err i) := by
      change S ts (fun t => a i + b i * t.signal + t.err i) = _
      rw [S_add, S_add, S_const, S_mul]
    rw [this]
    change _ = a i + b i * (S ts Truth.signal / _) + S ts (fun t => t.err i) / _
    field_simp
  unfold npCov
  rw [hmean, hmean, List.map_map, List.length_map]
  set θ := sampleMean ts Truth.signal with hθ
  set μi := sampleMean ts (fun t => t.err i) with hμi
  set μj := sampleMean ts (fun t => t.err j) with hμj
  have hsum : (ts.map ((fun r : Row => (r i - (a i + b i * θ + μi)) * (r j - (a j + b j * θ + μj))) ∘
      observe a b)).sum =
      b i * b j * S ts (fun t => (t.signal - θ) * (t.signal - θ)) +
      b i * S ts (fun t => (t.signal - θ) * (t.err j - μj)) +
      b j * S ts (fun t => (t.signal - θ) * (t.err i - μi)) +
      S ts (fun t => (t.err i - μi) * (t.err j - μj)) := by
    rw [← S_mul, ← S_mul, ← S_mul, ← S_add, ← S_add, ← S_add]
    change S ts _ = _
    apply S_congr
    intro t _
    simp only [observe, Function.comp]
    ring
  rw [hsum]
  have c1 : sampleCov ts Truth.signal Truth.signal = S ts (fun t => (t.signal - θ) * (t.signal - θ)) /
      ((ts.length : ℝ) - 1) := rfl
  have c2 : ∀ k, sampleCov ts Truth.signal (fun t => t.err k) =
      S ts (fun t => (t.signal - θ) * (t.err k - sampleMean ts (fun t => t.err k))) / ((ts.length : ℝ) - 1) :=
    fun _ => rfl
  have c3 : sampleCov ts (fun t => t.err i) (fun t => t.err j) =
      S ts (fun t => (t.err i - μi) * (t.err j - μj)) / ((ts.length : ℝ) - 1) := rfl
  rw [c1, c2, c2, c3]
  ring

/-- C13. For every sample in which the errors are uncorrelated with the signal and with each other, every offset, every
non-zero gain and every reference, `tcol_metrics` returns the scaling coefficients, the (scaled) error standard deviations and
the signal-to-noise ratios of the sample. -/
theorem tcol_metrics_recovers (a b : Fin 3 → ℝ) (hb : ∀ i, b i ≠ 0) (ts : List Truth)
    (hsig : 0 < sampleCov ts Truth.signal Truth.signal)
    (herr : ∀ i, 0 < sampleCov ts (fun t => t.err i) (fun t => t.err i))
    (h1 : ∀ i, sampleCov ts Truth.signal (fun t => t.err i) = 0)
    (h2 : ∀ i j, i ≠ j → sampleCov ts (fun t => t.err i) (fun t => t.err j) = 0) (ref i : Fin 3) :
    let r := tcolMetrics (ts.map (observe a b)) ref
    r.beta i = b ref / b i ∧
    r.errStd i = Real.sqrt (sampleCov ts (fun t => t.err i) (fun t => t.err i)) * (b ref / b i) ∧
    r.snr i = 10 * Real.logb 10 (b i ^ 2 * sampleCov ts Truth.signal Truth.signal /
      sampleCov ts (fun t => t.err i) (fun t => t.err i)) := by
  have hts : ts ≠ [] := by
    rintro rfl
    simp [sampleCov] at hsig
  let m : ErrorModel := ⟨b, sampleCov ts Truth.signal Truth.signal,
    fun i => sampleCov ts (fun t => t.err i) (fun t => t.err i), hb, hsig, herr⟩
  have hc : npCov (ts.map (observe a b)) = m.cov := by
    funext i j
    rw [npCov_observe a b ts hts, h1, h1]
    simp only [ErrorModel.cov, m]
    by_cases hij : i = j
    · subst hij; simp
    · rw [h2 i j hij, if_neg hij]; ring
  intro r
  have := tcol_from_cov_recovers m ref i
  simp only [r, tcolMetrics]
  rw [hc]
  exact this

/-- `tcol_snr` agrees with `tcol_metrics` on the error model. -/
theorem tcol_snr_eq (rows : List Row) (m : ErrorModel) (h : npCov rows = m.cov) (ref i : Fin 3) :
    (tcolSnr rows ref).snr i = (tcolMetrics rows ref).snr i ∧
    (tcolSnr rows ref).errStd = (tcolMetrics rows ref).errStd ∧ (tcolSnr rows ref).beta = (tcolMetrics rows ref).beta := by
  refine ⟨?_, rfl, rfl⟩
  have h3 := (tcol_from_cov_recovers m ref i).2.2
  have : (tcolMetrics rows ref).snr i = 10 * Real.logb 10 (m.b i ^ 2 * m.s / m.e i) := by
    unfold tcolMetrics; rw [h]; exact h3
  rw [this]
  have hs := m.s_pos.ne'
  have n01 : i ≠ i + 1 := by clear * -; revert i; decide
  have n02 : i ≠ i + 2 := by clear * -; revert i; decide
  have n12 : i + 1 ≠ i + 2 := by clear * -; revert i; decide
  have hi := m.b_ne i
  have hj := m.b_ne (i + 1)
  have hk := m.b_ne (i + 2)
  simp only [tcolSnr]
  rw [h]
  congr 2
  simp only [ErrorModel.cov, if_neg n01, if_neg n02, if_neg n12, add_zero, if_true]
  have e1 : (m.b i * m.b i * m.s + m.e i) * (m.b (i + 1) * m.b (i + 2) * m.s) /
      (m.b i * m.b (i + 1) * m.s * (m.b i * m.b (i + 2) * m.s)) = 1 + m.e i / (m.b i ^ 2 * m.s) := by
    field_simp
  rw [e1, add_sub_cancel_left, inv_div]

/-- C13, for arbitrary data: scaling data set `i` with its coefficient gives it the covariance of the reference with the third
data set, and the reference has coefficient 1. -/
theorem tcol_beta_scales (cov : Fin 3 → Fin 3 → ℝ) (ref i k : Fin 3) (hk : k ≠ ref) (hki : k ≠ i) (h0 : cov i k ≠ 0) :
    (tcolMetricsFromCov cov ref).beta i * cov i k = cov ref k ∧ (tcolMetricsFromCov cov ref).beta ref = 1 := by
  refine ⟨?_, by simp [tcolMetricsFromCov]⟩
  simp only [tcolMetricsFromCov]
  by_cases h : i = ref
  · subst h; simp
  · rw [if_pos h]
    have : otherInd ref i = k := by clear h0; revert ref i k; decide
    rw [this]; field_simp

example : (tcolMetricsFromCov (fun i j => if i = j then 3 else (i.val + 1) * (j.val + 1)) 0).beta 1 * 6 = 3 := by
  have := (tcol_beta_scales (fun i j => if i = j then 3 else (i.val + 1) * (j.val + 1)) 0 1 2 (by decide) (by decide) (by norm_num [show ¬ ((1 : Fin 3) = 2) by decide])).1
  norm_num [show ¬ ((1 : Fin 3) = 2) by decide, show ¬ ((0 : Fin 3) = 2) by decide] at this ⊢
  exact this

/-- C13, sign: with gains of opposite sign the reported "standard deviation" is negative. -/
theorem tcol_negative_std : ∃ (m : ErrorModel) (ref i : Fin 3), (tcolMetricsFromCov m.cov ref).errStd i < 0 := by
  let m : ErrorModel := ⟨fun i => if i = 0 then -1 else 1, 1, fun _ => 1, by intro i; split <;> norm_num, one_pos,
    fun _ => one_pos⟩
  refine ⟨m, 1, 0, ?_⟩
  rw [(tcol_from_cov_recovers m 1 0).2.1]
  norm_num [m]

/-- `tcol_error`: for data of equal offset and gain with uncorrelated zero-mean errors, the result is the root mean square
error of each data set. -/
theorem tcol_error_recovers (a g : ℝ) (ts : List Truth)
    (h1 : ∀ i j, i ≠ j → sampleMean ts (fun t => t.err i * t.err j) = 0) (i : Fin 3) :
    tcolError (ts.map (observe (fun _ => a) (fun _ => g))) i = Real.sqrt (sampleMean ts (fun t => t.err i ^ 2)) := by
  have n01 : i ≠ i + 1 := by clear * -; revert i; decide
  have n02 : i ≠ i + 2 := by clear * -; revert i; decide
  have n12 : i + 1 ≠ i + 2 := by clear * -; revert i; decide
  have hnn : 0 ≤ sampleMean ts (fun t => t.err i ^ 2) :=
    div_nonneg (S_nonneg ts (fun t => t.err i ^ 2) (fun _ _ => sq_nonneg _)) (len_nonneg ts)
  have key : avg (ts.map (observe (fun _ => a) (fun _ => g)))
      (fun r => (r i - r (i + 1)) * (r i - r (i + 2))) = sampleMean ts (fun t => t.err i ^ 2) := by
    have e : avg (ts.map (observe (fun _ => a) (fun _ => g))) (fun r => (r i - r (i + 1)) * (r i - r (i + 2))) =
        sampleMean ts (fun t => t.err i ^ 2) - sampleMean ts (fun t => t.err i * t.err (i + 1)) -
          sampleMean ts (fun t => t.err i * t.err (i + 2)) + sampleMean ts (fun t => t.err (i + 1) * t.err (i + 2)) := by
      unfold avg sampleMean
      rw [List.map_map, List.length_map]
      have : (ts.map ((fun r : Row => (r i - r (i + 1)) * (r i - r (i + 2))) ∘
          observe (fun _ => a) (fun _ => g))).sum =
          S ts (fun t => t.err i ^ 2) + (-1) * S ts (fun t => t.err i * t.err (i + 1)) +
          (-1) * S ts (fun t => t.err i * t.err (i + 2)) + S ts (fun t => t.err (i + 1) * t.err (i + 2)) := by
        rw [← S_mul, ← S_mul, ← S_add, ← S_add, ← S_add]
        change S ts _ = _
        apply S_congr
        intro t _
        simp only [observe, Function.comp]
        ring
      rw [this]
      unfold S
      ring
    rw [e, h1 i (i + 1) n01, h1 i (i + 2) n02, h1 (i + 1) (i + 2) n12]
    ring
  unfold tcolError
  rw [key, abs_of_nonneg hnn]

/-- A sample meeting the hypotheses of `tcol_metrics_recovers`: a signal and three errors that are mutually orthogonal (rows of
an 8-point two-level design). -/
def exampleTruth : List Truth :=
  [⟨1, ![1, 1, 1]⟩, ⟨1, ![1, -1, -1]⟩, ⟨1, ![-1, 1, -1]⟩, ⟨1, ![-1, -1, 1]⟩,
   ⟨-1, ![1, 1, 1]⟩, ⟨-1, ![1, -1, -1]⟩, ⟨-1, ![-1, 1, -1]⟩, ⟨-1, ![-1, -1, 1]⟩]

example : 0 < sampleCov exampleTruth Truth.signal Truth.signal ∧
    (∀ i, 0 < sampleCov exampleTruth (fun t => t.err i) (fun t => t.err i)) ∧
    (∀ i, sampleCov exampleTruth Truth.signal (fun t => t.err i) = 0) ∧
    (∀ i j, i ≠ j → sampleCov exampleTruth (fun t => t.err i) (fun t => t.err j) = 0) := by
  refine ⟨?_, ?_, ?_, ?_⟩
  · norm_num [sampleCov, sampleMean, exampleTruth]
  · intro i; fin_cases i <;> norm_num [sampleCov, sampleMean, exampleTruth]
  · intro i; fin_cases i <;> norm_num [sampleCov, sampleMean, exampleTruth]
  · intro i j h; fin_cases i <;> fin_cases j <;> first | exact absurd rfl h | norm_num [sampleCov, sampleMean, exampleTruth]

end Verif.Tcol
