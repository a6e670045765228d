import Mathlib.Order.Bounds.Basic
import Verif.Pairwise.Ci

/-! C11/C50, exact values: `ddof`, the normalisation of the nRMSD and the widths of the confidence intervals. -/

namespace Verif.Pairwise

open Verif.Moments

/-- C11, `ddof`: the sums of squares are divided by `n - ddof`. -/
theorem ddof_metrics (l : Pairs) (h : l ≠ []) (d : ℤ) (hd : (d : ℝ) < (l.length : ℝ)) :
    0 ≤ rmsd l d ∧ 0 ≤ ubrmsd l d ∧
    rmsd l d ^ 2 * ((l.length : ℝ) - d) = (l.map (fun p => (p.1 - p.2) ^ 2)).sum ∧
    ubrmsd l d ^ 2 * ((l.length : ℝ) - d) =
      (l.map (fun p => (p.1 - p.2 - (mean (l.map Prod.fst) - mean (l.map Prod.snd))) ^ 2)).sum := by
  have hn := len_pos (K := ℝ) l h
  have hd' : (0 : ℝ) < (l.length : ℝ) - d := by linarith
  have hR : 0 ≤ RSS l := by rw [RSS_eq]; exact S_nonneg _ _ (fun _ _ => sq_nonneg _)
  have hdev : S l (fun p : ℝ × ℝ => (p.1 - p.2 - (mean (l.map Prod.fst) - mean (l.map Prod.snd))) ^ 2) =
      (l.length : ℝ) * (pvar (l.map Prod.fst) + pvar (l.map Prod.snd) - 2 * pcov l) := by
    have e1 := pvar_eq l (Prod.fst : ℝ × ℝ → ℝ)
    have e2 := pvar_eq l (Prod.snd : ℝ × ℝ → ℝ)
    have e3 := pcov_eq l
    set a := mean (l.map Prod.fst) with ha
    set b := mean (l.map Prod.snd) with hb
    have m1 := len_mul_mean l (Prod.fst : ℝ × ℝ → ℝ)
    have m2 := len_mul_mean l (Prod.snd : ℝ × ℝ → ℝ)
    rw [← ha] at m1
    rw [← hb] at m2
    have e4 : S l (fun p : ℝ × ℝ => (p.1 - p.2 - (a - b)) ^ 2) =
        S l (fun p => (p.1 - a) * (p.1 - a)) + S l (fun p => (p.2 - b) * (p.2 - b)) -
          2 * S l (fun p => (p.1 - a) * (p.2 - b)) := by
      rw [← S_add, ← S_mul, ← S_sub]
      exact S_congr _ _ _ (fun p _ => by ring)
    rw [e4, S_dev, S_dev, S_dev, ← m1, ← m2]
    linear_combination -e1 - e2 + 2 * e3
  refine ⟨?_, ?_, ?_, ?_⟩
  · unfold rmsd; split <;> exact Real.sqrt_nonneg _
  · unfold ubrmsd ubrmsd0; split <;> exact Real.sqrt_nonneg _
  · change _ = S l _
    rw [← RSS_eq]
    unfold rmsd
    split
    · rename_i h0; subst h0
      unfold msd num
      rw [Real.sq_sqrt (div_nonneg hR hn.le)]
      push_cast; rw [sub_zero, div_mul_cancel₀ _ hn.ne']
    · unfold num
      rw [Real.sq_sqrt (div_nonneg hR hd'.le), div_mul_cancel₀ _ hd'.ne']
  · change _ = S l _
    unfold ubrmsd
    split
    · rw [npMean_eq, npMean_eq]
      have e : RSS (l.map (fun p => (p.1 - mean (l.map Prod.fst), p.2 - mean (l.map Prod.snd)))) =
          S l (fun p : ℝ × ℝ => (p.1 - p.2 - (mean (l.map Prod.fst) - mean (l.map Prod.snd))) ^ 2) := by
        rw [RSS_eq]; unfold S; rw [List.map_map]
        congr 1
        apply List.map_congr_left
        intro p _
        simp only [Function.comp]; ring
      simp only
      rw [e]
      unfold num
      rw [Real.sq_sqrt (div_nonneg (S_nonneg _ _ (fun _ _ => sq_nonneg _)) hd'.le), div_mul_cancel₀ _ hd'.ne']
    · rename_i h0
      have h0 : d = 0 := by simpa using h0
      subst h0
      have hnn : 0 ≤ pvar (l.map Prod.fst) + pvar (l.map Prod.snd) - 2 * pcov l := by
        have := S_nonneg l (fun p : ℝ × ℝ => (p.1 - p.2 - (mean (l.map Prod.fst) - mean (l.map Prod.snd))) ^ 2)
          (fun _ _ => sq_nonneg _)
        rw [hdev] at this
        exact nonneg_of_mul_nonneg_right this hn
      rw [hdev, ubrmsd0_eq l h, Real.sq_sqrt hnn]
      push_cast; ring

example : rmsd [(1, 2), (3, 5), (4, 4)] 1 ^ 2 * 2 = 5 := by
  have := (ddof_metrics [(1, 2), (3, 5), (4, 4)] (by simp) 1 (by norm_num)).2.2.1
  norm_num at this ⊢
  exact this

/-- all values of both series -/
def allValues (l : List (ℝ × ℝ)) : Set ℝ := {v | ∃ p ∈ l, v = p.1 ∨ v = p.2}

theorem maxBoth_mem (l : Pairs) (h : l ≠ []) : maxBoth l ∈ allValues l := by
  have key : ∀ (l : Pairs) (m : ℝ), l.foldl (fun m q => max m (max q.1 q.2)) m = m ∨
      l.foldl (fun m q => max m (max q.1 q.2)) m ∈ allValues l := by
    intro l
    induction l with
    | nil => simp
    | cons a l ih =>
      intro m
      rcases ih (max m (max a.1 a.2)) with e | ⟨p, hp, e⟩
      · simp only [List.foldl_cons, e]
        rcases max_choice m (max a.1 a.2) with e1 | e1 <;> rw [e1]
        · left; rfl
        · right
          refine ⟨a, by simp, ?_⟩
          rcases max_choice a.1 a.2 with e2 | e2 <;> rw [e2] <;> simp
      · right; exact ⟨p, List.mem_cons_of_mem _ hp, e⟩
  cases l with
  | nil => exact absurd rfl h
  | cons a l =>
    rcases key l (max a.1 a.2) with e | ⟨p, hp, e⟩
    · refine ⟨a, by simp, ?_⟩
      simp only [maxBoth, e]
      rcases max_choice a.1 a.2 with e2 | e2 <;> rw [e2] <;> simp
    · exact ⟨p, List.mem_cons_of_mem _ hp, e⟩

theorem minBoth_mem (l : Pairs) (h : l ≠ []) : minBoth l ∈ allValues l := by
  have key : ∀ (l : Pairs) (m : ℝ), l.foldl (fun m q => min m (min q.1 q.2)) m = m ∨
      l.foldl (fun m q => min m (min q.1 q.2)) m ∈ allValues l := by
    intro l
    induction l with
    | nil => simp
    | cons a l ih =>
      intro m
      rcases ih (min m (min a.1 a.2)) with e | ⟨p, hp, e⟩
      · simp only [List.foldl_cons, e]
        rcases min_choice m (min a.1 a.2) with e1 | e1 <;> rw [e1]
        · left; rfl
        · right
          refine ⟨a, by simp, ?_⟩
          rcases min_choice a.1 a.2 with e2 | e2 <;> rw [e2] <;> simp
      · right; exact ⟨p, List.mem_cons_of_mem _ hp, e⟩
  cases l with
  | nil => exact absurd rfl h
  | cons a l =>
    rcases key l (min a.1 a.2) with e | ⟨p, hp, e⟩
    · refine ⟨a, by simp, ?_⟩
      simp only [minBoth, e]
      rcases min_choice a.1 a.2 with e2 | e2 <;> rw [e2] <;> simp
    · exact ⟨p, List.mem_cons_of_mem _ hp, e⟩

/-- C12, nRMSD: the RMSD divided by the range of all values of both series. -/
theorem nrmsd_exact (l : Pairs) (d : ℤ) (lo hi : ℝ) (hlo : IsLeast (allValues l) lo) (hhi : IsGreatest (allValues l) hi)
    (hne : lo ≠ hi) : nrmsd l d * (hi - lo) = rmsd l d := by
  have h : l ≠ [] := by
    rintro rfl
    obtain ⟨p, hp, _⟩ := hlo.1
    simp at hp
  have e1 : maxBoth l = hi := by
    refine le_antisymm (hhi.2 (maxBoth_mem l h)) ?_
    obtain ⟨p, hp, e | e⟩ := hhi.1 <;> rw [e]
    · exact (maxBoth_ge l p hp).1
    · exact (maxBoth_ge l p hp).2
  have e2 : minBoth l = lo := by
    refine le_antisymm ?_ (hlo.2 (minBoth_mem l h))
    obtain ⟨p, hp, e | e⟩ := hlo.1 <;> rw [e]
    · exact (minBoth_le l p hp).1
    · exact (minBoth_le l p hp).2
  unfold nrmsd
  rw [e1, e2, div_mul_cancel₀ _ (sub_ne_zero.mpr hne.symm)]

/-- C50, bias: a value lies in the interval exactly if it is at most `t(1-alpha/2, n-1) * s / sqrt n` away from the estimate,
where `s² = n/(n-1)` times the variance of the differences. -/
theorem bias_ci_exact (tppf : ℝ → ℝ → ℝ) (l : Pairs) (b alpha v : ℝ) :
    Encloses (biasCi tppf l b alpha) v ↔
      |v - b| ≤ Real.sqrt ((l.map (fun p => (p.1 - p.2 - mean (l.map (fun p => p.1 - p.2))) ^ 2)).sum /
        ((l.length : ℝ) - 1)) / Real.sqrt (l.length : ℝ) * tppf (1 - alpha / 2) ((l.length : ℝ) - 1) := by
  have e : npStd1 (l.map (fun p => p.1 - p.2)) =
      Real.sqrt ((l.map (fun p => (p.1 - p.2 - mean (l.map (fun p => p.1 - p.2))) ^ 2)).sum / ((l.length : ℝ) - 1)) := by
    unfold npStd1; rw [npMean_eq, List.map_map, List.length_map]; rfl
  unfold Encloses biasCi num
  rw [e, abs_le]
  constructor
  · rintro ⟨h1, h2⟩; constructor <;> simp only at h1 h2 <;> linarith
  · rintro ⟨h1, h2⟩; constructor <;> simp only <;> linarith

/-- two observations with differences -1 and 1 and a quantile of 12 -/
example : Encloses (biasCi (fun _ _ => 12) [(1, 2), (3, 2)] 0 0.05) 12 := by
  rw [bias_ci_exact]
  norm_num [mean]

/-- C50, correlations: on the Fisher scale the intervals are symmetric with the stated half widths. -/
theorem correlation_ci_exact (normppf : ℝ → ℝ) (n r alpha : ℝ) :
    let z := normppf (1 - alpha / 2)
    let half : ℝ × ℝ → ℝ → Prop := fun i w =>
      Real.artanh i.1 = Real.artanh r - w ∧ Real.artanh i.2 = Real.artanh r + w
    half (pearsonCi normppf n r alpha) (z / Real.sqrt (n - 3)) ∧
    half (spearmanCi normppf n r alpha) (z * Real.sqrt (1 + r ^ 2 / 2) / Real.sqrt (n - 3)) ∧
    half (kendallCi normppf n r alpha) (z * 0.431 / Real.sqrt (n - 3)) := by
  simp only [pearsonCi, spearmanCi, kendallCi, Real.artanh_tanh, and_self]

/-- C50, ubRMSD: the bounds are `sqrt (n u² / chi2)` at the two quantiles. -/
theorem ubrmsd_ci_exact (chi2ppf : ℝ → ℝ → ℝ) (l : Pairs) (u alpha v : ℝ) (hv : 0 ≤ v) (h : l ≠ [])
    (hpos : ∀ q, 0 < q → q < 1 → 0 < chi2ppf q ((l.length : ℝ) - 1)) (h0 : 0 < alpha) (h1 : alpha < 1) :
    Encloses (ubrmsdCi chi2ppf l u alpha) v ↔
      (l.length : ℝ) * u ^ 2 ≤ v ^ 2 * chi2ppf (1 - alpha / 2) ((l.length : ℝ) - 1) ∧
      v ^ 2 * chi2ppf (alpha / 2) ((l.length : ℝ) - 1) ≤ (l.length : ℝ) * u ^ 2 := by
  have q1 := hpos (alpha / 2) (by linarith) (by linarith)
  have q2 := hpos (1 - alpha / 2) (by linarith) (by linarith)
  have hn := len_pos (K := ℝ) l h
  unfold Encloses ubrmsdCi num
  simp only
  rw [Real.sqrt_le_left hv, Real.le_sqrt hv, div_le_iff₀ q2, le_div_iff₀ q1]
  positivity

example : Encloses (ubrmsdCi (fun q _ => q) [(1, 2), (3, 5), (4, 4)] 1 (1 / 2)) 3 := by
  rw [ubrmsd_ci_exact _ _ _ _ _ (by norm_num) (by simp) (fun q h _ => h) (by norm_num) (by norm_num)]
  norm_num

example : ∃ lo hi : ℝ, IsLeast (allValues [(1, 2), (3, 5)]) lo ∧ IsGreatest (allValues [(1, 2), (3, 5)]) hi ∧ lo ≠ hi := by
  refine ⟨1, 5, ⟨⟨(1, 2), by simp, by simp⟩, ?_⟩, ⟨⟨(3, 5), by simp, by simp⟩, ?_⟩, by norm_num⟩
  · rintro v ⟨p, hp, e⟩
    simp at hp; rcases hp with rfl | rfl <;> rcases e with rfl | rfl <;> norm_num
  · rintro v ⟨p, hp, e⟩
    simp at hp; rcases hp with rfl | rfl <;> rcases e with rfl | rfl <;> norm_num

end Verif.Pairwise
