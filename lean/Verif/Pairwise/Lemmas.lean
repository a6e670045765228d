import Mathlib.Tactic.Linarith
import Mathlib.Tactic.Positivity
import Mathlib.Tactic.NormNum
import Verif.Moments.Props
import Verif.Moments.Ineq
import Verif.Pairwise.Model
import Verif.Pairwise.Spec

namespace Verif.Pairwise

open Verif.Moments

theorem foldl_add_eq {α : Type} (l : List α) (f : α → ℝ) (c : ℝ) :
    l.foldl (fun s p => s + f p) c = c + S l f := by
  induction l generalizing c with
  | nil => simp
  | cons a l ih => simp [ih]; ring

theorem bias_eq (l : Pairs) : bias l = S l (fun p => p.1 - p.2) / (l.length : ℝ) := by
  unfold bias num; rw [foldl_add_eq]; simp

theorem RSS_eq (l : Pairs) : RSS l = S l (fun p => (p.1 - p.2) ^ 2) := by
  unfold RSS; rw [foldl_add_eq]; simp

theorem npMean_eq (l : List ℝ) : npMean l = mean l := rfl

theorem num_ne {l : Pairs} (h : l ≠ []) : (l.length : ℝ) ≠ 0 := (len_pos l h).ne'

theorem S_sub {α : Type} (l : List α) (f g : α → ℝ) : S l (fun a => f a - g a) = S l f - S l g := by
  induction l with
  | nil => simp
  | cons a l ih => simp [ih]; ring

theorem bias_mean (l : Pairs) : bias l = mean (l.map Prod.fst) - mean (l.map Prod.snd) := by
  rw [bias_eq, mean_map, mean_map, S_sub]; ring

theorem meanSqDiff_eq (l : Pairs) : meanSqDiff l = RSS l / (l.length : ℝ) := by
  unfold meanSqDiff; rw [mean_map, RSS_eq]

/-- `mean (x-y)² = var x + var y - 2 cov + (mean x - mean y)²` -/
theorem meanSqDiff_decomp (l : Pairs) (h : l ≠ []) :
    meanSqDiff l = pvar (l.map Prod.fst) + pvar (l.map Prod.snd) - 2 * pcov l +
      (mean (l.map Prod.fst) - mean (l.map Prod.snd)) ^ 2 := by
  have hn := num_ne h
  have e1 := pvar_eq l (Prod.fst : ℝ × ℝ → ℝ)
  have e2 := pvar_eq l (Prod.snd : ℝ × ℝ → ℝ)
  have e3 := pcov_eq l
  have e4 : (l.length : ℝ) * meanSqDiff l = S l (fun p => p.1 * p.1) + S l (fun p => p.2 * p.2) -
      2 * S l (fun p => p.1 * p.2) := by
    unfold meanSqDiff
    rw [len_mul_mean]
    have : S l (fun p : ℝ × ℝ => (p.1 - p.2) ^ 2) =
        S l (fun p => (p.1 * p.1 + p.2 * p.2) - 2 * (p.1 * p.2)) := S_congr _ _ _ (fun a _ => by ring)
    rw [this, S_sub, S_add, S_mul]
  apply mul_left_cancel₀ hn
  linear_combination e4 - e1 - e2 + 2 * e3

/-- `cov ≤ σx σy` and its negative -/
theorem abs_pcov_le (l : Pairs) :
    |pcov l| ≤ Real.sqrt (pvar (l.map Prod.fst)) * Real.sqrt (pvar (l.map Prod.snd)) := by
  rw [← Real.sqrt_mul (pvar_nonneg _)]
  apply Real.abs_le_sqrt
  rw [sq]; exact pcov_sq_le l

theorem ubrmsd0_eq (l : Pairs) (h : l ≠ []) :
    ubrmsd0 l = Real.sqrt (pvar (l.map Prod.fst) + pvar (l.map Prod.snd) - 2 * pcov l) := by
  unfold ubrmsd0 num
  have hf : ∀ (l : Pairs) (s : ℝ × ℝ), l.foldl (fun (s : ℝ × ℝ) p => (s.1 + p.1, s.2 + p.2)) s =
      (s.1 + S l Prod.fst, s.2 + S l Prod.snd) := by
    intro l
    induction l with
    | nil => simp
    | cons a l ih => intro s; simp only [List.foldl_cons, ih, S_cons]; ext <;> simp <;> ring
  simp only [hf, zero_add]
  rw [foldl_add_eq, zero_add, ← mean_map l Prod.fst, ← mean_map l Prod.snd]
  congr 1
  set a := mean (l.map Prod.fst) with ha
  set b := mean (l.map Prod.snd) with hb
  have hn := num_ne h
  rw [div_eq_iff hn]
  have e1 := pvar_eq l (Prod.fst : ℝ × ℝ → ℝ)
  have e2 := pvar_eq l (Prod.snd : ℝ × ℝ → ℝ)
  have e3 := pcov_eq l
  rw [← ha] at e1 e3
  rw [← hb] at e2 e3
  have m1 := len_mul_mean l (Prod.fst : ℝ × ℝ → ℝ)
  have m2 := len_mul_mean l (Prod.snd : ℝ × ℝ → ℝ)
  rw [← ha] at m1
  rw [← hb] at m2
  have e4 : S l (fun p : ℝ × ℝ => ((p.1 - a) - (p.2 - b)) ^ 2) =
      S l (fun p => (p.1 - a) * (p.1 - a)) + S l (fun p => (p.2 - b) * (p.2 - b)) -
        2 * S l (fun p => (p.1 - a) * (p.2 - b)) := by
    rw [← S_add, ← S_mul, ← S_sub]
    exact S_congr _ _ _ (fun p _ => by ring)
  rw [e4, S_dev, S_dev, S_dev, ← m1, ← m2]
  linear_combination -e1 - e2 + 2 * e3

theorem maxBoth_ge (l : Pairs) : ∀ p ∈ l, p.1 ≤ maxBoth l ∧ p.2 ≤ maxBoth l := by
  have key : ∀ (l : Pairs) (m : ℝ), m ≤ l.foldl (fun m q => max m (max q.1 q.2)) m ∧
      ∀ p ∈ l, max p.1 p.2 ≤ l.foldl (fun m q => max m (max q.1 q.2)) m := by
    intro l
    induction l with
    | nil => simp
    | cons a l ih =>
      intro m
      obtain ⟨i1, i2⟩ := ih (max m (max a.1 a.2))
      refine ⟨le_trans (le_max_left _ _) i1, ?_⟩
      intro p hp
      rcases List.mem_cons.mp hp with rfl | hp
      · exact le_trans (le_max_right _ _) i1
      · exact i2 p hp
  cases l with
  | nil => simp
  | cons a l =>
    intro p hp
    obtain ⟨k1, k2⟩ := key l (max a.1 a.2)
    unfold maxBoth
    have : max p.1 p.2 ≤ l.foldl (fun m q => max m (max q.1 q.2)) (max a.1 a.2) := by
      rcases List.mem_cons.mp hp with rfl | hp
      · exact k1
      · exact k2 p hp
    exact ⟨le_trans (le_max_left _ _) this, le_trans (le_max_right _ _) this⟩

theorem minBoth_le (l : Pairs) : ∀ p ∈ l, minBoth l ≤ p.1 ∧ minBoth l ≤ p.2 := by
  have key : ∀ (l : Pairs) (m : ℝ), l.foldl (fun m q => min m (min q.1 q.2)) m ≤ m ∧
      ∀ p ∈ l, l.foldl (fun m q => min m (min q.1 q.2)) m ≤ min p.1 p.2 := by
    intro l
    induction l with
    | nil => simp
    | cons a l ih =>
      intro m
      obtain ⟨i1, i2⟩ := ih (min m (min a.1 a.2))
      refine ⟨le_trans i1 (min_le_left _ _), ?_⟩
      intro p hp
      rcases List.mem_cons.mp hp with rfl | hp
      · exact le_trans i1 (min_le_right _ _)
      · exact i2 p hp
  cases l with
  | nil => simp
  | cons a l =>
    intro p hp
    obtain ⟨k1, k2⟩ := key l (min a.1 a.2)
    unfold minBoth
    have : l.foldl (fun m q => min m (min q.1 q.2)) (min a.1 a.2) ≤ min p.1 p.2 := by
      rcases List.mem_cons.mp hp with rfl | hp
      · exact k1
      · exact k2 p hp
    exact ⟨le_trans this (min_le_left _ _), le_trans this (min_le_right _ _)⟩

theorem S_swapped (l : Pairs) (f : ℝ × ℝ → ℝ) : S (swapped l) f = S l (fun p => f p.swap) := by
  simp [S, swapped, Function.comp_def]

theorem swapped_length (l : Pairs) : (swapped l).length = l.length := by simp [swapped]

theorem swapped_ne {l : Pairs} (h : l ≠ []) : swapped l ≠ [] := by simpa [swapped] using h

theorem swapped_fst (l : Pairs) : (swapped l).map Prod.fst = l.map Prod.snd := by
  simp [swapped, Function.comp_def]
theorem swapped_snd (l : Pairs) : (swapped l).map Prod.snd = l.map Prod.fst := by
  simp [swapped, Function.comp_def]

theorem pcov_swapped (l : Pairs) : pcov (swapped l) = pcov l := by
  unfold pcov
  rw [swapped_fst, swapped_snd]
  unfold swapped
  rw [List.map_map]
  congr 1
  apply List.map_congr_left
  intro p _
  simp; ring

theorem tanh_mono {a b : ℝ} (h : a ≤ b) : Real.tanh a ≤ Real.tanh b := by
  rw [← Real.artanh_le_artanh_iff ⟨Real.neg_one_lt_tanh a, Real.tanh_lt_one a⟩
    ⟨Real.neg_one_lt_tanh b, Real.tanh_lt_one b⟩, Real.artanh_tanh, Real.artanh_tanh]
  exact h

/-- The parameters after any number of chunks describe the concatenation. -/
structure RecInv (l : Pairs) (s : RecParams) : Prop where
  n : s.n = (l.length : ℝ)
  sxy : s.sxy = S l (fun p => p.1 * p.2)
  sx : s.sx = S l Prod.fst
  sy : s.sy = S l Prod.snd
  sx2 : s.sx2 = S l (fun p => p.1 ^ 2)
  sy2 : s.sy2 = S l (fun p => p.2 ^ 2)

theorem RecInv_step (l c : Pairs) (s : RecParams) (h : RecInv l s) :
    RecInv (l ++ c) (pearsonrRecursive c s).2 := by
  obtain ⟨h1, h2, h3, h4, h5, h6⟩ := h
  constructor <;> simp [pearsonrRecursive, num, *, S]

theorem rec_value (l c : Pairs) (s : RecParams) (h : RecInv l s) (hne : l ++ c ≠ []) :
    (pearsonrRecursive c s).1 = pearson (l ++ c) := by
  have h' := RecInv_step l c s h
  have e : (pearsonrRecursive c s).1 =
      let t := (pearsonrRecursive c s).2
      let den := Real.sqrt (t.n * t.sx2 - t.sx ^ 2) * Real.sqrt (t.n * t.sy2 - t.sy ^ 2)
      if den = 0 then none else some ((t.n * t.sxy - t.sx * t.sy) / den) := rfl
  rw [e]
  generalize (pearsonrRecursive c s).2 = t at h'
  generalize l ++ c = m at h' hne
  obtain ⟨h1, h2, h3, h4, h5, h6⟩ := h'
  have hn := num_ne hne
  have hnpos : (0 : ℝ) < m.length := len_pos m hne
  have e1 := pvar_eq m (Prod.fst : ℝ × ℝ → ℝ)
  have e2 := pvar_eq m (Prod.snd : ℝ × ℝ → ℝ)
  have e3 := pcov_eq m
  have m1 := len_mul_mean m (Prod.fst : ℝ × ℝ → ℝ)
  have m2 := len_mul_mean m (Prod.snd : ℝ × ℝ → ℝ)
  have s1 : S m (fun p : ℝ × ℝ => p.1 ^ 2) = S m (fun p => p.1 * p.1) := S_congr _ _ _ (fun p _ => sq _)
  have s2 : S m (fun p : ℝ × ℝ => p.2 ^ 2) = S m (fun p => p.2 * p.2) := S_congr _ _ _ (fun p _ => sq _)
  have q1 : t.n * t.sx2 - t.sx ^ 2 = (m.length : ℝ) ^ 2 * pvar (m.map Prod.fst) := by
    rw [h1, h3, h5, s1, ← m1]; linear_combination -(m.length : ℝ) * e1
  have q2 : t.n * t.sy2 - t.sy ^ 2 = (m.length : ℝ) ^ 2 * pvar (m.map Prod.snd) := by
    rw [h1, h4, h6, s2, ← m2]; linear_combination -(m.length : ℝ) * e2
  have q3 : t.n * t.sxy - t.sx * t.sy = (m.length : ℝ) ^ 2 * pcov m := by
    rw [h1, h2, h3, h4, ← m1, ← m2]; linear_combination -(m.length : ℝ) * e3
  simp only
  rw [q1, q2, q3, Real.sqrt_mul (sq_nonneg _), Real.sqrt_mul (sq_nonneg _), Real.sqrt_sq hnpos.le]
  unfold pearson
  by_cases hz : pvar (m.map Prod.fst) = 0 ∨ pvar (m.map Prod.snd) = 0
  · rw [if_pos hz, if_pos]
    rcases hz with hz | hz <;> simp [hz]
  · rw [if_neg hz]
    push Not at hz
    have p1 : 0 < Real.sqrt (pvar (m.map Prod.fst)) :=
      Real.sqrt_pos.mpr (lt_of_le_of_ne (pvar_nonneg _) (Ne.symm hz.1))
    have p2 : 0 < Real.sqrt (pvar (m.map Prod.snd)) :=
      Real.sqrt_pos.mpr (lt_of_le_of_ne (pvar_nonneg _) (Ne.symm hz.2))
    rw [if_neg (by positivity)]
    congr 1
    field_simp

end Verif.Pairwise
