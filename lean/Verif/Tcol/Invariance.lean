import Mathlib.Tactic.FieldSimp
import Mathlib.Tactic.FinCases
import Mathlib.Tactic.Linarith
import Mathlib.Tactic.Ring
import Verif.Tcol.Model

/-!
C93, triple collocation: the results for arbitrary data (no error model is assumed) do not depend on the order of the observations,
on the offsets of the data sets, nor - apart from the unit of the reference - on their units.
-/

namespace Verif.Tcol

/-! ### Specification -/

/-- every data set `i` expressed in its own other units: `x ↦ a i * x + b i` -/
def inUnits (a b : Fin 3 → ℝ) (rows : List Row) : List Row := rows.map (fun r i => a i * r i + b i)

/-! ### Proofs -/

theorem avg_perm {l l' : List Row} (h : l.Perm l') (f : Row → ℝ) : avg l f = avg l' f := by
  unfold avg; rw [(h.map f).sum_eq, h.length_eq]

theorem npCov_perm {l l' : List Row} (h : l.Perm l') : npCov l = npCov l' := by
  funext i j
  unfold npCov
  rw [avg_perm h (fun r => r i), avg_perm h (fun r => r j), (h.map _).sum_eq, h.length_eq]

theorem sum_affine (l : List Row) (f : Row → ℝ) (a b : ℝ) :
    (l.map (fun r => a * f r + b)).sum = a * (l.map f).sum + (l.length : ℝ) * b := by
  induction l with
  | nil => simp
  | cons r l ih => simp only [List.map_cons, List.sum_cons, ih, List.length_cons]; push_cast; ring

theorem avg_inUnits (a b : Fin 3 → ℝ) (l : List Row) (hl : l ≠ []) (i : Fin 3) :
    avg (inUnits a b l) (fun r => r i) = a i * avg l (fun r => r i) + b i := by
  have hn : (l.length : ℝ) ≠ 0 := by
    have : l.length ≠ 0 := by simpa using hl
    exact_mod_cast this
  unfold avg inUnits
  rw [List.map_map, List.length_map]
  have e := sum_affine l (fun r => r i) (a i) (b i)
  have e' : (l.map ((fun r : Row => r i) ∘ fun r i => a i * r i + b i)).sum =
      a i * (l.map (fun r => r i)).sum + (l.length : ℝ) * b i := e
  rw [e']
  field_simp

theorem npCov_inUnits (a b : Fin 3 → ℝ) (l : List Row) (i j : Fin 3) :
    npCov (inUnits a b l) i j = a i * a j * npCov l i j := by
  by_cases hl : l = []
  · subst hl; simp [npCov, inUnits]
  unfold npCov
  rw [avg_inUnits a b l hl i, avg_inUnits a b l hl j]
  generalize avg l (fun r => r i) = m
  generalize avg l (fun r => r j) = m'
  rw [← mul_div_assoc]
  unfold inUnits
  rw [List.map_map, List.length_map]
  congr 1
  rw [← List.sum_map_mul_left]
  congr 1
  exact List.map_congr_left (fun r _ => by simp only [Function.comp]; ring)

/-- C93, triple collocation: reordering the observations changes nothing, for `tcol_metrics`, `tcol_snr` and `tcol_error`. -/
theorem tcol_order_irrelevant (l l' : List Row) (h : l.Perm l') (ref : Fin 3) :
    tcolMetrics l ref = tcolMetrics l' ref ∧ tcolSnr l ref = tcolSnr l' ref ∧ tcolError l = tcolError l' := by
  refine ⟨?_, ?_, ?_⟩
  · unfold tcolMetrics; rw [npCov_perm h]
  · unfold tcolSnr; rw [npCov_perm h]
  · funext i; unfold tcolError; rw [avg_perm h]

/-- C93, triple collocation in other units (gains not 0): the SNR stays; the scaling factor is converted; the error standard deviation follows
the unit of the reference only, up to the sign of the converted data set's gain. -/
theorem tcol_units (l : List Row) (ref : Fin 3) (a b : Fin 3 → ℝ) (ha : ∀ i, a i ≠ 0) (i : Fin 3) :
    (tcolMetrics (inUnits a b l) ref).snr i = (tcolMetrics l ref).snr i ∧
    (tcolSnr (inUnits a b l) ref).snr i = (tcolSnr l ref).snr i ∧
    (tcolMetrics (inUnits a b l) ref).beta i * a i = (tcolMetrics l ref).beta i * a ref ∧
    (tcolMetrics (inUnits a b l) ref).errStd i * a i = |a i| * a ref * (tcolMetrics l ref).errStd i := by
  have hc : npCov (inUnits a b l) = fun i j => a i * a j * npCov l i j := by
    funext i j; exact npCov_inUnits a b l i j
  have hbeta : (tcolMetrics (inUnits a b l) ref).beta i * a i = (tcolMetrics l ref).beta i * a ref := by
    unfold tcolMetrics tcolMetricsFromCov
    simp only [hc]
    split
    · rw [show a ref * a (otherInd ref i) * npCov l ref (otherInd ref i) =
          a (otherInd ref i) * (a ref * npCov l ref (otherInd ref i)) by ring,
        show a i * a (otherInd ref i) * npCov l i (otherInd ref i) =
          a (otherInd ref i) * (a i * npCov l i (otherInd ref i)) by ring,
        mul_div_mul_left _ _ (ha _), mul_div_mul_comm]
      field_simp [ha i]
    · rename_i h; rw [not_not.mp h]
  have hratio : ∀ i : Fin 3, (a i * a i * npCov l i i * (a (i + 1) * a (i + 2) * npCov l (i + 1) (i + 2))) /
      (a i * a (i + 1) * npCov l i (i + 1) * (a i * a (i + 2) * npCov l i (i + 2))) =
      (npCov l i i * npCov l (i + 1) (i + 2)) / (npCov l i (i + 1) * npCov l i (i + 2)) := by
    intro i
    rw [show a i * a i * npCov l i i * (a (i + 1) * a (i + 2) * npCov l (i + 1) (i + 2)) =
        (a i * a i * a (i + 1) * a (i + 2)) * (npCov l i i * npCov l (i + 1) (i + 2)) by ring,
      show a i * a (i + 1) * npCov l i (i + 1) * (a i * a (i + 2) * npCov l i (i + 2)) =
        (a i * a i * a (i + 1) * a (i + 2)) * (npCov l i (i + 1) * npCov l i (i + 2)) by ring,
      mul_div_mul_left _ _ (by simp [ha])]
  refine ⟨?_, ?_, hbeta, ?_⟩
  · unfold tcolMetrics tcolMetricsFromCov
    simp only [hc, hratio]
  · unfold tcolSnr
    simp only [hc, hratio]
  · have he : (tcolMetrics (inUnits a b l) ref).errStd i =
        Real.sqrt (npCov (inUnits a b l) i i - (npCov (inUnits a b l) i (i + 1) * npCov (inUnits a b l) i (i + 2)) /
          npCov (inUnits a b l) (i + 1) (i + 2)) * (tcolMetrics (inUnits a b l) ref).beta i := rfl
    have he' : (tcolMetrics l ref).errStd i =
        Real.sqrt (npCov l i i - (npCov l i (i + 1) * npCov l i (i + 2)) / npCov l (i + 1) (i + 2)) *
          (tcolMetrics l ref).beta i := rfl
    rw [he, he', mul_assoc, hbeta]
    simp only [hc]
    rw [show a i * a (i + 1) * npCov l i (i + 1) * (a i * a (i + 2) * npCov l i (i + 2)) =
        (a (i + 1) * a (i + 2)) * (a i ^ 2 * (npCov l i (i + 1) * npCov l i (i + 2))) by ring,
      mul_div_mul_left _ _ (mul_ne_zero (ha _) (ha _)),
      show a i * a i * npCov l i i - a i ^ 2 * (npCov l i (i + 1) * npCov l i (i + 2)) / npCov l (i + 1) (i + 2) =
        a i ^ 2 * (npCov l i i - npCov l i (i + 1) * npCov l i (i + 2) / npCov l (i + 1) (i + 2)) by ring,
      Real.sqrt_mul (sq_nonneg _), Real.sqrt_sq_eq_abs]
    ring

/-- C93: with positive gains the error standard deviations are those of the reference's unit, whatever the units of the other data sets. -/
theorem tcol_err_std_reference_unit (l : List Row) (ref : Fin 3) (a b : Fin 3 → ℝ) (ha : ∀ i, 0 < a i) (i : Fin 3) :
    (tcolMetrics (inUnits a b l) ref).errStd i = a ref * (tcolMetrics l ref).errStd i := by
  have h := (tcol_units l ref a b (fun i => (ha i).ne') i).2.2.2
  rw [abs_of_pos (ha i)] at h
  exact mul_right_cancel₀ (ha i).ne' (by linarith)

/-- concrete case: three data sets in percent instead of fractions, one with an offset, two rows exchanged -/
example (r s t : Row) (ref : Fin 3) : (tcolMetrics (inUnits (fun _ => 100) ![0, 0, 5] [r, s, t]) ref).errStd 1 =
    100 * (tcolMetrics [s, r, t] ref).errStd 1 := by
  rw [tcol_err_std_reference_unit _ ref _ _ (fun _ => by norm_num) 1,
    (tcol_order_irrelevant [r, s, t] [s, r, t] (List.Perm.swap _ _ _) ref).1]

end Verif.Tcol
