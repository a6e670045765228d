import Mathlib.Algebra.Order.Field.Basic
import Mathlib.Tactic.Linarith
import Mathlib.Tactic.Positivity
import Verif.Moments.Lemmas

/-! Inequalities between sums over lists. -/

set_option linter.unusedSectionVars false

namespace Verif.Moments

variable {K : Type} [Field K] [LinearOrder K] [IsStrictOrderedRing K] {α : Type}

theorem S_nonneg (l : List α) (f : α → K) (h : ∀ a ∈ l, 0 ≤ f a) : 0 ≤ S l f := by
  induction l with
  | nil => simp
  | cons a l ih =>
    have := ih (fun b hb => h b (List.mem_cons_of_mem _ hb))
    have := h a (List.mem_cons_self ..)
    simp; linarith

theorem S_le (l : List α) (f g : α → K) (h : ∀ a ∈ l, f a ≤ g a) : S l f ≤ S l g := by
  induction l with
  | nil => simp
  | cons a l ih =>
    have := ih (fun b hb => h b (List.mem_cons_of_mem _ hb))
    have := h a (List.mem_cons_self ..)
    simp; linarith

theorem S_eq_zero (l : List α) (f : α → K) (h : ∀ a ∈ l, 0 ≤ f a) (h0 : S l f = 0) : ∀ a ∈ l, f a = 0 := by
  induction l with
  | nil => simp
  | cons a l ih =>
    have h1 := S_nonneg l f (fun b hb => h b (List.mem_cons_of_mem _ hb))
    have h2 := h a (List.mem_cons_self ..)
    simp at h0
    intro b hb
    rcases List.mem_cons.mp hb with rfl | hb
    · linarith
    · exact ih (fun b hb => h b (List.mem_cons_of_mem _ hb)) (by linarith) b hb

/-- Cauchy–Schwarz for lists -/
theorem S_cauchy (l : List α) (f g : α → K) :
    S l (fun a => f a * g a) * S l (fun a => f a * g a) ≤ S l (fun a => f a * f a) * S l (fun a => g a * g a) := by
  set A := S l (fun a => f a * g a) with hA
  set P := S l (fun a => f a * f a) with hP
  set Q := S l (fun a => g a * g a) with hQ
  have hQ0 : 0 ≤ Q := S_nonneg _ _ (fun a _ => mul_self_nonneg _)
  rcases hQ0.lt_or_eq with hpos | hzero
  · have h := S_nonneg l (fun a => (Q * f a - A * g a) * (Q * f a - A * g a)) (fun a _ => mul_self_nonneg _)
    have e : S l (fun a => (Q * f a - A * g a) * (Q * f a - A * g a)) =
        Q * Q * P - 2 * Q * A * A + A * A * Q := by
      have : S l (fun a => (Q * f a - A * g a) * (Q * f a - A * g a)) =
          S l (fun a => (Q * Q) * (f a * f a) + ((-2 * Q * A) * (f a * g a) + (A * A) * (g a * g a))) :=
        S_congr _ _ _ (fun a _ => by ring)
      rw [this, S_add, S_add, S_mul, S_mul, S_mul]
      rw [← hA, ← hP, ← hQ]; ring
    rw [e] at h
    have h' : 0 ≤ Q * (P * Q - A * A) := by linarith [h, (by ring : Q * (P * Q - A * A) = Q * Q * P - 2 * Q * A * A + A * A * Q)]
    have := (mul_nonneg_iff_of_pos_left hpos).mp h'
    linarith
  · have hz := S_eq_zero l (fun a => g a * g a) (fun a _ => mul_self_nonneg _) hzero.symm
    have : A = 0 := by
      rw [hA, S_congr l (fun a => f a * g a) (fun _ => 0)]
      · rw [S_const]; ring
      · intro a ha
        have := hz a ha
        rw [mul_self_eq_zero] at this
        simp [this]
    rw [this, ← hzero]; simp

theorem len_nonneg (l : List α) : (0 : K) ≤ (l.length : K) := Nat.cast_nonneg _
theorem len_pos (l : List α) (h : l ≠ []) : (0 : K) < (l.length : K) := by
  have : 0 < l.length := List.length_pos_iff.mpr h
  exact_mod_cast this

theorem mean_nonneg (l : List α) (f : α → K) (h : ∀ a ∈ l, 0 ≤ f a) : 0 ≤ mean (l.map f) := by
  rw [mean_map]; exact div_nonneg (S_nonneg l f h) (len_nonneg l)

theorem pvar_nonneg (l : List K) : 0 ≤ pvar l := mean_nonneg l _ (fun _ _ => sq_nonneg _)

/-- `cov² ≤ var · var` -/
theorem pcov_sq_le (l : List (K × K)) :
    pcov l * pcov l ≤ pvar (l.map Prod.fst) * pvar (l.map Prod.snd) := by
  have h := S_cauchy l (fun p => p.1 - mean (l.map Prod.fst)) (fun p => p.2 - mean (l.map Prod.snd))
  have e1 : pvar (l.map Prod.fst) = S l (fun p => (p.1 - mean (l.map Prod.fst)) * (p.1 - mean (l.map Prod.fst))) /
      (l.length : K) := by
    unfold pvar; rw [List.map_map, mean_map]; congr 1; apply S_congr; intro a _; simp [sq]
  have e2 : pvar (l.map Prod.snd) = S l (fun p => (p.2 - mean (l.map Prod.snd)) * (p.2 - mean (l.map Prod.snd))) /
      (l.length : K) := by
    unfold pvar; rw [List.map_map, mean_map]; congr 1; apply S_congr; intro a _; simp [sq]
  have e3 : pcov l = S l (fun p => (p.1 - mean (l.map Prod.fst)) * (p.2 - mean (l.map Prod.snd))) /
      (l.length : K) := by
    unfold pcov; rw [mean_map]
  rw [e1, e2, e3, div_mul_div_comm, div_mul_div_comm]
  exact div_le_div_of_nonneg_right h (mul_self_nonneg _)

end Verif.Moments
