import Mathlib.Data.List.Basic
import Mathlib.Order.Basic
import Mathlib.Tactic.Linarith

/-!
Helper lemmas on lists that are split by a "downward closed" test. They carry
no modelling content.
-/

namespace Verif

/-- `p` never becomes true again once it has been false along the list. -/
def DownClosed {α : Type*} (p : α → Bool) (l : List α) : Prop :=
  l.Pairwise (fun a b => p b = true → p a = true)

theorem DownClosed.tail {α : Type*} {p : α → Bool} {a : α} {l : List α}
    (h : DownClosed p (a :: l)) : DownClosed p l := (List.pairwise_cons.1 h).2

theorem countP_eq_zero_of_head_false {α : Type*} {p : α → Bool} {a : α} {l : List α}
    (h : DownClosed p (a :: l)) (ha : p a = false) : (a :: l).countP p = 0 := by
  rw [List.countP_eq_zero]
  intro x hx
  rcases List.mem_cons.1 hx with rfl | hx
  · simp [ha]
  · intro hpx
    have := (List.pairwise_cons.1 h).1 x hx hpx
    simp [ha] at this

theorem take_countP {α : Type*} {p : α → Bool} : ∀ {l : List α}, DownClosed p l →
    l.take (l.countP p) = l.filter p
  | [], _ => by simp
  | a :: l, h => by
    cases ha : p a with
    | true => simp [ha, take_countP h.tail]
    | false =>
      rw [countP_eq_zero_of_head_false h ha]
      have := countP_eq_zero_of_head_false h ha
      rw [List.countP_eq_zero] at this
      symm
      simpa [List.filter_eq_nil_iff] using this

theorem drop_countP {α : Type*} {p : α → Bool} : ∀ {l : List α}, DownClosed p l →
    l.drop (l.countP p) = l.filter (fun x => !p x)
  | [], _ => by simp
  | a :: l, h => by
    cases ha : p a with
    | true => simp [ha, drop_countP h.tail]
    | false =>
      have h0 := countP_eq_zero_of_head_false h ha
      rw [h0]
      rw [List.countP_eq_zero] at h0
      symm
      rw [List.drop_zero, List.filter_eq_self]
      intro x hx
      simpa using h0 x hx

/-- Indexed reading of `countP` for downward closed tests. -/
theorem lt_countP_iff {α : Type*} {p : α → Bool} : ∀ {l : List α}, DownClosed p l →
    ∀ {i : Nat} {x : α}, l[i]? = some x → (i < l.countP p ↔ p x = true)
  | [], _, i, x, hx => by simp at hx
  | a :: l, h, i, x, hx => by
    cases ha : p a with
    | false =>
      rw [countP_eq_zero_of_head_false h ha]
      have h0 := countP_eq_zero_of_head_false h ha
      rw [List.countP_eq_zero] at h0
      have hm : x ∈ a :: l := List.mem_of_getElem? hx
      simpa using h0 x hm
    | true =>
      rw [List.countP_cons_of_pos ha]
      cases i with
      | zero =>
        simp at hx; subst hx; simp [ha]
      | succ i =>
        simp at hx
        rw [← lt_countP_iff h.tail hx]
        omega

theorem downClosed_lt {α : Type*} [LinearOrder α] {l : List α} (h : l.Pairwise (· ≤ ·)) (b : α) :
    DownClosed (fun x => decide (x < b)) l :=
  h.imp (fun {x y} hxy => by simpa using fun hy => lt_of_le_of_lt hxy hy)

theorem downClosed_le {α : Type*} [LinearOrder α] {l : List α} (h : l.Pairwise (· ≤ ·)) (b : α) :
    DownClosed (fun x => decide (x ≤ b)) l :=
  h.imp (fun {x y} hxy => by simpa using fun hy => le_trans hxy hy)

end Verif
