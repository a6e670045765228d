import Mathlib.Algebra.Order.Field.Basic
import Mathlib.Algebra.Order.BigOperators.Group.List
import Mathlib.Tactic.Linarith
import Mathlib.Tactic.Positivity
import Mathlib.Tactic.NormNum
import Mathlib.Tactic.Ring

/-! Rounding errors of sums. `rnd` is the rounding after each operation; overflow and underflow are not modelled. -/

namespace Verif.Rounding

variable {K : Type} [Field K] [LinearOrder K] [IsStrictOrderedRing K]

/-- the relative error of a rounded number is at most `u` (2^-53 for `double`) -/
structure RelErr (rnd : K → K) (u : K) : Prop where
  nonneg : 0 ≤ u
  err : ∀ x, |rnd x - x| ≤ u * |x|

theorem RelErr.zero {rnd : K → K} {u : K} (h : RelErr rnd u) : rnd 0 = 0 := by
  have := h.err 0
  simpa using this

theorem RelErr.le {rnd : K → K} {u : K} (h : RelErr rnd u) (x : K) : |rnd x| ≤ (1 + u) * |x| := by
  have h1 := h.err x
  have h2 : |rnd x| ≤ |rnd x - x| + |x| := by
    have := abs_add_le (rnd x - x) x
    rwa [sub_add_cancel] at this
  linarith

/-- sum of absolute values -/
def absSum (l : List K) : K := (l.map (fun v => |v|)).sum

theorem absSum_nonneg (l : List K) : 0 ≤ absSum l := by
  refine List.sum_nonneg fun x hx => ?_
  obtain ⟨v, -, rfl⟩ := List.mem_map.mp hx
  exact abs_nonneg v

theorem one_le_pow {u : K} (hu : 0 ≤ u) (n : ℕ) : 1 ≤ (1 + u) ^ n := one_le_pow₀ (by linarith)

/-- a sum in the order of the list, from a start value, with a rounding after every addition -/
theorem fold_err {rnd : K → K} {u : K} (h : RelErr rnd u) (l : List K) : ∀ a : K,
    |l.foldl (fun s v => rnd (s + v)) a - (a + l.sum)| ≤ ((1 + u) ^ l.length - 1) * (|a| + absSum l) := by
  induction l with
  | nil => intro a; simp
  | cons v l ih =>
    intro a
    have h1 := ih (rnd (a + v))
    have h2 := h.err (a + v)
    have h3 := h.le (a + v)
    have h4 := abs_add_le a v
    have hP := one_le_pow h.nonneg l.length
    have hS := absSum_nonneg l
    have hu := h.nonneg
    rw [List.foldl_cons, List.sum_cons, List.length_cons, show absSum (v :: l) = |v| + absSum l by simp [absSum]]
    have e : l.foldl (fun s v => rnd (s + v)) (rnd (a + v)) - (a + (v + l.sum)) =
        (l.foldl (fun s v => rnd (s + v)) (rnd (a + v)) - (rnd (a + v) + l.sum)) + (rnd (a + v) - (a + v)) := by ring
    rw [e]
    refine (abs_add_le _ _).trans ?_
    have hm : ((1 + u) ^ l.length - 1) * (|rnd (a + v)| + absSum l) ≤ ((1 + u) ^ l.length - 1) * ((1 + u) * (|a| + |v|) + absSum l) := by
      refine mul_le_mul_of_nonneg_left ?_ (by linarith)
      have : (1 + u) * |a + v| ≤ (1 + u) * (|a| + |v|) := mul_le_mul_of_nonneg_left h4 (by linarith)
      linarith
    have hm2 : u * |a + v| ≤ u * (|a| + |v|) := mul_le_mul_of_nonneg_left h4 hu
    have hfin : ((1 + u) ^ l.length - 1) * ((1 + u) * (|a| + |v|) + absSum l) + u * (|a| + |v|) ≤ ((1 + u) ^ (l.length + 1) - 1) * (|a| + (|v| + absSum l)) := by
      have hx : 0 ≤ (1 + u) ^ l.length * u * absSum l := mul_nonneg (mul_nonneg (by linarith) hu) hS
      have : ((1 + u) ^ (l.length + 1) - 1) * (|a| + (|v| + absSum l)) -
          (((1 + u) ^ l.length - 1) * ((1 + u) * (|a| + |v|) + absSum l) + u * (|a| + |v|)) = (1 + u) ^ l.length * u * absSum l := by ring
      linarith
    linarith

/-- a sum of numbers that have errors themselves: term `f p` is computed as `g p` -/
theorem fold_err_terms {α : Type} {rnd : K → K} {u : K} (h : RelErr rnd u) (ε : K) (hε : 0 ≤ ε) (f g : α → K) (l : List α)
    (hg : ∀ p ∈ l, |g p - f p| ≤ ε * |f p|) :
    |(l.map g).foldl (fun s v => rnd (s + v)) 0 - (l.map f).sum| ≤ ((1 + u) ^ l.length * (1 + ε) - 1) * absSum (l.map f) := by
  have h1 := fold_err h (l.map g) 0
  rw [zero_add, abs_zero, zero_add, List.length_map] at h1
  have h2 : |(l.map g).sum - (l.map f).sum| ≤ ε * absSum (l.map f) ∧ absSum (l.map g) ≤ (1 + ε) * absSum (l.map f) := by
    clear h1
    induction l with
    | nil => simp [absSum]
    | cons p l ih =>
      obtain ⟨i1, i2⟩ := ih (fun q hq => hg q (List.mem_cons_of_mem _ hq))
      have hp := hg p List.mem_cons_self
      have hp2 : |g p| ≤ |g p - f p| + |f p| := by
        have := abs_add_le (g p - f p) (f p)
        rwa [sub_add_cancel] at this
      simp only [absSum, List.map_cons, List.sum_cons] at i1 i2 ⊢
      constructor
      · have e : g p + (l.map g).sum - (f p + (l.map f).sum) = (g p - f p) + ((l.map g).sum - (l.map f).sum) := by ring
        rw [e]
        refine (abs_add_le _ _).trans ?_
        linarith
      · linarith
  have hP := one_le_pow h.nonneg l.length
  have e : (l.map g).foldl (fun s v => rnd (s + v)) 0 - (l.map f).sum =
      ((l.map g).foldl (fun s v => rnd (s + v)) 0 - (l.map g).sum) + ((l.map g).sum - (l.map f).sum) := by ring
  rw [e]
  refine (abs_add_le _ _).trans ?_
  have hm : ((1 + u) ^ l.length - 1) * absSum (l.map g) ≤ ((1 + u) ^ l.length - 1) * ((1 + ε) * absSum (l.map f)) :=
    mul_le_mul_of_nonneg_left h2.2 (by linarith)
  have e2 : ((1 + u) ^ l.length * (1 + ε) - 1) * absSum (l.map f) = ((1 + u) ^ l.length - 1) * ((1 + ε) * absSum (l.map f)) + ε * absSum (l.map f) := by ring
  rw [e2]
  linarith [h2.1]

/-- one more rounding -/
theorem round_err {rnd : K → K} {u : K} (h : RelErr rnd u) (c B a a' : K) (hB : |a| ≤ B) (hc : 0 ≤ c) (ha : |a' - a| ≤ c * B) : |rnd a' - a| ≤ ((1 + c) * (1 + u) - 1) * B := by
  have h1 := h.err a'
  have h2 : |a'| ≤ |a' - a| + |a| := by
    have := abs_add_le (a' - a) a
    rwa [sub_add_cancel] at this
  have h3 : |rnd a' - a| ≤ |rnd a' - a'| + |a' - a| := by
    have := abs_add_le (rnd a' - a') (a' - a)
    rwa [sub_add_sub_cancel] at this
  have h4 : u * |a'| ≤ u * ((1 + c) * B) := mul_le_mul_of_nonneg_left (by linarith) h.nonneg
  have e : ((1 + c) * (1 + u) - 1) * B = u * ((1 + c) * B) + c * B := by ring
  rw [e]
  linarith

/-- an order of additions (numpy adds blocks of arrays separately): a binary tree with the summands at its leaves -/
inductive Tree (K : Type)
  | leaf (v : K)
  | node (l r : Tree K)

/-- the summands -/
def Tree.leaves : Tree K → List K
  | .leaf v => [v]
  | .node l r => l.leaves ++ r.leaves

/-- the number of additions -/
def Tree.size : Tree K → ℕ
  | .leaf _ => 0
  | .node l r => l.size + r.size + 1

/-- the sum in this order with a rounding after every addition -/
def Tree.sum (rnd : K → K) : Tree K → K
  | .leaf v => v
  | .node l r => rnd (l.sum rnd + r.sum rnd)

omit [LinearOrder K] [IsStrictOrderedRing K] in
theorem Tree.size_leaves (t : Tree K) : t.size + 1 = t.leaves.length := by
  induction t with
  | leaf v => rfl
  | node l r hl hr =>
    simp only [Tree.size, Tree.leaves, List.length_append]
    omega

theorem absSum_append (l m : List K) : absSum (l ++ m) = absSum l + absSum m := by
  simp [absSum]

theorem abs_sum_le (l : List K) : |l.sum| ≤ absSum l := by
  induction l with
  | nil => simp [absSum]
  | cons v l ih =>
    rw [List.sum_cons, show absSum (v :: l) = |v| + absSum l by simp [absSum]]
    exact (abs_add_le _ _).trans (by linarith)

/-- the error does not depend on the order of the additions -/
theorem tree_err {rnd : K → K} {u : K} (h : RelErr rnd u) (t : Tree K) :
    |t.sum rnd - t.leaves.sum| ≤ ((1 + u) ^ t.size - 1) * absSum t.leaves := by
  induction t with
  | leaf v => simp [Tree.sum, Tree.leaves, Tree.size]
  | node l r hl hr =>
    have hu := h.nonneg
    have hSl := absSum_nonneg l.leaves
    have hSr := absSum_nonneg r.leaves
    have p1 := one_le_pow hu l.size
    have p2 := one_le_pow hu r.size
    simp only [Tree.sum, Tree.leaves, Tree.size, List.sum_append, absSum_append]
    have hl' : ((1 + u) ^ l.size - 1) * absSum l.leaves ≤ ((1 + u) ^ (l.size + r.size) - 1) * absSum l.leaves := by
      refine mul_le_mul_of_nonneg_right ?_ hSl
      rw [pow_add]
      have : (1 + u) ^ l.size * 1 ≤ (1 + u) ^ l.size * (1 + u) ^ r.size := mul_le_mul_of_nonneg_left p2 (by linarith)
      linarith
    have hr' : ((1 + u) ^ r.size - 1) * absSum r.leaves ≤ ((1 + u) ^ (l.size + r.size) - 1) * absSum r.leaves := by
      refine mul_le_mul_of_nonneg_right ?_ hSr
      rw [pow_add]
      have : 1 * (1 + u) ^ r.size ≤ (1 + u) ^ l.size * (1 + u) ^ r.size := mul_le_mul_of_nonneg_right p1 (by linarith)
      linarith
    have hsum : |l.sum rnd + r.sum rnd - (l.leaves.sum + r.leaves.sum)| ≤ ((1 + u) ^ (l.size + r.size) - 1) * (absSum l.leaves + absSum r.leaves) := by
      have e : l.sum rnd + r.sum rnd - (l.leaves.sum + r.leaves.sum) = (l.sum rnd - l.leaves.sum) + (r.sum rnd - r.leaves.sum) := by ring
      rw [e]
      refine (abs_add_le _ _).trans ?_
      linarith
    have hB : |l.leaves.sum + r.leaves.sum| ≤ absSum l.leaves + absSum r.leaves :=
      (abs_add_le _ _).trans (add_le_add (abs_sum_le _) (abs_sum_le _))
    have p3 := one_le_pow hu (l.size + r.size)
    have := round_err h ((1 + u) ^ (l.size + r.size) - 1) _ _ _ hB (by linarith) hsum
    rw [show 1 + ((1 + u) ^ (l.size + r.size) - 1) = (1 + u) ^ (l.size + r.size) by ring, ← pow_succ] at this
    exact this

/-- the errors are small: `(1 + u)^n - 1 ≤ 2 n u` as long as `n u ≤ 1 / 2` -/
theorem pow_small {u : K} (hu : 0 ≤ u) (n : ℕ) (hn : (n : K) * u ≤ 1 / 2) : (1 + u) ^ n - 1 ≤ 2 * n * u := by
  induction n with
  | zero => simp
  | succ n ih =>
    push_cast at hn ⊢
    have hn0 : (0 : K) ≤ n := Nat.cast_nonneg n
    have hnu : (0 : K) ≤ n * u := mul_nonneg hn0 hu
    have h1 := ih (by linarith)
    rw [pow_succ]
    have h2 : (1 + u) ^ n * (1 + u) ≤ (1 + 2 * n * u) * (1 + u) := mul_le_mul_of_nonneg_right (by linarith) (by linarith)
    have h3 : (1 + 2 * n * u) * (1 + u) = 1 + 2 * n * u + u + 2 * (n * u) * u := by ring
    have h4 : 2 * (n * u) * u ≤ 1 * u := mul_le_mul_of_nonneg_right (by linarith) hu
    linarith

end Verif.Rounding
