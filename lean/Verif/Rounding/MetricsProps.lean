import Verif.Rounding.Metrics
import Verif.Rolling.FloatRounding

/-!
C105: rounding errors of the difference metrics. The specification are the textbook formulas on exact numbers: mean
difference, mean absolute difference, sum of squares. Unlike `rolling_pr_rmsd` (C104), whose error is not bounded by the
numbers in the window, the error is bounded by the numbers in the sum.
-/

namespace Verif.Rounding

section
variable {K : Type} [Field K] [LinearOrder K] [IsStrictOrderedRing K]

omit [LinearOrder K] [IsStrictOrderedRing K] in
theorem fold_map {α : Type} (rnd : K → K) (g : α → K) (l : List α) (a : K) :
    l.foldl (fun s p => rnd (s + g p)) a = (l.map g).foldl (fun s v => rnd (s + v)) a := by
  induction l generalizing a with
  | nil => rfl
  | cons p l ih => simp only [List.foldl_cons, List.map_cons]; exact ih _

/-- division by the number of values and a rounding -/
theorem mean_err {rnd : K → K} {u : K} (h : RelErr rnd u) (n k : ℕ) (hn : 0 < n) (s s' B : K) (hB : |s| ≤ B)
    (hs : |s' - s| ≤ ((1 + u) ^ k - 1) * B) : |rnd (s' / n) - s / n| ≤ ((1 + u) ^ (k + 1) - 1) * (B / n) := by
  have hn' : (0 : K) < n := Nat.cast_pos.mpr hn
  have h1 : |s / n| ≤ B / n := by
    rw [abs_div, abs_of_pos hn']
    exact div_le_div_of_nonneg_right hB hn'.le
  have h2 : |s' / n - s / n| ≤ ((1 + u) ^ k - 1) * (B / n) := by
    rw [← sub_div, abs_div, abs_of_pos hn', ← mul_div_assoc]
    exact div_le_div_of_nonneg_right hs hn'.le
  have p := one_le_pow h.nonneg k
  have := round_err h _ _ _ _ h1 (by linarith) h2
  rwa [show 1 + ((1 + u) ^ k - 1) = (1 + u) ^ k by ring, ← pow_succ] at this

/-- C105: the computed bias of `n` pairs differs from the mean difference by at most `(1 + u)^(n + 2) - 1` times the
mean absolute difference. -/
theorem bias_err {rnd : K → K} {u : K} (h : RelErr rnd u) (l : List (K × K)) (hl : l ≠ []) :
    |bias rnd l - (l.map (fun p => p.1 - p.2)).sum / l.length| ≤
      ((1 + u) ^ (l.length + 2) - 1) * ((l.map (fun p => |p.1 - p.2|)).sum / l.length) := by
  have h1 := fold_err_terms h u h.nonneg (fun p : K × K => p.1 - p.2) (fun p => rnd (p.1 - p.2)) l (fun p _ => h.err _)
  rw [← fold_map, ← pow_succ] at h1
  have h2 := mean_err h l.length (l.length + 1) (List.length_pos_of_ne_nil hl) _ _ _ (abs_sum_le _) h1
  have e : absSum (l.map (fun p => p.1 - p.2)) = (l.map (fun p => |p.1 - p.2|)).sum := by
    simp [absSum, Function.comp_def]
  rw [e] at h2
  exact h2

theorem square_err {rnd : K → K} {u : K} (h : RelErr rnd u) (d : K) :
    |rnd (rnd d * rnd d) - d ^ 2| ≤ ((1 + u) ^ 3 - 1) * |d ^ 2| := by
  have hu := h.nonneg
  have h1 : |rnd d * rnd d - d ^ 2| ≤ ((1 + u) ^ 2 - 1) * |d ^ 2| := by
    have e : rnd d * rnd d - d ^ 2 = (rnd d - d) * (rnd d + d) := by ring
    rw [e, abs_mul, abs_pow]
    have h2 := h.err d
    have h3 : |rnd d + d| ≤ (2 + u) * |d| := by
      have := h.le d
      refine (abs_add_le _ _).trans ?_
      linarith
    have h4 : |rnd d - d| * |rnd d + d| ≤ (u * |d|) * ((2 + u) * |d|) :=
      mul_le_mul h2 h3 (abs_nonneg _) (mul_nonneg hu (abs_nonneg _))
    have e2 : (u * |d|) * ((2 + u) * |d|) = ((1 + u) ^ 2 - 1) * |d| ^ 2 := by ring
    rwa [e2] at h4
  have p := one_le_pow hu 2
  have := round_err h _ _ _ _ le_rfl (by linarith) h1
  rwa [show 1 + ((1 + u) ^ 2 - 1) = (1 + u) ^ 2 by ring, ← pow_succ] at this

theorem absSum_sq (l : List (K × K)) : absSum (l.map (fun p => (p.1 - p.2) ^ 2)) = (l.map (fun p => (p.1 - p.2) ^ 2)).sum := by
  unfold absSum
  rw [List.map_map]
  congr 1
  exact List.map_congr_left fun p _ => abs_of_nonneg (sq_nonneg _)

/-- C105: the relative error of the residual sum of squares of `n` pairs is at most `(1 + u)^(n + 3) - 1`. -/
theorem RSS_err {rnd : K → K} {u : K} (h : RelErr rnd u) (l : List (K × K)) :
    |RSS rnd l - (l.map (fun p => (p.1 - p.2) ^ 2)).sum| ≤
      ((1 + u) ^ (l.length + 3) - 1) * (l.map (fun p => (p.1 - p.2) ^ 2)).sum := by
  have p3 := one_le_pow h.nonneg 3
  have h1 := fold_err_terms h ((1 + u) ^ 3 - 1) (by linarith) (fun p : K × K => (p.1 - p.2) ^ 2)
    (fun p => rnd (rnd (p.1 - p.2) * rnd (p.1 - p.2))) l (fun p _ => square_err h _)
  rw [← fold_map, absSum_sq, show 1 + ((1 + u) ^ 3 - 1) = (1 + u) ^ 3 by ring, ← pow_add] at h1
  exact h1

/-- C105: the relative error of the mean square deviation of `n` pairs is at most `(1 + u)^(n + 4) - 1`. -/
theorem msd_err {rnd : K → K} {u : K} (h : RelErr rnd u) (l : List (K × K)) (hl : l ≠ []) :
    |msd rnd l - (l.map (fun p => (p.1 - p.2) ^ 2)).sum / l.length| ≤
      ((1 + u) ^ (l.length + 4) - 1) * ((l.map (fun p => (p.1 - p.2) ^ 2)).sum / l.length) := by
  refine mean_err h l.length (l.length + 3) (List.length_pos_of_ne_nil hl) _ _ _ ?_ (RSS_err h l)
  have := abs_sum_le (l.map (fun p => (p.1 - p.2) ^ 2))
  rwa [absSum_sq] at this

/-- C105: whatever the order of the additions, the relative error of the mean absolute difference of `n` pairs is at most
`(1 + u)^(n + 1) - 1`. -/
theorem aad_err {rnd : K → K} {u : K} (h : RelErr rnd u) (order : List K → Tree K) (l : List (K × K)) (hl : l ≠ [])
    (ho : ∀ v : List K, v ≠ [] → (order v).leaves.Perm v) :
    |aad rnd order l - (l.map (fun p => |p.1 - p.2|)).sum / l.length| ≤
      ((1 + u) ^ (l.length + 1) - 1) * ((l.map (fun p => |p.1 - p.2|)).sum / l.length) := by
  have hu := h.nonneg
  set v := l.map (fun p => |rnd (p.1 - p.2)|) with hv
  have hp := ho v (by simpa [hv] using hl)
  have h1 := tree_err h (order v)
  have hsum : (order v).leaves.sum = v.sum := hp.sum_eq
  have habs : absSum (order v).leaves = v.sum := by
    unfold absSum
    rw [(hp.map _).sum_eq, hv, List.map_map]
    congr 1
    exact List.map_congr_left fun p _ => abs_abs _
  have hlen : (order v).size + 1 = l.length := by
    rw [Tree.size_leaves, hp.length_eq, hv, List.length_map]
  rw [hsum, habs] at h1
  set S := (l.map (fun p => |p.1 - p.2|)).sum with hS
  have hS0 : 0 ≤ S := by
    refine List.sum_nonneg fun x hx => ?_
    obtain ⟨p, -, rfl⟩ := List.mem_map.mp hx
    exact abs_nonneg _
  have h2 : |v.sum - S| ≤ u * S ∧ v.sum ≤ (1 + u) * S := by
    rw [hv, hS]
    clear * - h
    induction l with
    | nil => simp
    | cons p l ih =>
      obtain ⟨i1, i2⟩ := ih
      have e1 := h.err (p.1 - p.2)
      have e2 := h.le (p.1 - p.2)
      have e3 := abs_abs_sub_abs_le (rnd (p.1 - p.2)) (p.1 - p.2)
      simp only [List.map_cons, List.sum_cons]
      constructor
      · have e : |rnd (p.1 - p.2)| + (l.map (fun p => |rnd (p.1 - p.2)|)).sum - (|p.1 - p.2| + (l.map (fun p => |p.1 - p.2|)).sum) =
            (|rnd (p.1 - p.2)| - |p.1 - p.2|) + ((l.map (fun p => |rnd (p.1 - p.2)|)).sum - (l.map (fun p => |p.1 - p.2|)).sum) := by ring
        rw [e]
        refine (abs_add_le _ _).trans ?_
        linarith
      · linarith
  have p := one_le_pow hu (order v).size
  have h3 : |(order v).sum rnd - S| ≤ ((1 + u) ^ l.length - 1) * S := by
    have e : (order v).sum rnd - S = ((order v).sum rnd - v.sum) + (v.sum - S) := by ring
    rw [e, ← hlen, pow_succ]
    refine (abs_add_le _ _).trans ?_
    have hm : ((1 + u) ^ (order v).size - 1) * v.sum ≤ ((1 + u) ^ (order v).size - 1) * ((1 + u) * S) :=
      mul_le_mul_of_nonneg_left h2.2 (by linarith)
    have e2 : ((1 + u) ^ (order v).size * (1 + u) - 1) * S = ((1 + u) ^ (order v).size - 1) * ((1 + u) * S) + u * S := by ring
    rw [e2]
    linarith [h2.1]
  exact mean_err h l.length l.length (List.length_pos_of_ne_nil hl) _ _ _ (le_of_eq (abs_of_nonneg hS0)) h3

theorem rnd_eq_zero {rnd : K → K} {u : K} (h : RelErr rnd u) (hu : u < 1) (x : K) : rnd x = 0 ↔ x = 0 := by
  constructor
  · intro hx
    have := h.err x
    rw [hx, zero_sub, abs_neg] at this
    by_contra hne
    have hpos := abs_pos.mpr hne
    nlinarith
  · rintro rfl
    exact h.zero

theorem rnd_nonneg {rnd : K → K} {u : K} (h : RelErr rnd u) (hu : u < 1) (x : K) (hx : 0 ≤ x) : 0 ≤ rnd x := by
  have := (abs_le.mp (h.err x)).1
  rw [abs_of_nonneg hx] at this
  nlinarith

/-- C105: in spite of rounding the residual sum of squares is zero only for equal series, and never negative. -/
theorem RSS_zero_iff {rnd : K → K} {u : K} (h : RelErr rnd u) (hu : u < 1) (l : List (K × K)) :
    0 ≤ RSS rnd l ∧ (RSS rnd l = 0 ↔ ∀ p ∈ l, p.1 = p.2) := by
  have key : ∀ (l : List (K × K)) (a : K), 0 ≤ a →
      0 ≤ l.foldl (fun s p => rnd (s + rnd (rnd (p.1 - p.2) * rnd (p.1 - p.2)))) a ∧
      (l.foldl (fun s p => rnd (s + rnd (rnd (p.1 - p.2) * rnd (p.1 - p.2)))) a = 0 ↔ a = 0 ∧ ∀ p ∈ l, p.1 = p.2) := by
    intro l
    induction l with
    | nil => intro a ha; simpa using ha
    | cons p l ih =>
      intro a ha
      have hs : 0 ≤ rnd (rnd (p.1 - p.2) * rnd (p.1 - p.2)) := rnd_nonneg h hu _ (mul_self_nonneg _)
      obtain ⟨i1, i2⟩ := ih _ (rnd_nonneg h hu _ (add_nonneg ha hs))
      refine ⟨i1, ?_⟩
      rw [List.foldl_cons, i2, rnd_eq_zero h hu, add_eq_zero_iff_of_nonneg ha hs, rnd_eq_zero h hu, mul_self_eq_zero, rnd_eq_zero h hu, sub_eq_zero]
      simp only [List.mem_cons, forall_eq_or_imp, and_assoc]
  have := key l 0 le_rfl
  simpa [RSS] using this

omit [LinearOrder K] [IsStrictOrderedRing K] in
/-- C105: swapping the series leaves the residual sum of squares unchanged to the last bit, and only turns the sign of the
bias. -/
theorem swap_exact (rnd : K → K) (hodd : ∀ x, rnd (-x) = -rnd x) (l : List (K × K)) :
    RSS rnd (l.map Prod.swap) = RSS rnd l ∧ msd rnd (l.map Prod.swap) = msd rnd l ∧ bias rnd (l.map Prod.swap) = - bias rnd l := by
  have e : ∀ p : K × K, rnd (p.2 - p.1) = - rnd (p.1 - p.2) := fun p => by rw [← hodd, neg_sub]
  have h1 : RSS rnd (l.map Prod.swap) = RSS rnd l := by
    unfold RSS
    rw [List.foldl_map]
    congr 1
    funext s p
    simp only [Prod.fst_swap, Prod.snd_swap, e p]
    rw [neg_mul_neg]
  refine ⟨h1, ?_, ?_⟩
  · unfold msd
    rw [h1, List.length_map]
  · have h2 : ∀ (l : List (K × K)) (a : K), l.foldl (fun b p => rnd (b + rnd (p.2 - p.1))) (-a) = - l.foldl (fun b p => rnd (b + rnd (p.1 - p.2))) a := by
      intro l
      induction l with
      | nil => intro a; rfl
      | cons p l ih =>
        intro a
        rw [List.foldl_cons, List.foldl_cons, e p, ← neg_add, hodd, ih]
    unfold bias
    rw [List.foldl_map, List.length_map, ← hodd, ← neg_div]
    have := h2 l 0
    rw [neg_zero] at this
    simp only [Prod.fst_swap, Prod.snd_swap]
    rw [this]

/-- C105: the bias of equal series is exactly zero. -/
theorem bias_self {rnd : K → K} {u : K} (h : RelErr rnd u) (l : List (K × K)) (hl : ∀ p ∈ l, p.1 = p.2) : bias rnd l = 0 := by
  have : l.foldl (fun b p => rnd (b + rnd (p.1 - p.2))) 0 = 0 := by
    induction l with
    | nil => rfl
    | cons p l ih =>
      rw [List.foldl_cons, hl p List.mem_cons_self, sub_self, h.zero, add_zero, h.zero]
      exact ih fun q hq => hl q (List.mem_cons_of_mem _ hq)
  rw [bias, this, zero_div, h.zero]

end

/-- C105: the relative error of the root mean square deviation of `n` pairs is at most `(1 + u)^(n + 5) - 1`. -/
theorem rmsd_err {rnd : ℝ → ℝ} {u : ℝ} (h : RelErr rnd u) (hu : u < 1) (l : List (ℝ × ℝ)) (hl : l ≠ []) :
    |rmsd rnd l - Real.sqrt ((l.map (fun p => (p.1 - p.2) ^ 2)).sum / l.length)| ≤
      ((1 + u) ^ (l.length + 5) - 1) * Real.sqrt ((l.map (fun p => (p.1 - p.2) ^ 2)).sum / l.length) := by
  have h1 := msd_err h l hl
  set a : ℝ := (l.map (fun p => (p.1 - p.2) ^ 2)).sum / (l.length : ℝ) with ha
  have hn : (0 : ℝ) ≤ l.length := Nat.cast_nonneg _
  have ha0 : 0 ≤ a := by
    refine div_nonneg (List.sum_nonneg fun x hx => ?_) hn
    obtain ⟨p, -, rfl⟩ := List.mem_map.mp hx
    exact sq_nonneg _
  have hb0 : 0 ≤ msd rnd l := rnd_nonneg h hu _ (div_nonneg (RSS_zero_iff h hu l).1 hn)
  set c := (1 + u) ^ (l.length + 4) - 1 with hc
  have p := one_le_pow h.nonneg (l.length + 4)
  have hc0 : 0 ≤ c := by rw [hc]; linarith
  have h2 : |Real.sqrt (msd rnd l) - Real.sqrt a| ≤ c * Real.sqrt a := by
    rcases ha0.eq_or_lt with h0 | hpos
    · rw [← h0] at h1 ⊢
      have : msd rnd l = 0 := by simpa using h1
      rw [this]; simp
    · have hs := Real.sqrt_pos.mpr hpos
      have e : (Real.sqrt (msd rnd l) - Real.sqrt a) * (Real.sqrt (msd rnd l) + Real.sqrt a) = msd rnd l - a := by
        have e1 := Real.mul_self_sqrt hb0
        have e2 := Real.mul_self_sqrt ha0
        linear_combination e1 - e2
      have e3 : |Real.sqrt (msd rnd l) - Real.sqrt a| * Real.sqrt a ≤ c * Real.sqrt a * Real.sqrt a := by
        calc |Real.sqrt (msd rnd l) - Real.sqrt a| * Real.sqrt a
            ≤ |Real.sqrt (msd rnd l) - Real.sqrt a| * (Real.sqrt (msd rnd l) + Real.sqrt a) :=
              mul_le_mul_of_nonneg_left (le_add_of_nonneg_left (Real.sqrt_nonneg _)) (abs_nonneg _)
          _ = |msd rnd l - a| := by
              rw [← e, abs_mul, abs_of_nonneg (add_nonneg (Real.sqrt_nonneg (msd rnd l)) (Real.sqrt_nonneg a))]
          _ ≤ c * a := h1
          _ = c * Real.sqrt a * Real.sqrt a := by rw [mul_assoc, Real.mul_self_sqrt ha0]
      exact le_of_mul_le_mul_right e3 hs
  have := round_err h c _ _ _ (le_of_eq (abs_of_nonneg (Real.sqrt_nonneg a))) hc0 h2
  rw [show (1 + c) * (1 + u) - 1 = (1 + u) ^ (l.length + 5) - 1 by rw [hc, pow_succ _ (l.length + 4)]; ring] at this
  exact this

open Verif.Rolling.Fl in
/-- rounding to nearest even with 53 bits has this property with `u = 2^-53` -/
theorem rnd64_relErr : RelErr rnd64 (1 / 2 ^ 53) :=
  ⟨by norm_num, fun x => (rnd64_err x).trans (le_of_eq (by ring))⟩

open Verif.Rolling.Fl in
theorem nearestEven_neg (q : ℚ) : nearestEven (-q) = -nearestEven q := by
  have h1 : (q.floor : ℚ) ≤ q := Int.floor_le q
  have h2 : q < (q.floor : ℚ) + 1 := Int.lt_floor_add_one q
  by_cases h0 : q = q.floor
  · rw [h0, ← Int.cast_neg, nearestEven_int, nearestEven_int]
  · have h3 : (q.floor : ℚ) < q := lt_of_le_of_ne h1 (Ne.symm h0)
    have hf : (-q).floor = -q.floor - 1 := by
      have : ⌊-q⌋ = -q.floor - 1 := by
        rw [Int.floor_eq_iff]
        push_cast
        constructor <;> linarith
      exact this
    unfold nearestEven
    simp only [hf]
    push_cast
    by_cases a : q - q.floor < 1 / 2
    · rw [if_pos a, if_neg (by linarith), if_pos (by linarith)]
      ring
    · rw [if_neg a]
      by_cases b : 1 / 2 < q - q.floor
      · rw [if_pos b, if_pos (by linarith)]
        ring
      · rw [if_neg b, if_neg (by linarith), if_neg (by linarith)]
        by_cases c : q.floor % 2 = 0
        · rw [if_pos c, if_neg (by omega)]
          ring
        · rw [if_neg c, if_pos (by omega)]
          ring

open Verif.Rolling.Fl in
/-- the rounding of `double` treats both signs alike -/
theorem rnd64_neg (x : ℚ) : rnd64 (-x) = -rnd64 x := by
  by_cases hx : x = 0
  · rw [hx]; simp [rnd64]
  · have he : expo (-x) = expo x := by
      unfold expo
      simp only [Rat.neg_num, Int.natAbs_neg, Rat.den_neg_eq_den, abs_neg]
    rw [rnd64_eq _ hx, rnd64_eq _ (neg_ne_zero.mpr hx), he, neg_div, nearestEven_neg]
    push_cast
    ring

open Verif.Rolling.Fl in
/-- C105: with `double` and up to `2^40` pairs, the error of the bias is at most `(n + 2) 2^-52` times the mean absolute
difference and the relative error of the mean square deviation at most `(n + 4) 2^-52`. -/
theorem double_err (l : List (ℚ × ℚ)) (hl : l ≠ []) (hn : l.length ≤ 2 ^ 40) :
    |bias rnd64 l - (l.map (fun p => p.1 - p.2)).sum / l.length| ≤
        ((l.length : ℚ) + 2) / 2 ^ 52 * ((l.map (fun p => |p.1 - p.2|)).sum / l.length) ∧
    |msd rnd64 l - (l.map (fun p => (p.1 - p.2) ^ 2)).sum / l.length| ≤
        ((l.length : ℚ) + 4) / 2 ^ 52 * ((l.map (fun p => (p.1 - p.2) ^ 2)).sum / l.length) := by
  have hn' : (l.length : ℚ) ≤ 2 ^ 40 := by exact_mod_cast hn
  have small : ∀ k : ℕ, k ≤ 4 → (1 + 1 / 2 ^ 53 : ℚ) ^ (l.length + k) - 1 ≤ ((l.length : ℚ) + k) / 2 ^ 52 := by
    intro k hk
    have hk' : (k : ℚ) ≤ 4 := by exact_mod_cast hk
    have := pow_small (u := (1 / 2 ^ 53 : ℚ)) (by norm_num) (l.length + k) (by
      push_cast
      have : (l.length : ℚ) + k ≤ 2 ^ 40 + 4 := by linarith
      calc ((l.length : ℚ) + k) * (1 / 2 ^ 53) ≤ (2 ^ 40 + 4) * (1 / 2 ^ 53) := mul_le_mul_of_nonneg_right this (by norm_num)
        _ ≤ 1 / 2 := by norm_num)
    refine this.trans (le_of_eq ?_)
    push_cast
    ring
  have hpos : (0 : ℚ) ≤ l.length := Nat.cast_nonneg _
  constructor
  · refine (bias_err rnd64_relErr l hl).trans (mul_le_mul_of_nonneg_right (by simpa using small 2 (by norm_num)) ?_)
    refine div_nonneg (List.sum_nonneg fun x hx => ?_) hpos
    obtain ⟨p, -, rfl⟩ := List.mem_map.mp hx
    exact abs_nonneg _
  · refine (msd_err rnd64_relErr l hl).trans (mul_le_mul_of_nonneg_right (by simpa using small 4 (by norm_num)) ?_)
    refine div_nonneg (List.sum_nonneg fun x hx => ?_) hpos
    obtain ⟨p, -, rfl⟩ := List.mem_map.mp hx
    exact sq_nonneg _

example := double_err [(Rolling.Fl.rnd64 (1 / 10), Rolling.Fl.rnd64 (2 / 10)), (Rolling.Fl.rnd64 (3 / 10), Rolling.Fl.rnd64 (1 / 10))] (by simp) (by norm_num)

/-! ## Concrete cases -/

open Verif.Rolling.Fl

-- three pairs: the computed bias is not the exact one
example : bias rnd64 [(rnd64 (1 / 10), rnd64 (2 / 10)), (rnd64 (3 / 10), rnd64 (1 / 10)), (rnd64 (1 / 7), rnd64 (1 / 10))] ≠
    ([(rnd64 (1 / 10), rnd64 (2 / 10)), (rnd64 (3 / 10), rnd64 (1 / 10)), (rnd64 (1 / 7), rnd64 (1 / 10))].map (fun p => p.1 - p.2)).sum / 3 := by decide +kernel

example : [(1 / 10, 2 / 10), (3 / 10, 1 / 10), (1 / 7, 1 / 10)] ≠ ([] : List (ℚ × ℚ)) ∧
    [(1 / 10, 2 / 10), (3 / 10, 1 / 10), (1 / 7, (1 : ℚ) / 10)].length ≤ 2 ^ 40 := by decide +kernel

example : msd rnd64 [(rnd64 (1 / 10), rnd64 (2 / 10)), (rnd64 (3 / 10), rnd64 (1 / 10))] =
    msd rnd64 [(rnd64 (2 / 10), rnd64 (1 / 10)), (rnd64 (1 / 10), rnd64 (3 / 10))] := by decide +kernel

example : RSS rnd64 [(rnd64 (1 / 10), rnd64 (1 / 10)), (rnd64 (3 / 10), rnd64 (3 / 10))] = 0 ∧
    RSS rnd64 [(rnd64 (1 / 10), rnd64 (1 / 10)), (rnd64 (3 / 10), rnd64 (3 / 10) + 1 / 2 ^ 54)] ≠ 0 := by decide +kernel

/-- additions from the left, a possible order for `aad` -/
def fromLeft : List ℚ → Tree ℚ
  | [] => .leaf 0
  | v :: l => l.foldl (fun t w => .node t (.leaf w)) (.leaf v)

theorem fromLeft_leaves (v : List ℚ) (hv : v ≠ []) : (fromLeft v).leaves.Perm v := by
  have key : ∀ (l : List ℚ) (t : Tree ℚ), (l.foldl (fun t w => .node t (.leaf w)) t).leaves = t.leaves ++ l := by
    intro l
    induction l with
    | nil => intro t; simp
    | cons w l ih => intro t; rw [List.foldl_cons, ih]; simp [Tree.leaves]
  cases v with
  | nil => exact absurd rfl hv
  | cons v l => rw [fromLeft, key]; simp [Tree.leaves]

example := aad_err rnd64_relErr fromLeft [(rnd64 (1 / 10), rnd64 (2 / 10)), (rnd64 (3 / 10), rnd64 (1 / 10))] (by simp) fromLeft_leaves

example : aad rnd64 fromLeft [(rnd64 (1 / 10), rnd64 (2 / 10)), (rnd64 (3 / 10), rnd64 (1 / 10)), (rnd64 (1 / 7), rnd64 (1 / 10))] ≠
    ([(rnd64 (1 / 10), rnd64 (2 / 10)), (rnd64 (3 / 10), rnd64 (1 / 10)), (rnd64 (1 / 7), rnd64 (1 / 10))].map (fun p => |p.1 - p.2|)).sum / 3 := by decide +kernel

-- a rounding of real numbers that is not exact, for `rmsd_err`
example : RelErr (fun x : ℝ => x * (1 + 1 / 8)) (1 / 4) ∧ (1 / 4 : ℝ) < 1 := by
  refine ⟨⟨by norm_num, fun x => ?_⟩, by norm_num⟩
  rw [show x * (1 + 1 / 8) - x = 1 / 8 * x by ring, abs_mul, abs_of_nonneg (by norm_num : (0 : ℝ) ≤ 1 / 8)]
  have := abs_nonneg x
  linarith

end Verif.Rounding
