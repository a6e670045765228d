import Verif.Scaling.Infinite
import Verif.Rounding.Snr

/-!
C143: values that are not finite in triple collocation (`tcol_metrics`, `src/pytesmo/metrics/tcol.py`), with the numbers of `Pairwise.Infinite`.
Rows of the data sets are functions of the data set; there is at least one row.
-/

set_option linter.unusedSectionVars false

namespace Verif.Tcol.Infinite

open Verif Verif.Pairwise.Infinite Verif.Scaling.Infinite

variable {K : Type} [Field K] [LinearOrder K]

/-- `X -= avg` of `np.cov`. Used for tcol.py:103. -/
def dev (M : Machine K) (order : List (X K) → Rounding.Tree (X K)) (rows : List (Fin 3 → X K)) (i : Fin 3) (r : Fin 3 → X K) : X K :=
  sub M (r i) (Pairwise.Infinite.npMean M order (rows.map (fun r => r i)))

/-- `c = dot(X, X.T); c *= 1 / (n - 1)` of `np.cov`. Used for tcol.py:103. -/
def cov (M : Machine K) (order : List (X K) → Rounding.Tree (X K)) (rows : List (Fin 3 → X K)) (i j : Fin 3) : X K :=
  mul M (total M (order (rows.map (fun r => mul M (dev M order rows i r) (dev M order rows j r))))) (div M (.fin 1) (.fin ((rows.length : K) - 1)))

/-- `np.log10`. Used for tcol.py:116. -/
def log10 (lg : K → K) : X K → X K
  | .fin a => if a < 0 then .nan else if a = 0 then .inf true else .fin (lg a)
  | .inf false => .inf false
  | .inf true => .nan
  | .nan => .nan

/-- tcol.py:111-126 `snr` (`x ** (-1)` is `1 / x`) -/
def snr (M : Machine K) (lg : K → K) (c : Fin 3 → Fin 3 → X K) (i : Fin 3) : X K :=
  mul M (.fin 10) (log10 lg (div M (.fin 1)
    (abs (sub M (abs (div M (mul M (c i i) (c (i + 1) (i + 2))) (mul M (c i (i + 1)) (c i (i + 2))))) (.fin 1)))))

/-- tcol.py:127-134 `err_var` -/
def errVar (M : Machine K) (c : Fin 3 → Fin 3 → X K) (i : Fin 3) : X K :=
  sub M (c i i) (div M (mul M (c i (i + 1)) (c i (i + 2))) (c (i + 1) (i + 2)))

/-- tcol.py:136-144 `beta` -/
def beta (M : Machine K) (c : Fin 3 → Fin 3 → X K) (ref i : Fin 3) : X K :=
  if i ≠ ref then div M (c ref (Tcol.otherInd ref i)) (c i (Tcol.otherInd ref i)) else .fin 1

/-- tcol.py:146: the error standard deviation -/
def errStd (M : Machine K) (c : Fin 3 → Fin 3 → X K) (ref i : Fin 3) : X K := mul M (sqrt M (errVar M c i)) (beta M c ref i)

variable [IsStrictOrderedRing K]

/-- **C143 (covariances).** With a value that is no number in one data set, the variance and the covariances of this data set are NaN. For all
data, orders of additions, roundings and overflows. -/
theorem cov_nan (M : Machine K) (order : List (X K) → Rounding.Tree (X K)) (ho : AddsAll order) (rows : List (Fin 3 → X K)) (k : Fin 3)
    (h : ∃ r ∈ rows, ¬ IsNumber (r k)) (j : Fin 3) : cov M order rows k j = .nan ∧ cov M order rows j k = .nan := by
  obtain ⟨r, hr, hn⟩ := h
  have hd : dev M order rows k r = .nan :=
    deviation_nan M order ho (rows.map (fun r : Fin 3 → X K => r k)) (r k) (List.mem_map.2 ⟨r, hr, rfl⟩) hn
  constructor
  · unfold cov
    rw [sum_nan M order ho _ (List.mem_map.2 ⟨r, hr, by rw [hd, mul_nan_left]⟩), mul_nan_left]
  · unfold cov
    rw [sum_nan M order ho _ (List.mem_map.2 ⟨r, hr, by rw [hd, mul_nan_right]⟩), mul_nan_left]

/-- **C143 (results).** With a value that is no number in any data set, all signal-to-noise ratios and error standard deviations are NaN, of the other
data sets too, and all scaling coefficients except that of the reference, which is 1. -/
theorem tcol_nan (M : Machine K) (lg : K → K) (order : List (X K) → Rounding.Tree (X K)) (ho : AddsAll order) (rows : List (Fin 3 → X K))
    (h : ∃ r ∈ rows, ∃ k, ¬ IsNumber (r k)) (ref i : Fin 3) :
    snr M lg (cov M order rows) i = .nan ∧ errStd M (cov M order rows) ref i = .nan ∧
      (i ≠ ref → beta M (cov M order rows) ref i = .nan) ∧ (i = ref → beta M (cov M order rows) ref i = .fin 1) := by
  obtain ⟨r, hr, k, hn⟩ := h
  have hc := cov_nan M order ho rows k ⟨r, hr, hn⟩
  have hk : k = i ∨ k = i + 1 ∨ k = i + 2 := by clear hc hn; revert k i; decide
  have hv : errVar M (cov M order rows) i = .nan := by
    unfold errVar
    rcases hk with e | e | e <;> rw [← e]
    · rw [(hc k).1, sub_nan_left]
    · rw [(hc i).2, mul_nan_left, div_nan_left, sub_nan_right]
    · rw [(hc i).2, mul_nan_right, div_nan_left, sub_nan_right]
  refine ⟨?_, ?_, fun hi => ?_, fun hi => if_neg (not_not.2 hi)⟩
  · unfold snr
    have : div M (mul M (cov M order rows i i) (cov M order rows (i + 1) (i + 2))) (mul M (cov M order rows i (i + 1)) (cov M order rows i (i + 2))) = .nan := by
      rcases hk with e | e | e <;> rw [← e]
      · rw [(hc k).1, mul_nan_left, div_nan_left]
      · rw [(hc i).2, mul_nan_left, div_nan_right]
      · rw [(hc i).2, mul_nan_right, div_nan_right]
    rw [this]
    rfl
  · unfold errStd
    rw [hv]
    exact mul_nan_left M _
  · unfold beta
    rw [if_pos hi]
    have ho' : k = ref ∨ k = i ∨ k = Tcol.otherInd ref i := by
      clear hc hk hn hv
      revert k i ref
      decide
    rcases ho' with e | e | e <;> rw [← e]
    · rw [(hc _).1, div_nan_left]
    · rw [(hc _).1, div_nan_right]
    · rw [(hc _).2, div_nan_left]

/-- specification: the arithmetic of C125 with the sums of the trees `order` -/
def arith (rnd : K → K) (order : List K → Rounding.Tree K) : Rounding.Arith K :=
  ⟨rnd, fun l => (order l).sum rnd, fun _ _ l => (order l).sum rnd, fun a b => rnd (a * b)⟩

/-- **C143 (numbers).** For at least two rows of numbers without overflow the covariances are those of C125, the error standard deviation is
that of C125 where the covariance of the two other data sets is not 0, and the signal-to-noise ratio is that of C128 where it is defined. -/
theorem numbers_tcol (rnd sq lg : K → K) (order : List K → Rounding.Tree K) (orderX : List (X K) → Rounding.Tree (X K))
    (ho : ∀ v, orderX (v.map .fin) = liftTree (order v)) (rows : List (Fin 3 → K)) (hl : 2 ≤ rows.length) (ref i : Fin 3) :
    (∀ j, cov (rounded rnd sq) orderX (rows.map (fun r i => .fin (r i))) i j = .fin ((arith rnd order).cov rows i j)) ∧
      (∀ e, (arith rnd order).cov rows (i + 1) (i + 2) ≠ 0 → (i ≠ ref → (arith rnd order).cov rows i (Tcol.otherInd ref i) ≠ 0) →
        (arith rnd order).errStd sq ((arith rnd order).cov rows) ref i = some e →
        errStd (rounded rnd sq) (cov (rounded rnd sq) orderX (rows.map (fun r i => .fin (r i)))) ref i = .fin e) ∧
      (∀ s, (0 < rnd (1 / (arith rnd order).snrDist ((arith rnd order).cov rows) i)) →
        (arith rnd order).snr lg ((arith rnd order).cov rows) i = some s →
        snr (rounded rnd sq) lg (cov (rounded rnd sq) orderX (rows.map (fun r i => .fin (r i)))) i = .fin s) := by
  have hn : ((rows.length : ℕ) : K) ≠ 0 := Nat.cast_ne_zero.2 (by omega)
  have hn1 : ((rows.length : ℕ) : K) - 1 ≠ 0 := by
    have : (2 : K) ≤ rows.length := by exact_mod_cast hl
    intro h
    linarith
  have hdev : ∀ i r, dev (rounded rnd sq) orderX (rows.map (fun r i => .fin (r i))) i (fun i => .fin (r i)) = .fin ((arith rnd order).dev rows i r) := by
    intro i r
    unfold dev Pairwise.Infinite.npMean
    have : (rows.map (fun r i => X.fin (r i))).map (fun r : Fin 3 → X K => r i) = (rows.map (fun r => r i)).map .fin := by
      rw [List.map_map, List.map_map]; rfl
    rw [this, ho, total_lift, List.length_map, List.length_map]
    simp only [div, if_neg hn, rounded, sub]
    rfl
  have hc : ∀ i j, cov (rounded rnd sq) orderX (rows.map (fun r i => .fin (r i))) i j = .fin ((arith rnd order).cov rows i j) := by
    intro i j
    unfold cov
    have : (rows.map (fun r i => X.fin (r i))).map (fun r => mul (rounded rnd sq) (dev (rounded rnd sq) orderX (rows.map (fun r i => .fin (r i))) i r)
        (dev (rounded rnd sq) orderX (rows.map (fun r i => .fin (r i))) j r)) =
        (rows.map (fun r => rnd ((arith rnd order).dev rows i r * (arith rnd order).dev rows j r))).map .fin := by
      rw [List.map_map, List.map_map]
      refine List.map_congr_left (fun r _ => ?_)
      show mul _ (dev _ _ _ i _) (dev _ _ _ j _) = _
      rw [hdev, hdev]
      rfl
    rw [this, ho, total_lift, List.length_map]
    simp only [div, if_neg hn1, rounded, mul]
    rfl
  refine ⟨hc i, fun e h0 hb he => ?_, fun s hp hs => ?_⟩
  · unfold errStd errVar beta
    simp only [hc]
    unfold Rounding.Arith.errStd at he
    split at he
    · cases he
    · rename_i hneg
      simp only [Option.some.injEq] at he
      have h1 : sub (rounded rnd sq) (.fin ((arith rnd order).cov rows i i)) (div (rounded rnd sq) (mul (rounded rnd sq) (.fin ((arith rnd order).cov rows i (i + 1)))
          (.fin ((arith rnd order).cov rows i (i + 2)))) (.fin ((arith rnd order).cov rows (i + 1) (i + 2)))) =
          .fin ((arith rnd order).errVar ((arith rnd order).cov rows) i) := by
        simp only [mul, rounded, div, if_neg h0, sub]
        rfl
      rw [h1]
      by_cases hi : i = ref
      · rw [if_neg (not_not.2 hi)]
        have : (arith rnd order).beta ((arith rnd order).cov rows) ref i = 1 := if_neg (not_not.2 hi)
        rw [this] at he
        simp only [sqrt, if_neg hneg, rounded, mul]
        rw [← he]
        rfl
      · rw [if_pos hi]
        have : (arith rnd order).beta ((arith rnd order).cov rows) ref i = _ := if_pos hi
        rw [this] at he
        simp only [sqrt, if_neg hneg, rounded, mul, div, if_neg (hb hi)]
        rw [← he]
        rfl
  · unfold snr
    simp only [hc]
    unfold Rounding.Arith.snr at hs
    split at hs
    · cases hs
    · rename_i hz
      rw [not_or] at hz
      simp only [Option.some.injEq] at hs
      have h1 : abs (sub (rounded rnd sq) (abs (div (rounded rnd sq) (mul (rounded rnd sq) (.fin ((arith rnd order).cov rows i i))
          (.fin ((arith rnd order).cov rows (i + 1) (i + 2)))) (mul (rounded rnd sq) (.fin ((arith rnd order).cov rows i (i + 1)))
          (.fin ((arith rnd order).cov rows i (i + 2)))))) (.fin 1)) = .fin ((arith rnd order).snrDist ((arith rnd order).cov rows) i) := by
        have hz1 : ¬ rnd ((arith rnd order).cov rows i (i + 1) * (arith rnd order).cov rows i (i + 2)) = 0 := hz.1
        simp only [mul, rounded, div, if_neg hz1, Pairwise.Infinite.abs, sub]
        rfl
      rw [h1]
      have h2 : div (rounded rnd sq) (.fin 1) (.fin ((arith rnd order).snrDist ((arith rnd order).cov rows) i)) =
          .fin (rnd (1 / (arith rnd order).snrDist ((arith rnd order).cov rows) i)) := by
        simp only [div, if_neg hz.2, rounded]
      rw [h2]
      simp only [log10, if_neg (not_lt.2 hp.le), if_neg hp.ne', mul, rounded]
      rw [← hs]
      rfl

/-- **C143 (limits).** From finite covariances with a computed product that is not 0: where the distance of the ratio from 1 is 0 (no errors) the
signal-to-noise ratio is infinite, where its inverse is too small to be stored it is minus infinity. -/
theorem snr_limits (rnd sq lg : K → K) (order : List K → Rounding.Tree K) (c : Fin 3 → Fin 3 → K) (i : Fin 3) (hz : rnd (c i (i + 1) * c i (i + 2)) ≠ 0) :
    ((arith rnd order).snrDist c i = 0 → snr (rounded rnd sq) lg (fun i j => .fin (c i j)) i = .inf false) ∧
    ((arith rnd order).snrDist c i ≠ 0 → rnd (1 / (arith rnd order).snrDist c i) = 0 →
      snr (rounded rnd sq) lg (fun i j => .fin (c i j)) i = .inf true) := by
  have h1 : abs (sub (rounded rnd sq) (abs (div (rounded rnd sq) (mul (rounded rnd sq) (.fin (c i i)) (.fin (c (i + 1) (i + 2))))
      (mul (rounded rnd sq) (.fin (c i (i + 1))) (.fin (c i (i + 2)))))) (.fin 1)) = .fin ((arith rnd order).snrDist c i) := by
    simp only [mul, rounded, div, if_neg hz, Pairwise.Infinite.abs, sub]
    rfl
  have h10 : (10 : K) ≠ 0 := by norm_num
  have h10' : ¬ (10 : K) < 0 := by norm_num
  unfold snr
  rw [h1]
  constructor
  · intro h
    have h01 : ¬ (1 : K) < 0 := by norm_num
    have : div (rounded rnd sq) (.fin 1) (.fin ((arith rnd order).snrDist c i)) = .inf false := by
      simp [h, div, h01]
    rw [this]
    simp [log10, mul, h10, h10']
  · intro h h'
    simp only [div, if_neg h, rounded, h']
    simp [log10, mul, h10, h10']

/-! ### Concrete cases -/

/-- rows of three series with errors -/
def rows : List (Fin 3 → ℚ) := [![3, 6, 3], ![0, 3, 3], ![3, 6, 6], ![3, 2, 4]]

/-- In double precision: numbers give numbers, a single infinite value in the third data set removes all results, of the first two too. -/
theorem tcol_sample :
    (∀ i, snr (double id) id (cov (double id) (chain (.fin 0)) (rows.map (fun r i => .fin (r i)))) i ≠ .nan) ∧
    (∀ i, errStd (double id) (cov (double id) (chain (.fin 0)) (rows.map (fun r i => .fin (r i)))) 0 i ≠ .nan) ∧
    (∀ i, snr (double id) id (cov (double id) (chain (.fin 0)) ((rows.map (fun r i => .fin (r i))) ++ [![.fin 1, .fin 2, .inf true]])) i = .nan) ∧
    (∀ i, errStd (double id) (cov (double id) (chain (.fin 0)) ((rows.map (fun r i => .fin (r i))) ++ [![.fin 1, .fin 2, .inf true]])) 0 i = .nan) := by
  decide +kernel

/-- three equal series have an infinite signal-to-noise ratio (without rounding) -/
example (sq lg : ℚ → ℚ) : snr (rounded id sq) lg (fun _ _ => .fin (2 : ℚ)) 0 = .inf false :=
  (snr_limits id sq lg (chain 0) (fun _ _ => 2) 0 (by norm_num)).1 (by decide +kernel)

/-- the hypotheses of `tcol_nan` are met by these rows -/
example : ∃ r ∈ (rows.map (fun r i => X.fin (r i))) ++ [![.fin 1, .fin 2, .inf true]], ∃ k, ¬ IsNumber (r k) :=
  ⟨![.fin 1, .fin 2, .inf true], by simp, 2, by simp [IsNumber]⟩

/-- those of `numbers_tcol` hold for the rows without rounding -/
example (sq lg : ℚ → ℚ) : ∃ e s, errStd (rounded id sq) (cov (rounded id sq) (chain (.fin 0)) (rows.map (fun r i => .fin (r i)))) 0 1 = .fin e ∧
    snr (rounded id sq) lg (cov (rounded id sq) (chain (.fin 0)) (rows.map (fun r i => .fin (r i)))) 1 = .fin s := by
  have h := numbers_tcol id sq lg (chain 0) (chain (.fin 0)) chain_lift rows (by decide) 0 1
  have hv : ¬ (arith id (chain 0)).errVar ((arith id (chain 0)).cov rows) 1 < 0 := by decide +kernel
  refine ⟨_, _, h.2.1 _ (by decide +kernel) (fun _ => by decide +kernel) (if_neg hv), h.2.2 _ (by decide +kernel) (if_neg (by decide +kernel))⟩

/-- `tcol_nan` for the rows with an infinite value in the third data set: also the error of the first data set is NaN, for any square root -/
example (sq : ℚ → ℚ) : errStd (double sq) (cov (double sq) (sequence (.fin 0)) ((rows.map (fun r i => .fin (r i))) ++ [![.fin 1, .fin 2, .inf true]])) 1 0 = .nan :=
  (tcol_nan (double sq) id _ sequence_addsAll _ ⟨![.fin 1, .fin 2, .inf true], by simp, 2, by simp [IsNumber]⟩ 1 0).2.1

end Verif.Tcol.Infinite
