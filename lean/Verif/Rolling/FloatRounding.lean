import Verif.Rolling.FloatProps
import Mathlib.Data.Rat.Floor
import Mathlib.Algebra.Order.Field.Power
import Mathlib.Tactic.FieldSimp
import Mathlib.Tactic.Ring

/-! C104: rounding. As long as observations are only added the sums keep their sign; when observations are removed they do not. -/

namespace Verif.Rolling.Fl

open Verif.Rolling (scan rangeAB)

variable {K : Type} [Field K] [LinearOrder K]

/-- what is used about rounding: it keeps the order and the error is at most a quarter of the value (2^-53 for `double`) -/
structure Rounding (rnd : K → K) : Prop where
  mono : ∀ a b, a ≤ b → rnd a ≤ rnd b
  err : ∀ x, |rnd x - x| ≤ |x| / 4

section
variable [IsStrictOrderedRing K]

theorem Rounding.zero {rnd : K → K} (h : Rounding rnd) : rnd 0 = 0 := by
  have := h.err 0
  simpa using this

theorem Rounding.nonneg {rnd : K → K} (h : Rounding rnd) {x : K} (hx : 0 ≤ x) : 0 ≤ rnd x := by
  rw [← h.zero]; exact h.mono _ _ hx

theorem Rounding.nonpos {rnd : K → K} (h : Rounding rnd) {x : K} (hx : x ≤ 0) : rnd x ≤ 0 := by
  rw [← h.zero]; exact h.mono _ _ hx

theorem Rounding.le {rnd : K → K} (h : Rounding rnd) {x : K} (hx : 0 ≤ x) : rnd x ≤ 5 / 4 * x := by
  have h1 := (abs_le.mp (h.err x)).2
  rw [abs_of_nonneg hx] at h1
  linarith

theorem Rounding.ge {rnd : K → K} (h : Rounding rnd) {x : K} (hx : x ≤ 0) : 5 / 4 * x ≤ rnd x := by
  have h1 := (abs_le.mp (h.err x)).1
  rw [abs_of_nonpos hx] at h1
  linarith

/-- the change of a mean is not larger than the distance of the new value -/
theorem change_le {rnd : K → K} (h : Rounding rnd) (d : K) (n : ℕ) (hn : 2 ≤ n) :
    (0 ≤ d → 0 ≤ rnd (rnd d / n) ∧ rnd (rnd d / n) ≤ d) ∧ (d ≤ 0 → d ≤ rnd (rnd d / n) ∧ rnd (rnd d / n) ≤ 0) := by
  have hn' : (2 : K) ≤ n := by exact_mod_cast hn
  have hn0 : (0 : K) < n := by linarith
  constructor
  · intro hd
    have h1 := h.nonneg hd
    have h2 := h.le hd
    have h3 : 0 ≤ rnd d / n := div_nonneg h1 hn0.le
    have h4 : rnd d / n ≤ rnd d / 2 := div_le_div_of_nonneg_left h1 (by norm_num) hn'
    have h5 := h.le h3
    exact ⟨h.nonneg h3, by linarith⟩
  · intro hd
    have h1 := h.nonpos hd
    have h2 := h.ge hd
    have h3 : rnd d / n ≤ 0 := div_nonpos_of_nonpos_of_nonneg h1 hn0.le
    have h4 : rnd d / 2 ≤ rnd d / n := by
      have := div_le_div_of_nonneg_left (neg_nonneg.mpr h1) (by norm_num : (0 : K) < 2) hn'
      rw [neg_div, neg_div] at this
      linarith
    have h5 := h.ge h3
    exact ⟨by linarith, h.nonpos h3⟩

/-- one column after some observations: the mean is a machine number or no observation was read, the sum of squares is not negative -/
def Good (rnd : K → K) (n : ℕ) (m M : Option K) : Prop := ∃ a b, m = some a ∧ M = some b ∧ 0 ≤ b ∧ (n = 0 → a = 0 ∧ b = 0)

theorem Good_add {rnd : K → K} (h : Rounding rnd) (n : ℕ) (m M : Option K) (x : K) (hx : rnd x = x) (hg : Good rnd n m M) :
    Good rnd (n + 1) (op rnd (· + ·) m (divN rnd (op rnd (· - ·) (some x) m) (n + 1)))
      (op rnd (· + ·) M (op rnd (· * ·) (op rnd (· - ·) (some x) (op rnd (· + ·) m (divN rnd (op rnd (· - ·) (some x) m) (n + 1)))) (op rnd (· - ·) (some x) m))) := by
  obtain ⟨a, b, rfl, rfl, hb, h0⟩ := hg
  refine ⟨_, _, rfl, rfl, ?_, fun hc => absurd hc (Nat.succ_ne_zero n)⟩
  set a' := rnd (a + rnd (rnd (x - a) / ((n + 1 : ℕ) : K))) with ha'
  have hprod : 0 ≤ rnd (x - a') * rnd (x - a) := by
    by_cases hn : n = 0
    · obtain ⟨rfl, rfl⟩ := h0 hn
      have : a' = x := by rw [ha', hn]; simp [hx]
      rw [this, sub_self, h.zero, zero_mul]
    · have hc := change_le h (x - a) (n + 1) (by omega)
      rcases le_total a x with hle | hle
      · have h1 := (hc.1 (by linarith)).2
        have h2 : a' ≤ x := by rw [← hx]; exact h.mono _ _ (by linarith)
        exact mul_nonneg (h.nonneg (by linarith)) (h.nonneg (by linarith))
      · have h1 := (hc.2 (by linarith)).1
        have h2 : x ≤ a' := by rw [← hx]; exact h.mono _ _ (by linarith)
        exact mul_nonneg_of_nonpos_of_nonpos (h.nonpos (by linarith)) (h.nonpos (by linarith))
  exact h.nonneg (add_nonneg hb (h.nonneg hprod))

/-- the mean square difference is not negative -/
theorem msd_add {rnd : K → K} (h : Rounding rnd) (n : ℕ) (m : Option K) (x y : K) (hg : ∃ a, m = some a ∧ 0 ≤ a ∧ (n = 0 → a = 0)) :
    ∃ a, op rnd (· + ·) m (divN rnd (op rnd (· - ·) (sqDiff rnd (some x) (some y)) m) (n + 1)) = some a ∧ 0 ≤ a ∧ (n + 1 = 0 → a = 0) := by
  obtain ⟨a, rfl, ha, h0⟩ := hg
  refine ⟨_, rfl, ?_, fun hc => absurd hc (Nat.succ_ne_zero n)⟩
  set q := rnd (rnd (x - y) * rnd (x - y)) with hq
  have hq0 : 0 ≤ q := h.nonneg (mul_self_nonneg _)
  refine h.nonneg ?_
  show 0 ≤ a + rnd (rnd (q - a) / ((n + 1 : ℕ) : K))
  by_cases hn : n = 0
  · rw [h0 hn, hn, sub_zero]
    have : 0 ≤ rnd (rnd q / ((0 + 1 : ℕ) : K)) := h.nonneg (div_nonneg (h.nonneg hq0) (Nat.cast_nonneg _))
    linarith
  · have hc := change_le h (q - a) (n + 1) (by omega)
    rcases le_total a q with hle | hle
    · have := (hc.1 (by linarith)).1; linarith
    · have := (hc.2 (by linarith)).1; linarith

/-- data without missing values -/
def given (l : List (K × K)) : List (Option K × Option K) := l.map (fun p => (some p.1, some p.2))

/-- C104, part 3: with any rounding the variances and the mean square difference are not negative as long as observations are only added. -/
theorem grow_nonneg {rnd : K → K} (h : Rounding rnd) (l : List (K × K)) (hl : ∀ p ∈ l, rnd p.1 = p.1 ∧ rnd p.2 = p.2) :
    ∃ vx vy m, ((given l).foldl (add rnd) zero).M2x = some vx ∧ ((given l).foldl (add rnd) zero).M2y = some vy ∧
      ((given l).foldl (add rnd) zero).msd = some m ∧ 0 ≤ vx ∧ 0 ≤ vy ∧ 0 ≤ m := by
  have key : ∀ (l : List (K × K)) (s : Sums K), (∀ p ∈ l, rnd p.1 = p.1 ∧ rnd p.2 = p.2) → Good rnd s.nobs s.mx s.M2x → Good rnd s.nobs s.my s.M2y →
      (∃ a, s.msd = some a ∧ 0 ≤ a ∧ (s.nobs = 0 → a = 0)) →
      ∃ vx vy m, ((given l).foldl (add rnd) s).M2x = some vx ∧ ((given l).foldl (add rnd) s).M2y = some vy ∧
        ((given l).foldl (add rnd) s).msd = some m ∧ 0 ≤ vx ∧ 0 ≤ vy ∧ 0 ≤ m := by
    intro l
    induction l with
    | nil =>
      rintro s - ⟨_, b, _, h1, h2, _⟩ ⟨_, b', _, h1', h2', _⟩ ⟨m, h3, h4, _⟩
      exact ⟨b, b', m, h1, h1', h3, h2, h2', h4⟩
    | cons p l ih =>
      intro s hp h1 h2 h3
      obtain ⟨hp1, hp2⟩ := hp p List.mem_cons_self
      exact ih (add rnd s (some p.1, some p.2)) (fun q hq => hp q (List.mem_cons_of_mem _ hq)) (Good_add h s.nobs s.mx s.M2x p.1 hp1 h1)
        (Good_add h s.nobs s.my s.M2y p.2 hp2 h2) (msd_add h s.nobs s.msd p.1 p.2 h3)
  exact key l zero hl ⟨0, 0, rfl, rfl, le_rfl, fun _ => ⟨rfl, rfl⟩⟩ ⟨0, 0, rfl, rfl, le_rfl, fun _ => ⟨rfl, rfl⟩⟩ ⟨0, rfl, le_rfl, fun _ => rfl⟩

/-- C104, part 4: with any rounding a constant column has variance 0 in `_moments_welford`, so that the correlation is NaN as it should be. -/
theorem welford_constant {rnd : K → K} (h : Rounding rnd) (l : List (K × K)) (hl : l ≠ []) (c : K) (hc : rnd c = c) :
    ((∀ p ∈ l, p.1 = c) → (momentsWelford rnd (given l)).1 = some 0) ∧ ((∀ p ∈ l, p.2 = c) → (momentsWelford rnd (given l)).2.1 = some 0) := by
  have hdiv : ∀ n : ℕ, n ≠ 0 → divN rnd (some 0) n = some 0 := by
    intro n hn; simp [divN, hn, h.zero]
  have hlen : (given l).length ≠ 0 := by simpa [given] using hl
  have hzero : ∀ (n : ℕ) (m : Option K), (n = 0 ∧ m = some 0) ∨ m = some c →
      op rnd (· + ·) m (divN rnd (op rnd (· - ·) (some c) m) (n + 1)) = some c ∧
      op rnd (· + ·) (some 0) (op rnd (· * ·) (op rnd (· - ·) (some c) (some c)) (op rnd (· - ·) (some c) m)) = some 0 := by
    rintro n m (⟨rfl, rfl⟩ | rfl) <;> simp [op, divN, hc, h.zero]
  constructor
  · intro hx
    have key : ∀ (l : List (K × K)) (s : Sums K), (∀ p ∈ l, p.1 = c) → s.M2x = some 0 → ((s.nobs = 0 ∧ s.mx = some 0) ∨ s.mx = some c) →
        ((given l).foldl (add rnd) s).M2x = some 0 := by
      intro l
      induction l with
      | nil => intro s _ h1 _; exact h1
      | cons p l ih =>
        intro s hp h1 h2
        have hp1 := hp p List.mem_cons_self
        obtain ⟨z1, z2⟩ := hzero s.nobs s.mx h2
        refine ih (add rnd s (some p.1, some p.2)) (fun q hq => hp q (List.mem_cons_of_mem _ hq)) ?_ (Or.inr ?_)
        · simp only [add, hp1, z1, h1, z2]
        · simp only [add, hp1, z1]
    unfold momentsWelford
    simp only
    rw [key l zero hx rfl (Or.inl ⟨rfl, rfl⟩), hdiv _ hlen]
  · intro hy
    have key : ∀ (l : List (K × K)) (s : Sums K), (∀ p ∈ l, p.2 = c) → s.M2y = some 0 → ((s.nobs = 0 ∧ s.my = some 0) ∨ s.my = some c) →
        ((given l).foldl (add rnd) s).M2y = some 0 := by
      intro l
      induction l with
      | nil => intro s _ h1 _; exact h1
      | cons p l ih =>
        intro s hp h1 h2
        have hp1 := hp p List.mem_cons_self
        obtain ⟨z1, z2⟩ := hzero s.nobs s.my h2
        refine ih (add rnd s (some p.1, some p.2)) (fun q hq => hp q (List.mem_cons_of_mem _ hq)) ?_ (Or.inr ?_)
        · simp only [add, hp1, z1, h1, z2]
        · simp only [add, hp1, z1]
    unfold momentsWelford
    simp only
    rw [key l zero hy rfl (Or.inl ⟨rfl, rfl⟩), hdiv _ hlen]

end

/-! ## `double` -/

theorem scale2_eq (x : ℚ) (e : ℤ) : scale2 x e = x / 2 ^ e := by
  unfold scale2
  by_cases h : 0 ≤ e
  · rw [if_pos h]
    conv_rhs => rw [← Int.toNat_of_nonneg h, zpow_natCast]
  · rw [if_neg h]
    have h' : 0 ≤ -e := by omega
    have : (2 : ℚ) ^ (-e).toNat = (2 : ℚ) ^ (-e) := by
      conv_rhs => rw [← Int.toNat_of_nonneg h', zpow_natCast]
    rw [this, zpow_neg, div_eq_mul_inv]

theorem nearestEven_err (q : ℚ) : |(nearestEven q : ℚ) - q| ≤ 1 / 2 := by
  have h1 : (q.floor : ℚ) ≤ q := Int.floor_le q
  have h2 : q < q.floor + 1 := Int.lt_floor_add_one q
  unfold nearestEven
  simp only
  rw [abs_le]
  by_cases a : q - q.floor < 1 / 2
  · rw [if_pos a]; constructor <;> linarith
  · rw [if_neg a]
    by_cases b : 1 / 2 < q - q.floor
    · rw [if_pos b]; push_cast; constructor <;> linarith
    · rw [if_neg b]
      split
      · constructor <;> linarith
      · push_cast; constructor <;> linarith

theorem nearestEven_int (z : ℤ) : nearestEven (z : ℚ) = z := by
  have h := nearestEven_err (z : ℚ)
  have : |((nearestEven (z : ℚ) - z : ℤ) : ℚ)| < 1 := by push_cast; linarith
  have h2 : |nearestEven (z : ℚ) - z| < 1 := by exact_mod_cast this
  have := Int.abs_lt_one_iff.mp h2
  omega

theorem nearestEven_mono (p q : ℚ) (h : p ≤ q) : nearestEven p ≤ nearestEven q := by
  by_contra hc
  have hp := abs_le.mp (nearestEven_err p)
  have hq := abs_le.mp (nearestEven_err q)
  have h1 : ((nearestEven q : ℤ) : ℚ) + 1 ≤ nearestEven p := by exact_mod_cast (by omega : nearestEven q + 1 ≤ nearestEven p)
  have : p = q := by linarith [hp.2, hq.1]
  rw [this] at hc
  exact hc le_rfl

/-- the exponent that is used for `x` -/
def expo (x : ℚ) : ℤ :=
  let e0 : ℤ := (Nat.log2 x.num.natAbs : ℤ) - (Nat.log2 x.den : ℤ) - 52
  if scale2 |x| e0 < 2 ^ 52 then e0 - 1 else e0

theorem rnd64_eq (x : ℚ) (hx : x ≠ 0) : rnd64 x = (nearestEven (x / 2 ^ expo x) : ℚ) * 2 ^ expo x := by
  unfold rnd64
  rw [if_neg hx]
  show scale2 (nearestEven (scale2 x (expo x)) : ℚ) (-(expo x)) = _
  rw [scale2_eq, scale2_eq, zpow_neg, div_inv_eq_mul]

theorem expo_spec (x : ℚ) (hx : x ≠ 0) : (2 : ℚ) ^ 52 ≤ |x| / 2 ^ expo x ∧ |x| / 2 ^ expo x < 2 ^ 53 := by
  have hnum : x.num.natAbs ≠ 0 := by simpa using hx
  have hden : x.den ≠ 0 := x.den_nz
  have n1 : 2 ^ Nat.log2 x.num.natAbs ≤ x.num.natAbs := Nat.log2_self_le hnum
  have n2 : x.num.natAbs < 2 ^ (Nat.log2 x.num.natAbs + 1) := Nat.lt_log2_self
  have d1 : 2 ^ Nat.log2 x.den ≤ x.den := Nat.log2_self_le hden
  have d2 : x.den < 2 ^ (Nat.log2 x.den + 1) := Nat.lt_log2_self
  generalize ha : Nat.log2 x.num.natAbs = a at *
  generalize hb : Nat.log2 x.den = b at *
  have habs : |x| = (x.num.natAbs : ℚ) / x.den := by
    conv_lhs => rw [← Rat.num_div_den x]
    rw [abs_div, Nat.abs_cast, Nat.cast_natAbs, Int.cast_abs]
  have hD : (0 : ℚ) < x.den := by exact_mod_cast Nat.pos_of_ne_zero hden
  have q1 : (2 : ℚ) ^ (a : ℤ) ≤ x.num.natAbs := by rw [zpow_natCast]; exact_mod_cast n1
  have q2 : (x.num.natAbs : ℚ) < 2 ^ ((a : ℤ) + 1) := by
    rw [show ((a : ℤ) + 1) = ((a + 1 : ℕ) : ℤ) by push_cast; rfl, zpow_natCast]; exact_mod_cast n2
  have q3 : (2 : ℚ) ^ (b : ℤ) ≤ x.den := by rw [zpow_natCast]; exact_mod_cast d1
  have q4 : (x.den : ℚ) < 2 ^ ((b : ℤ) + 1) := by
    rw [show ((b : ℤ) + 1) = ((b + 1 : ℕ) : ℤ) by push_cast; rfl, zpow_natCast]; exact_mod_cast d2
  have p2 : (0 : ℚ) < 2 := by norm_num
  -- 2^(a-b-1) < |x| < 2^(a-b+1)
  have l1 : (2 : ℚ) ^ ((a : ℤ) - b - 1) < |x| := by
    rw [habs, lt_div_iff₀ hD]
    calc (2 : ℚ) ^ ((a : ℤ) - b - 1) * x.den < 2 ^ ((a : ℤ) - b - 1) * 2 ^ ((b : ℤ) + 1) := mul_lt_mul_of_pos_left q4 (zpow_pos p2 _)
      _ = 2 ^ (a : ℤ) := by rw [← zpow_add₀ p2.ne']; congr 1; ring
      _ ≤ _ := q1
  have l2 : |x| < (2 : ℚ) ^ ((a : ℤ) - b + 1) := by
    rw [habs, div_lt_iff₀ hD]
    calc (x.num.natAbs : ℚ) < 2 ^ ((a : ℤ) + 1) := q2
      _ = 2 ^ ((a : ℤ) - b + 1) * 2 ^ (b : ℤ) := by rw [← zpow_add₀ p2.ne']; congr 1; ring
      _ ≤ _ := mul_le_mul_of_nonneg_left q3 (zpow_pos p2 _).le
  have e : expo x = if |x| / 2 ^ ((a : ℤ) - b - 52) < 2 ^ 52 then (a : ℤ) - b - 52 - 1 else (a : ℤ) - b - 52 := by
    unfold expo
    rw [ha, hb]
    simp only [scale2_eq]
  rw [e]
  have h52 : (2 : ℚ) ^ (52 : ℕ) = 2 ^ (52 : ℤ) := (zpow_natCast _ _).symm
  have h53 : (2 : ℚ) ^ (53 : ℕ) = 2 ^ (53 : ℤ) := (zpow_natCast _ _).symm
  rw [h52, h53]
  by_cases hc : |x| / 2 ^ ((a : ℤ) - b - 52) < 2 ^ (52 : ℤ)
  · rw [if_pos hc]
    rw [le_div_iff₀ (zpow_pos p2 _), div_lt_iff₀ (zpow_pos p2 _), ← zpow_add₀ p2.ne', ← zpow_add₀ p2.ne']
    rw [div_lt_iff₀ (zpow_pos p2 _), ← zpow_add₀ p2.ne'] at hc
    constructor
    · rw [show (52 : ℤ) + (a - b - 52 - 1) = a - b - 1 by ring]; exact l1.le
    · rw [show (53 : ℤ) + (a - b - 52 - 1) = 52 + (a - b - 52) by ring]; exact hc
  · rw [if_neg hc]
    refine ⟨not_lt.mp hc, ?_⟩
    rw [div_lt_iff₀ (zpow_pos p2 _), ← zpow_add₀ p2.ne', show (53 : ℤ) + (a - b - 52) = a - b + 1 by ring]
    exact l2

/-- the rounding of `double` has a relative error of at most 2^-53 -/
theorem rnd64_err (x : ℚ) : |rnd64 x - x| ≤ |x| / 2 ^ 53 := by
  by_cases hx : x = 0
  · rw [hx]; simp [rnd64]
  · have hp : (0 : ℚ) < 2 ^ expo x := zpow_pos (by norm_num) _
    have h1 := nearestEven_err (x / 2 ^ expo x)
    have h2 := (expo_spec x hx).1
    rw [le_div_iff₀ hp] at h2
    rw [rnd64_eq x hx]
    have e : (nearestEven (x / 2 ^ expo x) : ℚ) * 2 ^ expo x - x = ((nearestEven (x / 2 ^ expo x) : ℚ) - x / 2 ^ expo x) * 2 ^ expo x := by
      rw [sub_mul, div_mul_cancel₀ _ hp.ne']
    rw [e, abs_mul, abs_of_pos hp]
    calc _ ≤ 1 / 2 * (2 : ℚ) ^ expo x := mul_le_mul_of_nonneg_right h1 hp.le
      _ = (2 ^ 52 * 2 ^ expo x) / 2 ^ 53 := by ring
      _ ≤ _ := div_le_div_of_nonneg_right h2 (by positivity)

theorem rnd64_sign (x : ℚ) : (0 ≤ x → 0 ≤ rnd64 x) ∧ (x ≤ 0 → rnd64 x ≤ 0) := by
  have h := abs_le.mp (rnd64_err x)
  constructor
  · intro hx; rw [abs_of_nonneg hx] at h
    have : x / 2 ^ 53 ≤ x := div_le_self hx (by norm_num)
    linarith [h.1]
  · intro hx; rw [abs_of_nonpos hx] at h
    have : -x / 2 ^ 53 ≤ -x := div_le_self (by linarith) (by norm_num)
    linarith [h.2]

/-- the rounding of `double` keeps the order -/
theorem rnd64_mono (x y : ℚ) (h : x ≤ y) : rnd64 x ≤ rnd64 y := by
  have p2 : (0 : ℚ) < 2 := by norm_num
  rcases le_or_gt x 0 with hx | hx
  · rcases le_or_gt 0 y with hy | hy
    · exact ((rnd64_sign x).2 hx).trans ((rnd64_sign y).1 hy)
    · -- both negative
      have hx0 : x ≠ 0 := by linarith
      have hy0 : y ≠ 0 := hy.ne
      obtain ⟨a1, a2⟩ := expo_spec x hx0
      obtain ⟨b1, b2⟩ := expo_spec y hy0
      rw [abs_of_nonpos hx] at a1 a2
      rw [abs_of_neg hy] at b1 b2
      have hpx : (0 : ℚ) < 2 ^ expo x := zpow_pos p2 _
      have hpy : (0 : ℚ) < 2 ^ expo y := zpow_pos p2 _
      rw [rnd64_eq x hx0, rnd64_eq y hy0]
      rcases lt_trichotomy (expo x) (expo y) with he | he | he
      · -- |x| would be smaller
        exfalso
        have : (2 : ℚ) * 2 ^ expo x ≤ 2 ^ expo y := by
          rw [← zpow_one_add₀ p2.ne']; exact zpow_le_zpow_right₀ (by norm_num) (by omega)
        rw [div_lt_iff₀ hpx] at a2
        rw [le_div_iff₀ hpy] at b1
        have : (2 : ℚ) ^ 52 * (2 * 2 ^ expo x) ≤ 2 ^ 52 * 2 ^ expo y := mul_le_mul_of_nonneg_left this (by positivity)
        have e : (2 : ℚ) ^ 52 * (2 * 2 ^ expo x) = 2 ^ 53 * 2 ^ expo x := by ring
        linarith
      · rw [he]
        refine mul_le_mul_of_nonneg_right ?_ hpy.le
        exact_mod_cast nearestEven_mono _ _ (div_le_div_of_nonneg_right h hpy.le)
      · have h1 : nearestEven (x / 2 ^ expo x) ≤ -(2 ^ 52) := by
          have := nearestEven_mono (x / 2 ^ expo x) ((-(2 ^ 52) : ℤ) : ℚ) (by push_cast; rw [neg_div] at a1; linarith)
          rwa [nearestEven_int] at this
        have h2 : -(2 ^ 53) ≤ nearestEven (y / 2 ^ expo y) := by
          have := nearestEven_mono ((-(2 ^ 53) : ℤ) : ℚ) (y / 2 ^ expo y) (by push_cast; rw [neg_div] at b2; linarith)
          rwa [nearestEven_int] at this
        have h1' : (nearestEven (x / 2 ^ expo x) : ℚ) ≤ -(2 ^ 52) := by exact_mod_cast h1
        have h2' : -(2 ^ 53 : ℚ) ≤ (nearestEven (y / 2 ^ expo y) : ℚ) := by exact_mod_cast h2
        have : (2 : ℚ) * 2 ^ expo y ≤ 2 ^ expo x := by
          rw [← zpow_one_add₀ p2.ne']; exact zpow_le_zpow_right₀ (by norm_num) (by omega)
        calc (nearestEven (x / 2 ^ expo x) : ℚ) * 2 ^ expo x ≤ -(2 ^ 52) * 2 ^ expo x := mul_le_mul_of_nonneg_right h1' hpx.le
          _ ≤ -(2 ^ 52) * (2 * 2 ^ expo y) := mul_le_mul_of_nonpos_left this (by norm_num)
          _ = -(2 ^ 53) * 2 ^ expo y := by ring
          _ ≤ _ := mul_le_mul_of_nonneg_right h2' hpy.le
  · have hy : 0 < y := hx.trans_le h
    have hx0 : x ≠ 0 := hx.ne'
    have hy0 : y ≠ 0 := hy.ne'
    obtain ⟨a1, a2⟩ := expo_spec x hx0
    obtain ⟨b1, b2⟩ := expo_spec y hy0
    rw [abs_of_pos hx] at a1 a2
    rw [abs_of_pos hy] at b1 b2
    have hpx : (0 : ℚ) < 2 ^ expo x := zpow_pos p2 _
    have hpy : (0 : ℚ) < 2 ^ expo y := zpow_pos p2 _
    rw [rnd64_eq x hx0, rnd64_eq y hy0]
    rcases lt_trichotomy (expo x) (expo y) with he | he | he
    · have h1 : nearestEven (x / 2 ^ expo x) ≤ 2 ^ 53 := by
        have := nearestEven_mono (x / 2 ^ expo x) ((2 ^ 53 : ℤ) : ℚ) (by push_cast; exact a2.le)
        rwa [nearestEven_int] at this
      have h2 : 2 ^ 52 ≤ nearestEven (y / 2 ^ expo y) := by
        have := nearestEven_mono ((2 ^ 52 : ℤ) : ℚ) (y / 2 ^ expo y) (by push_cast; exact b1)
        rwa [nearestEven_int] at this
      have h1' : (nearestEven (x / 2 ^ expo x) : ℚ) ≤ 2 ^ 53 := by exact_mod_cast h1
      have h2' : (2 ^ 52 : ℚ) ≤ (nearestEven (y / 2 ^ expo y) : ℚ) := by exact_mod_cast h2
      have : (2 : ℚ) * 2 ^ expo x ≤ 2 ^ expo y := by
        rw [← zpow_one_add₀ p2.ne']; exact zpow_le_zpow_right₀ (by norm_num) (by omega)
      calc (nearestEven (x / 2 ^ expo x) : ℚ) * 2 ^ expo x ≤ 2 ^ 53 * 2 ^ expo x := mul_le_mul_of_nonneg_right h1' hpx.le
        _ = 2 ^ 52 * (2 * 2 ^ expo x) := by ring
        _ ≤ 2 ^ 52 * 2 ^ expo y := mul_le_mul_of_nonneg_left this (by norm_num)
        _ ≤ _ := mul_le_mul_of_nonneg_right h2' hpy.le
    · rw [he]
      refine mul_le_mul_of_nonneg_right ?_ hpy.le
      exact_mod_cast nearestEven_mono _ _ (div_le_div_of_nonneg_right h hpy.le)
    · exfalso
      have : (2 : ℚ) * 2 ^ expo y ≤ 2 ^ expo x := by
        rw [← zpow_one_add₀ p2.ne']; exact zpow_le_zpow_right₀ (by norm_num) (by omega)
      rw [div_lt_iff₀ hpy] at b2
      rw [le_div_iff₀ hpx] at a1
      have : (2 : ℚ) ^ 52 * (2 * 2 ^ expo y) ≤ 2 ^ 52 * 2 ^ expo x := mul_le_mul_of_nonneg_left this (by positivity)
      have e : (2 : ℚ) ^ 52 * (2 * 2 ^ expo y) = 2 ^ 53 * 2 ^ expo y := by ring
      linarith

/-- the rounding of `double` meets the hypotheses -/
theorem rnd64_rounding : Rounding rnd64 :=
  ⟨rnd64_mono, fun x => (rnd64_err x).trans (div_le_div_of_nonneg_left (abs_nonneg x) (by norm_num) (by norm_num))⟩

/-! ## Removing observations -/

/-- machine numbers given by decimal fractions -/
def mach (l : List ℚ) (j : ℕ) : Option ℚ := some (rnd64 (l.getD j 0))

/-- C104, part 5 (negation): daily observations, windows of three days; in the last window `y` is constant (0.2, 0.2, 0.2), so that the correlation is not
defined (NaN, `welford_constant`), but the correlation that is reported is -1 with p-value 0. -/
theorem constant_window_wrong (sqrt : ℚ → ℚ) (betainc : ℚ → ℚ → ℚ → ℚ) :
    ∃ o, (rollingPrRmsd ⟨rnd64, sqrt, betainc⟩ (fun j => j) (fun j => (mach [0, 1, 2, 0] j, mach [1 / 10, 2 / 10, 2 / 10, 2 / 10] j)) 4 3 false 2)[3]? = some o ∧
      o.R = some (-1 : ℚ) ∧ o.p = some 0 := by
  have h : ((states rnd64 (fun j => (j : ℚ)) (fun j => (mach [0, 1, 2, 0] j, mach [1 / 10, 2 / 10, 2 / 10, 2 / 10] j)) 4 3 false ⟨0, 0, zero⟩ (List.range 4))[3]?).map
      (fun f => (f.lower, f.hi, f.sums.M2x, f.sums.M2y, f.sums.C)) =
      some (1, 4, some 2, some (-1 / 2 ^ 58 : ℚ), some (-1 / 2 ^ 56 : ℚ)) := by decide +kernel
  cases hs : (states rnd64 (fun j => (j : ℚ)) (fun j => (mach [0, 1, 2, 0] j, mach [1 / 10, 2 / 10, 2 / 10, 2 / 10] j)) 4 3 false ⟨0, 0, zero⟩ (List.range 4))[3]? with
  | none => rw [hs] at h; cases h
  | some f =>
    rw [hs] at h
    simp only [Option.map_some, Option.some.injEq, Prod.mk.injEq] at h
    obtain ⟨h1, h2, h3, h4, h5⟩ := h
    refine ⟨out ⟨rnd64, sqrt, betainc⟩ 2 f, ?_, ?_, ?_⟩
    · unfold rollingPrRmsd
      rw [List.getElem?_map, hs]; rfl
    all_goals
      have hneg : rnd64 (2 * (-1 / 2 ^ 58 : ℚ)) < 0 := by decide +kernel
      simp [out, h1, h2, h3, h4, h5, pearsonr, coeff, op, fsqrt, hneg]

/-- C104, part 6 (negation): in the last window both columns are 0, so that the RMSD is 0, but NaN is reported. -/
theorem equal_window_wrong (sqrt : ℚ → ℚ) (betainc : ℚ → ℚ → ℚ → ℚ) :
    ∃ o, (rollingPrRmsd ⟨rnd64, sqrt, betainc⟩ (fun j => j) (fun j => (mach [3 / 10, 1 / 2, 0, 0] j, mach [0, 0, 0, 0] j)) 4 2 false 2)[3]? = some o ∧
      o.rmsd = none := by
  have h : ((states rnd64 (fun j => (j : ℚ)) (fun j => (mach [3 / 10, 1 / 2, 0, 0] j, mach [0, 0, 0, 0] j)) 4 2 false ⟨0, 0, zero⟩ (List.range 4))[3]?).map
      (fun f => (f.lower, f.hi, f.sums.msd)) = some (2, 4, some (-1 / 2 ^ 55 : ℚ)) := by decide +kernel
  cases hs : (states rnd64 (fun j => (j : ℚ)) (fun j => (mach [3 / 10, 1 / 2, 0, 0] j, mach [0, 0, 0, 0] j)) 4 2 false ⟨0, 0, zero⟩ (List.range 4))[3]? with
  | none => rw [hs] at h; cases h
  | some f =>
    rw [hs] at h
    simp only [Option.map_some, Option.some.injEq, Prod.mk.injEq] at h
    obtain ⟨h1, h2, h3⟩ := h
    refine ⟨out ⟨rnd64, sqrt, betainc⟩ 2 f, ?_, ?_⟩
    · unfold rollingPrRmsd
      rw [List.getElem?_map, hs]; rfl
    · have hneg : (-1 / 2 ^ 55 : ℚ) < 0 := by norm_num
      simp [out, h1, h2, h3, fsqrt, hneg]

/-- C104, part 7 (negation): an outlier of 10^10 that has left the window; the differences in the last window are 0.5 and 0.25 (mean square 5/32), but the
RMSD that is reported is the root of 4096. -/
theorem outlier_window_wrong (sqrt : ℚ → ℚ) (betainc : ℚ → ℚ → ℚ → ℚ) :
    ∃ o, (rollingPrRmsd ⟨rnd64, sqrt, betainc⟩ (fun j => j) (fun j => (mach [10 ^ 10, 1 / 2, 1 / 4] j, mach [0, 0, 0] j)) 3 2 false 1)[2]? = some o ∧
      o.rmsd = some (sqrt 4096) := by
  have h : ((states rnd64 (fun j => (j : ℚ)) (fun j => (mach [10 ^ 10, 1 / 2, 1 / 4] j, mach [0, 0, 0] j)) 3 2 false ⟨0, 0, zero⟩ (List.range 3))[2]?).map
      (fun f => (f.lower, f.hi, f.sums.msd)) = some (1, 3, some (4096 : ℚ)) := by decide +kernel
  cases hs : (states rnd64 (fun j => (j : ℚ)) (fun j => (mach [10 ^ 10, 1 / 2, 1 / 4] j, mach [0, 0, 0] j)) 3 2 false ⟨0, 0, zero⟩ (List.range 3))[2]? with
  | none => rw [hs] at h; cases h
  | some f =>
    rw [hs] at h
    simp only [Option.map_some, Option.some.injEq, Prod.mk.injEq] at h
    obtain ⟨h1, h2, h3⟩ := h
    refine ⟨out ⟨rnd64, sqrt, betainc⟩ 1 f, ?_, ?_⟩
    · unfold rollingPrRmsd
      rw [List.getElem?_map, hs]; rfl
    · have hneg : ¬ (4096 : ℚ) < 0 := by norm_num
      simp [out, h1, h2, h3, fsqrt, hneg]

/-- the same observations, only added: nothing negative -/
example : ∃ vx vy m, ((given [(rnd64 0, rnd64 (1 / 10)), (rnd64 1, rnd64 (2 / 10)), (rnd64 2, rnd64 (2 / 10))]).foldl (add rnd64) zero).M2x = some vx ∧
    ((given [(rnd64 0, rnd64 (1 / 10)), (rnd64 1, rnd64 (2 / 10)), (rnd64 2, rnd64 (2 / 10))]).foldl (add rnd64) zero).M2y = some vy ∧
    ((given [(rnd64 0, rnd64 (1 / 10)), (rnd64 1, rnd64 (2 / 10)), (rnd64 2, rnd64 (2 / 10))]).foldl (add rnd64) zero).msd = some m ∧ 0 ≤ vx ∧ 0 ≤ vy ∧ 0 ≤ m :=
  grow_nonneg rnd64_rounding _ (by decide +kernel)

/-- the constant window computed by `_moments_welford` -/
example : (momentsWelford rnd64 (given [(rnd64 1, rnd64 (2 / 10)), (rnd64 2, rnd64 (2 / 10)), (rnd64 0, rnd64 (2 / 10))])).2.1 = some 0 :=
  (welford_constant rnd64_rounding _ (by simp) (rnd64 (2 / 10)) (by decide +kernel)).2 (by simp)

end Verif.Rolling.Fl
