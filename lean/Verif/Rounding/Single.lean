import Verif.Rounding.FiltersProps
import Verif.Collocation.JulianProps

/-! Rounding to single precision (`np.float32`, C `float`). -/

namespace Verif.Rounding

open Verif.Rolling.Fl

/-- rounding to 24 binary digits, to nearest, ties to even (IEEE 754 without limits for the exponent): conversion to `np.float32`
(`src/pytesmo/validation_framework/metric_calculators.py:75-140`) and to C `float` (`src/pytesmo/time_series/filters.pyx:72-73, 118`) -/
def rnd32 (x : ℚ) : ℚ :=
  if x = 0 then 0
  else
    let e := expo x + 29
    scale2 (nearestEven (scale2 x e) : ℚ) (-e)

theorem rnd32_eq (x : ℚ) (hx : x ≠ 0) : rnd32 x = (nearestEven (x / 2 ^ (expo x + 29)) : ℚ) * 2 ^ (expo x + 29) := by
  unfold rnd32
  rw [if_neg hx]
  simp only [scale2_eq, zpow_neg, div_inv_eq_mul]

theorem rnd32_zero : rnd32 0 = 0 := by simp [rnd32]

theorem expo32_spec (x : ℚ) (hx : x ≠ 0) : (2 : ℚ) ^ 23 ≤ |x| / 2 ^ (expo x + 29) ∧ |x| / 2 ^ (expo x + 29) < 2 ^ 24 := by
  obtain ⟨h1, h2⟩ := expo_spec x hx
  have e : |x| / (2 : ℚ) ^ (expo x + 29) = |x| / 2 ^ expo x / 2 ^ 29 := by
    rw [zpow_add₀ (by norm_num), div_div]
    norm_num
  rw [e]
  constructor
  · rw [le_div_iff₀ (by norm_num)]; norm_num at *; linarith
  · rw [div_lt_iff₀ (by norm_num)]; norm_num at *; linarith

theorem expo_neg (x : ℚ) (hx : x ≠ 0) : expo (-x) = expo x := by
  obtain ⟨h1, h2⟩ := expo_spec x hx
  exact expo_unique _ (neg_ne_zero.mpr hx) _ (by rwa [abs_neg]) (by rwa [abs_neg])

theorem rnd32_neg (x : ℚ) : rnd32 (-x) = -rnd32 x := by
  by_cases hx : x = 0
  · rw [hx]; simp [rnd32]
  · rw [rnd32_eq _ hx, rnd32_eq _ (neg_ne_zero.mpr hx), expo_neg x hx, neg_div, nearestEven_neg]
    push_cast
    ring

/-- the relative error of single precision is at most 2^-24 -/
theorem rnd32_err (x : ℚ) : |rnd32 x - x| ≤ |x| / 2 ^ 24 := by
  by_cases hx : x = 0
  · rw [hx]; simp [rnd32]
  · have hp : (0 : ℚ) < 2 ^ (expo x + 29) := zpow_pos (by norm_num) _
    have h1 := nearestEven_err (x / 2 ^ (expo x + 29))
    have h2 := (expo32_spec x hx).1
    rw [le_div_iff₀ hp] at h2
    rw [rnd32_eq x hx]
    have e : (nearestEven (x / 2 ^ (expo x + 29)) : ℚ) * 2 ^ (expo x + 29) - x = ((nearestEven (x / 2 ^ (expo x + 29)) : ℚ) - x / 2 ^ (expo x + 29)) * 2 ^ (expo x + 29) := by
      rw [sub_mul, div_mul_cancel₀ _ hp.ne']
    rw [e, abs_mul, abs_of_pos hp]
    calc _ ≤ 1 / 2 * (2 : ℚ) ^ (expo x + 29) := mul_le_mul_of_nonneg_right h1 hp.le
      _ = (2 ^ 23 * 2 ^ (expo x + 29)) / 2 ^ 24 := by ring
      _ ≤ _ := div_le_div_of_nonneg_right h2 (by positivity)

theorem rnd32_relErr : RelErr rnd32 (1 / 2 ^ 24) :=
  ⟨by norm_num, fun x => (rnd32_err x).trans_eq (by ring)⟩

theorem rnd32_pos_mono (x y : ℚ) (hx : 0 < x) (h : x ≤ y) : rnd32 x ≤ rnd32 y := by
  have p2 : (0 : ℚ) < 2 := by norm_num
  have hy : 0 < y := hx.trans_le h
  obtain ⟨a1, a2⟩ := expo32_spec x hx.ne'
  obtain ⟨b1, b2⟩ := expo32_spec y hy.ne'
  rw [abs_of_pos hx] at a1 a2
  rw [abs_of_pos hy] at b1 b2
  rw [rnd32_eq x hx.ne', rnd32_eq y hy.ne']
  generalize expo x + 29 = ex at *
  generalize expo y + 29 = ey at *
  have hpx : (0 : ℚ) < 2 ^ ex := zpow_pos p2 _
  have hpy : (0 : ℚ) < 2 ^ ey := zpow_pos p2 _
  rcases lt_trichotomy ex ey with he | he | he
  · have h1 : nearestEven (x / 2 ^ ex) ≤ 2 ^ 24 := by
      have := nearestEven_mono (x / 2 ^ ex) ((2 ^ 24 : ℤ) : ℚ) (by push_cast; exact a2.le)
      rwa [nearestEven_int] at this
    have h2 : 2 ^ 23 ≤ nearestEven (y / 2 ^ ey) := by
      have := nearestEven_mono ((2 ^ 23 : ℤ) : ℚ) (y / 2 ^ ey) (by push_cast; exact b1)
      rwa [nearestEven_int] at this
    have h1' : (nearestEven (x / 2 ^ ex) : ℚ) ≤ 2 ^ 24 := by exact_mod_cast h1
    have h2' : (2 ^ 23 : ℚ) ≤ (nearestEven (y / 2 ^ ey) : ℚ) := by exact_mod_cast h2
    have : (2 : ℚ) * 2 ^ ex ≤ 2 ^ ey := by
      rw [← zpow_one_add₀ p2.ne']; exact zpow_le_zpow_right₀ (by norm_num) (by omega)
    calc (nearestEven (x / 2 ^ ex) : ℚ) * 2 ^ ex ≤ 2 ^ 24 * 2 ^ ex := mul_le_mul_of_nonneg_right h1' hpx.le
      _ = 2 ^ 23 * (2 * 2 ^ ex) := by ring
      _ ≤ 2 ^ 23 * 2 ^ ey := mul_le_mul_of_nonneg_left this (by norm_num)
      _ ≤ _ := mul_le_mul_of_nonneg_right h2' hpy.le
  · rw [he]
    refine mul_le_mul_of_nonneg_right ?_ hpy.le
    exact_mod_cast nearestEven_mono _ _ (div_le_div_of_nonneg_right h hpy.le)
  · exfalso
    have : (2 : ℚ) * 2 ^ ey ≤ 2 ^ ex := by
      rw [← zpow_one_add₀ p2.ne']; exact zpow_le_zpow_right₀ (by norm_num) (by omega)
    rw [div_lt_iff₀ hpy] at b2
    rw [le_div_iff₀ hpx] at a1
    have : (2 : ℚ) ^ 23 * (2 * 2 ^ ey) ≤ 2 ^ 23 * 2 ^ ex := mul_le_mul_of_nonneg_left this (by positivity)
    have e : (2 : ℚ) ^ 23 * (2 * 2 ^ ey) = 2 ^ 24 * 2 ^ ey := by ring
    linarith

theorem rnd32_sign (x : ℚ) : (0 ≤ x → 0 ≤ rnd32 x) ∧ (x ≤ 0 → rnd32 x ≤ 0) := by
  have h := abs_le.mp (rnd32_err x)
  constructor
  · intro hx; rw [abs_of_nonneg hx] at h
    have : x / 2 ^ 24 ≤ x := div_le_self hx (by norm_num)
    linarith [h.1]
  · intro hx; rw [abs_of_nonpos hx] at h
    have : -x / 2 ^ 24 ≤ -x := div_le_self (by linarith) (by norm_num)
    linarith [h.2]

/-- single precision keeps the order -/
theorem rnd32_mono (x y : ℚ) (h : x ≤ y) : rnd32 x ≤ rnd32 y := by
  rcases le_or_gt x 0 with hx | hx
  · rcases le_or_gt 0 y with hy | hy
    · exact ((rnd32_sign x).2 hx).trans ((rnd32_sign y).1 hy)
    · have := rnd32_pos_mono (-y) (-x) (by linarith) (by linarith)
      rw [rnd32_neg, rnd32_neg] at this
      linarith
  · exact rnd32_pos_mono x y hx h

/-- integers of up to 24 digits are kept -/
theorem rnd32_int (z : ℤ) (hz : |z| < 2 ^ 24) : rnd32 (z : ℚ) = z := by
  by_cases h0 : z = 0
  · rw [h0]; simp [rnd32]
  · have hx : (z : ℚ) ≠ 0 := by exact_mod_cast h0
    obtain ⟨h1, h2⟩ := expo32_spec _ hx
    have hp : (0 : ℚ) < 2 ^ (expo (z : ℚ) + 29) := zpow_pos (by norm_num) _
    have he : expo (z : ℚ) + 29 ≤ 0 := by
      by_contra hc
      have : (2 : ℚ) ^ (1 : ℤ) ≤ 2 ^ (expo (z : ℚ) + 29) := zpow_le_zpow_right₀ (by norm_num) (by omega)
      rw [zpow_one] at this
      rw [le_div_iff₀ hp] at h1
      have hz' : |(z : ℚ)| < 2 ^ 24 := by exact_mod_cast hz
      have : (2 : ℚ) ^ 23 * 2 ≤ 2 ^ 23 * 2 ^ (expo (z : ℚ) + 29) := mul_le_mul_of_nonneg_left this (by norm_num)
      norm_num at *
      linarith
    obtain ⟨k, hk⟩ : ∃ k : ℕ, expo (z : ℚ) + 29 = -(k : ℤ) := ⟨(-(expo (z : ℚ) + 29)).toNat, by omega⟩
    rw [rnd32_eq _ hx, hk, zpow_neg, zpow_natCast, div_inv_eq_mul]
    rw [show (z : ℚ) * 2 ^ k = ((z * 2 ^ k : ℤ) : ℚ) by push_cast; rfl, nearestEven_int]
    push_cast
    rw [mul_assoc, mul_inv_cancel₀ (by positivity), mul_one]

theorem rnd32_scale (x : ℚ) (n : ℤ) : rnd32 (x * 2 ^ n) = rnd32 x * 2 ^ n := by
  by_cases hx : x = 0
  · rw [hx]; simp [rnd32]
  · have hp : (0 : ℚ) < 2 ^ n := zpow_pos (by norm_num) _
    have hy : x * 2 ^ n ≠ 0 := mul_ne_zero hx hp.ne'
    obtain ⟨h1, h2⟩ := expo_spec x hx
    have hs : |x * 2 ^ n| / 2 ^ (expo x + n) = |x| / 2 ^ expo x := by
      rw [zpow_add₀ (by norm_num), abs_mul, abs_of_pos hp, mul_div_mul_right _ _ hp.ne']
    have he := expo_unique _ hy (expo x + n) (by rw [hs]; exact h1) (by rw [hs]; exact h2)
    rw [rnd32_eq _ hy, rnd32_eq _ hx, he, show expo x + n + 29 = expo x + 29 + n by ring, zpow_add₀ (by norm_num : (2 : ℚ) ≠ 0) (expo x + 29) n,
      mul_div_mul_right _ _ hp.ne', mul_assoc]

/-- a number of single precision is an integer of up to 24 digits times a power of two -/
theorem rnd32_shape (x : ℚ) : ∃ m e : ℤ, |m| ≤ 2 ^ 24 ∧ rnd32 x = m * 2 ^ e := by
  by_cases hx : x = 0
  · exact ⟨0, 0, by norm_num, by rw [hx]; simp [rnd32]⟩
  · refine ⟨nearestEven (x / 2 ^ (expo x + 29)), expo x + 29, ?_, rnd32_eq x hx⟩
    have hp : (0 : ℚ) < 2 ^ (expo x + 29) := zpow_pos (by norm_num) _
    have h2 := (expo32_spec x hx).2
    have h3 : |x / 2 ^ (expo x + 29)| < 2 ^ 24 := by rwa [abs_div, abs_of_pos hp]
    obtain ⟨h4, h5⟩ := abs_lt.mp h3
    rw [abs_le]
    constructor
    · have := nearestEven_mono ((-2 ^ 24 : ℤ) : ℚ) _ (by push_cast; exact h4.le)
      rwa [nearestEven_int] at this
    · have := nearestEven_mono _ ((2 ^ 24 : ℤ) : ℚ) (by push_cast; exact h5.le)
      rwa [nearestEven_int] at this

theorem rnd32_fix (m e : ℤ) (hm : |m| ≤ 2 ^ 24) : rnd32 (m * 2 ^ e) = m * 2 ^ e := by
  rw [rnd32_scale]
  congr 1
  rcases lt_or_eq_of_le hm with h | h
  · exact rnd32_int m h
  · have e1 : rnd32 ((1 : ℤ) : ℚ) = 1 := rnd32_int 1 (by norm_num)
    have e2 : rnd32 ((2 : ℚ) ^ 24) = 2 ^ 24 := by
      have := rnd32_scale 1 24
      push_cast at e1
      rw [e1] at this
      simpa using this
    rcases abs_choice m with h' | h'
    · rw [h] at h'
      rw [← h']
      push_cast
      exact e2
    · rw [h] at h'
      rw [show m = -2 ^ 24 by omega]
      rw [show (((-2 ^ 24 : ℤ)) : ℚ) = -(2 ^ 24) by norm_num, rnd32_neg, e2]

/-- a number of single precision is kept -/
theorem rnd32_idem (x : ℚ) : rnd32 (rnd32 x) = rnd32 x := by
  obtain ⟨m, e, hm, h⟩ := rnd32_shape x
  rw [h, rnd32_fix m e hm]

/-- single precision to double and back -/
theorem rnd64_rnd32 (x : ℚ) : rnd64 (rnd32 x) = rnd32 x := by
  obtain ⟨m, e, hm, h⟩ := rnd32_shape x
  rw [h, Verif.Collocation.Julian.rnd64_scale, Verif.Results.Times.rnd64_int m (by omega)]

example : rnd32 (1 / 10) = 13421773 / 2 ^ 27 ∧ rnd32 16777217 = 16777216 ∧ rnd32 (-5) = -5 := by decide +kernel

end Verif.Rounding
