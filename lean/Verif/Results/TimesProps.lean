import Verif.Results.Times
import Verif.Rounding.FiltersProps

/-! C106: the time stamps of rolling results survive the results file. -/

namespace Verif.Results.Times

open Verif.Rolling.Fl Verif.Rounding

theorem day_pos : (0 : ℚ) < day := by norm_num [day]

/-- half a unit in the last place: numbers below 2^16 are rounded by at most 2^-38 -/
theorem rnd64_abs (x : ℚ) (h : |x| < 2 ^ 16) : |rnd64 x - x| ≤ 1 / 2 ^ 38 := by
  by_cases hx : x = 0
  · rw [hx]; norm_num [rnd64]
  · have p2 : (0 : ℚ) < 2 := by norm_num
    have hp : (0 : ℚ) < 2 ^ expo x := zpow_pos p2 _
    have h1 := nearestEven_err (x / 2 ^ expo x)
    have h2 := (expo_spec x hx).1
    rw [le_div_iff₀ hp] at h2
    have h3 : (2 : ℚ) ^ expo x < 2 ^ (-36 : ℤ) := by
      have := lt_of_le_of_lt h2 h
      rw [show (2 : ℚ) ^ (-36 : ℤ) = 2 ^ 16 / 2 ^ 52 by norm_num, lt_div_iff₀ (by norm_num), mul_comm]
      exact this
    have h4 : expo x ≤ -37 := by
      have := (zpow_lt_zpow_iff_right₀ (by norm_num : (1 : ℚ) < 2)).mp h3
      omega
    have h5 : (2 : ℚ) ^ expo x ≤ 2 ^ (-37 : ℤ) := (zpow_le_zpow_iff_right₀ (by norm_num : (1 : ℚ) < 2)).mpr h4
    rw [rnd64_eq x hx]
    have e : (nearestEven (x / 2 ^ expo x) : ℚ) * 2 ^ expo x - x = ((nearestEven (x / 2 ^ expo x) : ℚ) - x / 2 ^ expo x) * 2 ^ expo x := by
      rw [sub_mul, div_mul_cancel₀ _ hp.ne']
    rw [e, abs_mul, abs_of_pos hp]
    calc _ ≤ 1 / 2 * (2 : ℚ) ^ expo x := mul_le_mul_of_nonneg_right h1 hp.le
      _ ≤ 1 / 2 * 2 ^ (-37 : ℤ) := mul_le_mul_of_nonneg_left h5 (by norm_num)
      _ = 1 / 2 ^ 38 := by norm_num

theorem nearestEven_of_close (q : ℚ) (z : ℤ) (h : |q - z| < 1 / 2) : nearestEven q = z := by
  have h1 := nearestEven_err q
  have h2 : |((nearestEven q - z : ℤ) : ℚ)| < 1 := by
    push_cast
    have e : (nearestEven q : ℚ) - z = ((nearestEven q : ℚ) - q) + (q - z) := by ring
    rw [e]
    refine lt_of_le_of_lt (abs_add_le _ _) ?_
    linarith
  have h3 : |nearestEven q - z| < 1 := by exact_mod_cast h2
  have := Int.abs_lt_one_iff.mp h3
  omega

/-- one time stamp in microseconds, less than 2^16 days before or after 1900-01-01 -/
theorem round_trip_us (rndL : ℚ → ℚ) (hL : RelErr rndL (1 / 2 ^ 60)) (m : ℤ) (hm : |m| < 2 ^ 16 * day) :
    num2date rndL (date2num rnd64 m) = m := by
  have hd := day_pos
  have hq : |(m : ℚ)| < 2 ^ 16 * day := by exact_mod_cast hm
  have hx : |(m : ℚ) / day| < 2 ^ 16 := by
    rw [abs_div, abs_of_pos hd, div_lt_iff₀ hd]
    exact hq
  -- the number in the file is within 2^-38 days
  have hf : |date2num rnd64 m - (m : ℚ) / day| ≤ 1 / 2 ^ 38 := by
    unfold date2num
    by_cases h0 : m % day = 0
    · rw [if_pos h0]
      have : ((m / day : ℤ) : ℚ) = (m : ℚ) / day := Int.cast_div (Int.dvd_of_emod_eq_zero h0) hd.ne'
      rw [this, sub_self, abs_zero]
      norm_num
    · rw [if_neg h0]
      exact rnd64_abs _ hx
  set x := date2num rnd64 m
  have hmul : |x * day - m| ≤ 1 / 2 ^ 38 * day := by
    have e : x * day - m = (x - (m : ℚ) / day) * day := by rw [sub_mul, div_mul_cancel₀ _ hd.ne']
    rw [e, abs_mul, abs_of_pos hd]
    exact mul_le_mul_of_nonneg_right hf hd.le
  have hsize : |x * day| ≤ 2 ^ 16 * day + 1 / 2 ^ 38 * day := by
    have : |x * day| ≤ |x * day - m| + |(m : ℚ)| := by
      have := abs_add_le (x * day - m) (m : ℚ)
      rwa [sub_add_cancel] at this
    linarith
  have hr := hL.err (x * day)
  refine nearestEven_of_close _ _ ?_
  have e : rndL (x * day) - m = (rndL (x * day) - x * day) + (x * day - m) := by ring
  rw [e]
  refine lt_of_le_of_lt (abs_add_le _ _) ?_
  have hb : 1 / 2 ^ 60 * |x * day| ≤ 1 / 2 ^ 60 * (2 ^ 16 * day + 1 / 2 ^ 38 * day) := mul_le_mul_of_nonneg_left hsize (by norm_num)
  have hfin : (1 : ℚ) / 2 ^ 60 * (2 ^ 16 * day + 1 / 2 ^ 38 * day) + 1 / 2 ^ 38 * day < 1 / 2 := by norm_num [day]
  linarith

/-- C106: time stamps between 1720-07-28 and 2079-06-05 come back from the file without their nanoseconds and otherwise unchanged. -/
theorem times_round_trip_partial (rndL : ℚ → ℚ) (hL : RelErr rndL (1 / 2 ^ 60)) (ns : List ℤ) (hns : ∀ t ∈ ns, |t / 1000| < 2 ^ 16 * day) :
    numToDate rndL (dateToNum rnd64 ns) = ns.map (fun t => t - t % 1000) := by
  unfold numToDate dateToNum
  rw [List.map_map]
  refine List.map_congr_left fun t ht => ?_
  show num2date rndL (date2num rnd64 (t / 1000)) * 1000 = t - t % 1000
  rw [round_trip_us rndL hL _ (hns t ht)]
  omega

example := times_round_trip_partial id ⟨by norm_num, fun x => by simpa using abs_nonneg x⟩ [1234567, -86400000000123] (by decide)

/-- integers are numbers of the machine -/
theorem rnd64_int (z : ℤ) (hz : |z| < 2 ^ 53) : rnd64 (z : ℚ) = z := by
  by_cases h0 : z = 0
  · rw [h0]; simp [rnd64]
  · have hx : (z : ℚ) ≠ 0 := by exact_mod_cast h0
    have p2 : (0 : ℚ) < 2 := by norm_num
    have hp : (0 : ℚ) < 2 ^ expo (z : ℚ) := zpow_pos p2 _
    have hq : |(z : ℚ)| < 2 ^ 53 := by exact_mod_cast hz
    have h2 := (expo_spec (z : ℚ) hx).1
    rw [le_div_iff₀ hp] at h2
    have h3 : (2 : ℚ) ^ expo (z : ℚ) < 2 ^ (1 : ℤ) := by
      have := lt_of_le_of_lt h2 hq
      rw [show (2 : ℚ) ^ (53 : ℕ) = 2 ^ 52 * 2 ^ (1 : ℤ) by norm_num] at this
      exact lt_of_mul_lt_mul_left this (by norm_num)
    have h4 : expo (z : ℚ) ≤ 0 := by
      have := (zpow_lt_zpow_iff_right₀ (by norm_num : (1 : ℚ) < 2)).mp h3
      omega
    obtain ⟨k, hk⟩ := Int.eq_ofNat_of_zero_le (by omega : 0 ≤ -expo (z : ℚ))
    have hk' : expo (z : ℚ) = -(k : ℤ) := by omega
    have e : (z : ℚ) / 2 ^ expo (z : ℚ) = ((z * 2 ^ k : ℤ) : ℚ) := by
      rw [hk', zpow_neg, div_inv_eq_mul, zpow_natCast]
      push_cast
      rfl
    rw [rnd64_eq _ hx, e, nearestEven_int, ← e, div_mul_cancel₀ _ hp.ne']

/-- C106: for every time stamp of pandas (64 bit) the order is kept, so the index that is read is sorted if the index that was written was. -/
theorem times_sorted (rndL : ℚ → ℚ) (hm : ∀ x y, x ≤ y → rndL x ≤ rndL y) (ns : List ℤ) (hs : ns.Pairwise (· ≤ ·)) (h64 : ∀ t ∈ ns, |t| < 2 ^ 64) :
    (numToDate rndL (dateToNum rnd64 ns)).Pairwise (· ≤ ·) := by
  have hbig : ∀ t ∈ ns, rnd64 (((t / 1000) / day : ℤ) : ℚ) = (((t / 1000) / day : ℤ) : ℚ) := by
    intro t ht
    refine rnd64_int _ ?_
    have := h64 t ht
    rw [abs_lt] at this ⊢
    unfold day
    constructor <;> omega
  have hd := day_pos
  unfold numToDate dateToNum
  rw [List.map_map, List.pairwise_map]
  refine hs.imp_of_mem ?_
  intro a b ha hb hab
  have key : ∀ t ∈ ns, date2num rnd64 (t / 1000) = rnd64 (((t / 1000 : ℤ) : ℚ) / day) := by
    intro t ht
    unfold date2num
    by_cases h0 : t / 1000 % day = 0
    · rw [if_pos h0, ← Int.cast_div (Int.dvd_of_emod_eq_zero h0) hd.ne', hbig t ht]
    · rw [if_neg h0]
  show num2date rndL (date2num rnd64 (a / 1000)) * 1000 ≤ num2date rndL (date2num rnd64 (b / 1000)) * 1000
  rw [key a ha, key b hb]
  have h1 : a / 1000 ≤ b / 1000 := Int.ediv_le_ediv (by norm_num) hab
  have h2 : ((a / 1000 : ℤ) : ℚ) / day ≤ ((b / 1000 : ℤ) : ℚ) / day := div_le_div_of_nonneg_right (by exact_mod_cast h1) hd.le
  have h3 := rnd64_mono _ _ h2
  have h4 := hm _ _ (mul_le_mul_of_nonneg_right h3 hd.le)
  exact mul_le_mul_of_nonneg_right (nearestEven_mono _ _ h4) (by norm_num)

example := times_sorted rnd64 rnd64_mono [-86400000000123, 0, 1234567, 1234567] (by decide) (by decide)

/-- C106, negation: 2 microseconds after the start of day 70000 (2091-08-27) come back as another time, also with exact multiplication. -/
theorem times_late_wrong : numToDate id (dateToNum rnd64 [(70000 * day + 2) * 1000]) ≠ [(70000 * day + 2) * 1000] := by decide +kernel

/-- C106, negation: two different time stamps come back as the same one (nanoseconds are dropped). -/
theorem times_nanoseconds_wrong : numToDate id (dateToNum rnd64 [10 ^ 18 + 1, 10 ^ 18 + 2]) = [10 ^ 18, 10 ^ 18] := by decide +kernel

/-! Concrete cases: 2020-06-01 13:17:02.123456 and 1900-01-03, with the rounding of `double` in place of no rounding for the product. -/

example : [3800000222123456 * 1000, 2 * day * 1000].map (fun t => t - t % 1000) = numToDate id (dateToNum rnd64 [3800000222123456 * 1000 + 789, 2 * day * 1000]) ∧
    |(3800000222123456 * 1000 + 789) / 1000| < 2 ^ 16 * day ∧ dateToNum rnd64 [2 * day * 1000] = [2] ∧
    (dateToNum rnd64 [3800000222123456 * 1000]).map (fun x => x * (day : ℚ)) ≠ [(3800000222123456 : ℚ)] := by decide +kernel

example : RelErr (fun x : ℚ => x + x / 2 ^ 61) (1 / 2 ^ 60) :=
  ⟨by norm_num, fun x => by
    rw [add_sub_cancel_left, abs_div, abs_of_pos (by norm_num : (0 : ℚ) < 2 ^ 61)]
    have := abs_nonneg x
    rw [div_le_iff₀ (by norm_num)]
    linarith⟩

example : [5, 10 ^ 18, 10 ^ 18, 4 * 10 ^ 18].Pairwise (· ≤ ·) ∧ ∀ t ∈ ([5, 10 ^ 18, 10 ^ 18, 4 * 10 ^ 18] : List ℤ), |t| < 2 ^ 64 := by decide +kernel

end Verif.Results.Times
