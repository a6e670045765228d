import Verif.Rounding.Moving
import Verif.Rounding.FiltersProps
import Verif.Rounding.Single

/-! C112: `moving_average` averages the values inside the window around each time stamp. -/

namespace Verif.Rounding.Moving

open Verif.Rolling.Fl (rnd64)
open Verif.Filters (validObs)

/-! ## Specification -/

/-- values (neither NaN nor -999999) of the rows that `used` accepts for the time `t` -/
def chosen (used : ℤ → ℤ → Bool) (t : ℤ) (ser : List (ℤ × Option ℚ)) : List ℚ :=
  ser.filterMap (fun o => o.2.bind (fun v => if v ≠ -999999 ∧ used t o.1 = true then some v else none))

/-- the result for the row `o`: NaN if the row itself has no value (and none is to be filled in) or too few values are used, otherwise their mean up to rounding -/
def Smoothed (u : ℚ) (used : ℤ → ℤ → Bool) (fillna : Bool) (minObs : ℤ) (ser : List (ℤ × Option ℚ)) (o : ℤ × Option ℚ) (out : Option ℚ) : Prop :=
  if ((o.2 = none ∨ o.2 = some (-999999)) ∧ fillna = false) ∨ ((chosen used o.1 ser).length : ℤ) < minObs ∨ chosen used o.1 ser = [] then out = none
  else ∃ r, out = some r ∧ |r - (chosen used o.1 ser).sum / (chosen used o.1 ser).length| ≤
    ((1 + u) ^ ((chosen used o.1 ser).length + 1) - 1) * (((chosen used o.1 ser).map (fun v => |v|)).sum / (chosen used o.1 ser).length)

/-- days between two time stamps -/
def days (t t' : ℤ) : ℚ := |(t : ℚ) - t'| / 86400000000000

/-- a time stamp of pandas (1677 to 2262) -/
def InRange (t : ℤ) : Prop := |t| < 2 ^ 63

/-- Julian dates with an error of at most `ε` days in the years of pandas -/
def JulianErr (julday : ℤ → ℚ) (ε : ℚ) : Prop := ∀ s : ℤ, |s| ≤ 9223372037 → |julday s - (4881175 / 2 + s / 86400)| ≤ ε

/-! ## Proof -/

theorem near_chosen (rnd : ℚ → ℚ) (limit : ℚ) (jd : ℤ → ℚ) (t : ℤ) (ser : List (ℤ × Option ℚ)) :
    near rnd (-999999) limit (jd t) (ser.map (fun o => (jd o.1, o.2))) = chosen (fun r s => decide (|rnd (jd s - jd r)| ≤ limit)) t ser := by
  induction ser with
  | nil => rfl
  | cons o ser ih =>
    obtain ⟨s, v⟩ := o
    simp only [near, validObs, chosen, List.map_cons, List.filterMap_cons] at *
    cases v with
    | none => simpa using ih
    | some v =>
      by_cases h1 : v = -999999
      · simpa [h1] using ih
      · by_cases h2 : |rnd (jd s - jd t)| ≤ limit
        · simpa [h1, h2] using ih
        · simpa [h1, h2] using ih

theorem seconds_err (t t' : ℤ) : |((seconds t : ℤ) : ℚ) - seconds t' - (t - t') / 1000000000| ≤ 1 := by
  have a := Int.emod_add_mul_ediv t 1000000000
  have b := Int.emod_add_mul_ediv t' 1000000000
  have a1 := Int.emod_nonneg t (show (1000000000 : ℤ) ≠ 0 by norm_num)
  have a2 := Int.emod_lt_of_pos t (show (0 : ℤ) < 1000000000 by norm_num)
  have b1 := Int.emod_nonneg t' (show (1000000000 : ℤ) ≠ 0 by norm_num)
  have b2 := Int.emod_lt_of_pos t' (show (0 : ℤ) < 1000000000 by norm_num)
  have h1 : 1000000000 * (seconds t - seconds t') - (t - t') ≤ 1000000000 := by unfold seconds; omega
  have h2 : -1000000000 ≤ 1000000000 * (seconds t - seconds t') - (t - t') := by unfold seconds; omega
  have h1' : (1000000000 : ℚ) * (seconds t - seconds t') - (t - t') ≤ 1000000000 := by exact_mod_cast h1
  have h2' : -1000000000 ≤ (1000000000 : ℚ) * (seconds t - seconds t') - (t - t') := by exact_mod_cast h2
  rw [abs_le]
  constructor <;> linarith

theorem seconds_range (t : ℤ) (h : InRange t) : |seconds t| ≤ 9223372037 := by
  have := abs_lt.mp h
  rw [abs_le]
  unfold seconds
  omega

theorem julday_err {julday : ℤ → ℚ} {ε : ℚ} (h : JulianErr julday ε) (t t' : ℤ) (ht : InRange t) (ht' : InRange t') :
    |(|julday (seconds t) - julday (seconds t')| - days t t')| ≤ 1 / 86400 + 2 * ε := by
  have h1 := abs_le.mp (h (seconds t) (seconds_range t ht))
  have h2 := abs_le.mp (h (seconds t') (seconds_range t' ht'))
  have h3 := abs_le.mp (seconds_err t t')
  have e : days t t' = |((t : ℚ) - t') / 86400000000000| := by
    unfold days
    rw [abs_div, abs_of_pos (show (0 : ℚ) < 86400000000000 by norm_num)]
  rw [e]
  refine (abs_abs_sub_abs_le_abs_sub _ _).trans ?_
  rw [abs_le]
  constructor <;> linarith [h1.1, h1.2, h2.1, h2.2, h3.1, h3.2]

theorem julday_mono {julday : ℤ → ℚ} {ε : ℚ} (h : JulianErr julday ε) (hε : ε ≤ 1 / 200000) (t t' : ℤ) (ht : InRange t) (ht' : InRange t') (htt : t ≤ t') : julday (seconds t) ≤ julday (seconds t') := by
  have hs : seconds t ≤ seconds t' := Int.ediv_le_ediv (by norm_num) htt
  rcases hs.eq_or_lt with e | e
  · rw [e]
  · have h1 := abs_le.mp (h (seconds t) (seconds_range t ht))
    have h2 := abs_le.mp (h (seconds t') (seconds_range t' ht'))
    have h3 : ((seconds t : ℤ) : ℚ) + 1 ≤ seconds t' := by exact_mod_cast e
    linarith [h1.2, h2.1]

/-- C112 (partial: up to a second, the error of the Julian dates and the rounding of the window to single precision, see `window_wrong`): the result has one value for every row, the mean of
a set of rows that contains all rows inside of the window and none outside of it, up to that tolerance. -/
theorem moving_average_partial {rnd rnd32 : ℚ → ℚ} {u v ε : ℚ} (h : RelErr rnd u) (h32 : RelErr rnd32 v) (huv : u ≤ v) (hv : v ≤ 1 / 100)
    (hm : ∀ x y, x ≤ y → rnd x ≤ rnd y) (hi : ∀ x, rnd (rnd x) = rnd x) (hodd : ∀ x, rnd (-x) = -rnd x) {julday : ℤ → ℚ} (hj : JulianErr julday ε) (hε : ε ≤ 1 / 200000)
    (ser : List (ℤ × Option ℚ)) (hs : ser.Pairwise (fun a b => a.1 ≤ b.1)) (hr : ∀ o ∈ ser, InRange o.1) (window : ℚ) (hw : 0 ≤ window) (fillna : Bool) (minObs : ℤ) :
    ∃ used : ℤ → ℤ → Bool,
      (∀ t s, InRange t → InRange s → (days s t + (1 / 86400 + 2 * ε + 2 * v * window) ≤ window / 2 → used t s = true) ∧
        (used t s = true → days s t ≤ window / 2 + (1 / 86400 + 2 * ε + 4 * v * window))) ∧
      (movingAverage rnd rnd32 julday ser window fillna minObs).length = ser.length ∧
      ∀ (i : ℕ) (o : ℤ × Option ℚ), ser[i]? = some o → ∃ out, (movingAverage rnd rnd32 julday ser window fillna minObs)[i]? = some out ∧ Smoothed u used fillna minObs ser o out := by
  have u0 := h.nonneg
  have v0 := h32.nonneg
  set limit := rnd (rnd32 window / 2) with hlim
  refine ⟨fun r s => decide (|rnd (julday (seconds s) - julday (seconds r))| ≤ limit), ?_, ?_, ?_⟩
  · intro t s ht hs
    simp only [decide_eq_true_eq]
    obtain ⟨b1, b2⟩ := boxcar_window h hm hodd limit (julday (seconds s)) (julday (seconds t)) (hi _)
    have k := abs_le.mp (julday_err hj s t hs ht)
    have w1 := abs_le.mp (h32.err window)
    rw [abs_of_nonneg hw] at w1
    have vw : v * window ≤ window / 100 := by have := mul_le_mul_of_nonneg_right hv hw; linarith
    have vw0 : 0 ≤ v * window := mul_nonneg v0 hw
    have q0 : 0 ≤ rnd32 window / 2 := by linarith [w1.1]
    have w2 := abs_le.mp (h.err (rnd32 window / 2))
    rw [abs_of_nonneg q0, ← hlim] at w2
    have w3 : u * (rnd32 window / 2) ≤ v * (101 / 200 * window) := mul_le_mul huv (by linarith [w1.2]) q0 v0
    constructor
    · intro hd
      exact b1 (by linarith [k.2, w1.1, w2.1])
    · intro hd
      have hb := b2 hd
      have l0 : limit ≤ window := by linarith [w1.2, w2.2]
      have hx : |julday (seconds s) - julday (seconds t)| ≤ 102 / 100 * window := by
        have : u * |julday (seconds s) - julday (seconds t)| ≤ 1 / 100 * |julday (seconds s) - julday (seconds t)| := mul_le_mul_of_nonneg_right (huv.trans hv) (abs_nonneg _)
        linarith
      have hy : u * |julday (seconds s) - julday (seconds t)| ≤ v * (102 / 100 * window) := mul_le_mul huv hx (abs_nonneg _) v0
      linarith [k.1, w1.2, w2.2]
  · unfold movingAverage boxcarFilter
    rw [boxcarLoop_length, List.length_map]
  · intro i o ho
    have hs' : (ser.map (fun o => (julday (seconds o.1), o.2))).Pairwise (fun a b => a.1 ≤ b.1) := by
      rw [List.pairwise_map]
      exact hs.imp_of_mem (fun ha hb hab => julday_mono hj hε _ _ (hr _ ha) (hr _ hb) hab)
    obtain ⟨out, h1, h2⟩ := (boxcar_err_partial h hm rnd32 (ser.map (fun o => (julday (seconds o.1), o.2))) window (-999999) fillna minObs hs').2 i (julday (seconds o.1), o.2)
      (by rw [List.getElem?_map, ho]; rfl)
    refine ⟨out, h1, ?_⟩
    have hn := near_chosen rnd limit (fun t => julday (seconds t)) o.1 ser
    unfold BoxcarOk at h2
    simp only [← hlim] at h2
    rw [hn] at h2
    exact h2

/-! ## Daily data -/

/-- midnights of the years of pandas -/
def Midnight (t : ℤ) : Prop := ∃ k : ℤ, t = k * 86400000000000 ∧ |k| ≤ 110000

theorem rnd64_half (z : ℤ) (hz : |z| < 2 ^ 53) : rnd64 ((z : ℚ) / 2) = z / 2 := by
  have := Verif.Collocation.Julian.rnd64_scale z (-1)
  rw [Verif.Results.Times.rnd64_int z hz, zpow_neg, zpow_one] at this
  rw [div_eq_mul_inv, this]

/-- C112 for daily data and windows of whole days, without tolerance: the mean of exactly the rows inside of the window, its edges included. -/
theorem moving_average_daily {julday : ℤ → ℚ} (hj : ∀ k : ℤ, |k| ≤ 110000 → julday (k * 86400) = 4881175 / 2 + k)
    (ser : List (ℤ × Option ℚ)) (hs : ser.Pairwise (fun a b => a.1 ≤ b.1)) (hr : ∀ o ∈ ser, Midnight o.1) (window : ℕ) (hw : window < 2 ^ 24) (fillna : Bool) (minObs : ℤ) :
    (movingAverage rnd64 rnd32 julday ser window fillna minObs).length = ser.length ∧
      ∀ (i : ℕ) (o : ℤ × Option ℚ), ser[i]? = some o → ∃ out, (movingAverage rnd64 rnd32 julday ser window fillna minObs)[i]? = some out ∧
        Smoothed (1 / 2 ^ 53) (fun t s => decide (days s t ≤ (window : ℚ) / 2)) fillna minObs ser o out := by
  have hsec : ∀ k : ℤ, seconds (k * 86400000000000) = k * 86400 := fun k => by unfold seconds; omega
  have hjd : ∀ k : ℤ, |k| ≤ 110000 → julday (seconds (k * 86400000000000)) = 4881175 / 2 + k := fun k hk => by rw [hsec, hj k hk]
  have hlim : rnd64 (rnd32 (window : ℚ) / 2) = window / 2 := by
    have h1 : rnd32 (((window : ℤ)) : ℚ) = ((window : ℤ) : ℚ) := rnd32_int window (by rw [abs_of_nonneg (by omega)]; exact_mod_cast hw)
    have h2 := rnd64_half (window : ℤ) (by rw [abs_of_nonneg (by omega)]; omega)
    push_cast at h1 h2
    rw [h1, h2]
  refine ⟨by unfold movingAverage boxcarFilter; rw [boxcarLoop_length, List.length_map], ?_⟩
  intro i o ho
  have hs' : (ser.map (fun o => (julday (seconds o.1), o.2))).Pairwise (fun a b => a.1 ≤ b.1) := by
    rw [List.pairwise_map]
    refine hs.imp_of_mem (fun ha hb hab => ?_)
    obtain ⟨k, e1, k1⟩ := hr _ ha
    obtain ⟨k', e2, k2⟩ := hr _ hb
    rw [e1, e2] at hab ⊢
    rw [hjd k k1, hjd k' k2]
    have : k ≤ k' := by omega
    have : (k : ℚ) ≤ k' := by exact_mod_cast this
    linarith
  obtain ⟨out, h1, h2⟩ := (boxcar_err_partial rnd64_relErr Verif.Rolling.Fl.rnd64_mono rnd32 (ser.map (fun o => (julday (seconds o.1), o.2))) window (-999999) fillna minObs hs').2 i
    (julday (seconds o.1), o.2) (by rw [List.getElem?_map, ho]; rfl)
  refine ⟨out, h1, ?_⟩
  have hn := near_chosen rnd64 ((window : ℚ) / 2) (fun t => julday (seconds t)) o.1 ser
  obtain ⟨k, e1, k1⟩ := hr o (List.mem_of_getElem? ho)
  have hc : chosen (fun r s => decide (|rnd64 (julday (seconds s) - julday (seconds r))| ≤ (window : ℚ) / 2)) o.1 ser =
      chosen (fun t s => decide (days s t ≤ (window : ℚ) / 2)) o.1 ser := by
    unfold chosen
    refine List.filterMap_congr (fun p hp => ?_)
    obtain ⟨k', e2, k2⟩ := hr p hp
    have hd : |rnd64 (julday (seconds p.1) - julday (seconds o.1))| = days p.1 o.1 := by
      have ha := abs_le.mp k1
      have hb := abs_le.mp k2
      have := Verif.Results.Times.rnd64_int (k' - k) (by rw [abs_lt]; constructor <;> omega)
      push_cast at this
      rw [e1, e2, hjd k k1, hjd k' k2, show (4881175 / 2 + (k' : ℚ) - (4881175 / 2 + k)) = k' - k by ring, this]
      unfold days
      push_cast
      rw [show (k' : ℚ) * 86400000000000 - k * 86400000000000 = (k' - k) * 86400000000000 by ring, abs_mul, abs_of_pos (show (0 : ℚ) < 86400000000000 by norm_num),
        mul_div_cancel_right₀ _ (by norm_num)]
    simp only [hd]
  unfold BoxcarOk at h2
  simp only [hlim] at h2
  rw [hn, hc] at h2
  exact h2

/-! ## Concrete cases -/

/-- Julian dates rounded to `double` -/
def julday64 (s : ℤ) : ℚ := rnd64 (4881175 / 2 + s / 86400)

theorem julday64_err : JulianErr julday64 (1 / 2 ^ 31) := by
  intro s hs
  have h := rnd64_relErr.err (4881175 / 2 + s / 86400 : ℚ)
  have hs' : |(s : ℚ)| ≤ 9223372037 := by exact_mod_cast hs
  obtain ⟨h1, h2⟩ := abs_le.mp hs'
  refine h.trans ?_
  have : |(4881175 / 2 + s / 86400 : ℚ)| ≤ 2 ^ 22 := by
    rw [abs_le]
    constructor <;> norm_num <;> linarith
  calc 1 / 2 ^ 53 * |(4881175 / 2 + s / 86400 : ℚ)| ≤ 1 / 2 ^ 53 * 2 ^ 22 := mul_le_mul_of_nonneg_left this (by norm_num)
    _ = 1 / 2 ^ 31 := by norm_num

/-- time stamps at the given minutes of 2000-01-01 and later -/
def minute (m : ℤ) : ℤ := 946684800000000000 + m * 60000000000

/-- C112, negations. Two rows 8 h 24 min (0.35 days) apart, and a window of 0.7 days: the mean of both is 2, but each row is alone, because 0.7 is rounded to single precision. Two rows 1 day
and 0.9 seconds apart, and a window of 2 days: each should be alone, but the mean of both is given, because fractions of seconds are dropped. -/
theorem window_wrong :
    movingAverage rnd64 rnd32 julday64 [(minute 0, some 1), (minute 504, some 3)] (rnd64 (7 / 10)) false 1 = [some 1, some 3] ∧
    movingAverage id id (fun s => 4881175 / 2 + s / 86400) [(minute 0, some 1), (minute 504, some 3)] (7 / 10) false 1 = [some 2, some 2] ∧
    days (minute 504) (minute 0) = 7 / 10 / 2 ∧
    movingAverage rnd64 rnd32 julday64 [(minute 0, some 1), (minute 1440 + 900000000, some 3)] 2 false 1 = [some 2, some 2] ∧
    2 / 2 < days (minute 1440 + 900000000) (minute 0) := by decide +kernel

/-- data every six hours with a gap, windows of one day -/
example : ∃ used : ℤ → ℤ → Bool, used (minute 0) (minute 360) = true ∧ used (minute 0) (minute 720) = false ∨ used (minute 0) (minute 720) = true ∧
    (movingAverage rnd64 rnd32 julday64 [(minute 0, some 1), (minute 360, none), (minute 720, some 3)] 1 false 1).length = 3 := by
  obtain ⟨used, h1, h2, -⟩ := moving_average_partial rnd64_relErr rnd32_relErr (by norm_num) (by norm_num) Verif.Rolling.Fl.rnd64_mono rnd64_idem rnd64_neg julday64_err (by norm_num)
    [(minute 0, some 1), (minute 360, none), (minute 720, some 3)] (by decide +kernel) (by intro o ho; fin_cases ho <;> (unfold InRange; decide +kernel)) 1 (by norm_num) false 1
  refine ⟨used, ?_⟩
  cases h : used (minute 0) (minute 720) with
  | true => exact Or.inr ⟨rfl, h2⟩
  | false => exact Or.inl ⟨(h1 _ _ (by unfold InRange; decide +kernel) (by unfold InRange; decide +kernel)).1 (by decide +kernel), rfl⟩

theorem julday64_midnight (k : ℤ) (hk : |k| ≤ 110000) : julday64 (k * 86400) = 4881175 / 2 + k := by
  unfold julday64
  have e : (4881175 / 2 + ((k * 86400 : ℤ) : ℚ) / 86400 : ℚ) = ((4881175 + 2 * k : ℤ) : ℚ) / 2 := by
    push_cast
    ring
  have := abs_le.mp hk
  rw [e, rnd64_half _ (by rw [abs_lt]; constructor <;> omega)]
  push_cast
  ring

/-- three days, the second without a value, and a window of two days -/
example : ∃ out, (movingAverage rnd64 rnd32 julday64 [(10957 * 86400000000000, some 1), (10958 * 86400000000000, none), (10959 * 86400000000000, some 3)] (2 : ℕ) true 1)[1]? = some out ∧
    Smoothed (1 / 2 ^ 53) (fun t s => decide (days s t ≤ ((2 : ℕ) : ℚ) / 2)) true 1 [(10957 * 86400000000000, some 1), (10958 * 86400000000000, none), (10959 * 86400000000000, some 3)]
      (10958 * 86400000000000, none) out :=
  (moving_average_daily julday64_midnight _ (by decide +kernel) (by
    intro o ho
    fin_cases ho
    · exact ⟨10957, rfl, by decide⟩
    · exact ⟨10958, rfl, by decide⟩
    · exact ⟨10959, rfl, by decide⟩) 2 (by norm_num) true 1).2 1 _ rfl

example : movingAverage rnd64 rnd32 julday64 [(10957 * 86400000000000, some 1), (10958 * 86400000000000, none), (10959 * 86400000000000, some 3)] 2 true 1 = [some 1, some 2, some 3] := by
  decide +kernel

end Verif.Rounding.Moving
