import Verif.Rounding.MovingProps

/-!
C133: anomalies from a moving average in machine arithmetic (`src/pytesmo/time_series/anomaly.py:88-91`, as used by `AnomalyAdapter`).
-/

namespace Verif.Rounding.Moving

open Verif.Rolling.Fl (rnd64)

/-- `x - m` with NaN. Used for anomaly.py:91. -/
def minus (rnd : ℚ → ℚ) : Option ℚ → Option ℚ → Option ℚ
  | some x, some m => some (rnd (x - m))
  | _, _ => none

/-- anomaly.py:88-91 `calc_anomaly(Ser, window_size)` without climatology: `Ser - moving_average(Ser, window_size)`, NaN if one of them is.
The two series have the same index, so pandas subtracts row by row. -/
def anomaly (rnd rnd32 : ℚ → ℚ) (julday : ℤ → ℚ) (ser : List (ℤ × Option ℚ)) (windowSize : ℚ) : List (Option ℚ) :=
  List.zipWith (fun o r => minus rnd o.2 r) ser (movingAverage rnd rnd32 julday ser windowSize false 1)

/-- the anomaly of the row `o`: NaN if the row has no value (or the no-data value), otherwise the value minus the mean of the values in
the window, up to the rounding of the mean (relative to the mean magnitude of the values) and of the difference -/
def AnomalyOk (u : ℚ) (used : ℤ → ℤ → Bool) (ser : List (ℤ × Option ℚ)) (o : ℤ × Option ℚ) (out : Option ℚ) : Prop :=
  if o.2 = none ∨ o.2 = some (-999999) ∨ chosen used o.1 ser = [] then out = none
  else ∃ x a, o.2 = some x ∧ out = some a ∧ |a - (x - (chosen used o.1 ser).sum / (chosen used o.1 ser).length)| ≤
    u * |x - (chosen used o.1 ser).sum / (chosen used o.1 ser).length| +
      (1 + u) * ((1 + u) ^ ((chosen used o.1 ser).length + 1) - 1) * (((chosen used o.1 ser).map (fun v => |v|)).sum / (chosen used o.1 ser).length)

theorem anomaly_of_smoothed {rnd : ℚ → ℚ} {u : ℚ} (h : RelErr rnd u) (used : ℤ → ℤ → Bool) (ser : List (ℤ × Option ℚ)) (o : ℤ × Option ℚ)
    (m : Option ℚ) (hm : Smoothed u used false 1 ser o m) :
    AnomalyOk u used ser o (minus rnd o.2 m) := by
  have u0 := h.nonneg
  unfold Smoothed at hm
  unfold AnomalyOk
  set vs := chosen used o.1 ser with hvs
  by_cases hc : o.2 = none ∨ o.2 = some (-999999) ∨ vs = []
  · rw [if_pos hc]
    have hc' : ((o.2 = none ∨ o.2 = some (-999999)) ∧ false = false) ∨ ((vs.length : ℤ) < 1) ∨ vs = [] := by
      rcases hc with h | h | h
      · exact .inl ⟨.inl h, rfl⟩
      · exact .inl ⟨.inr h, rfl⟩
      · exact .inr (.inr h)
    rw [if_pos hc'] at hm
    rw [hm]
    cases o.2 <;> rfl
  · rw [if_neg hc]
    have hne : vs ≠ [] := fun hv => hc (.inr (.inr hv))
    have hlen : 1 ≤ vs.length := List.length_pos_of_ne_nil hne
    have hc' : ¬ (((o.2 = none ∨ o.2 = some (-999999)) ∧ false = false) ∨ ((vs.length : ℤ) < 1) ∨ vs = []) := by
      rintro (⟨h | h, -⟩ | h | h)
      · exact hc (.inl h)
      · exact hc (.inr (.inl h))
      · omega
      · exact hne h
    rw [if_neg hc'] at hm
    obtain ⟨r, hr, he⟩ := hm
    obtain ⟨x, hx⟩ : ∃ x, o.2 = some x := Option.ne_none_iff_exists'.1 (fun h => hc (.inl h))
    refine ⟨x, rnd (x - r), hx, by rw [hx, hr]; rfl, ?_⟩
    set μ := vs.sum / (vs.length : ℚ) with hμ
    set E := ((1 + u) ^ (vs.length + 1) - 1) * ((vs.map (fun v => |v|)).sum / (vs.length : ℚ)) with hE
    have h1 := h.err (x - r)
    have h2 : |x - r| ≤ |x - μ| + E := by
      have : x - r = (x - μ) - (r - μ) := by ring
      rw [this]
      exact (abs_sub _ _).trans (by linarith)
    have h3 : rnd (x - r) - (x - μ) = (rnd (x - r) - (x - r)) - (r - μ) := by ring
    rw [h3]
    refine (abs_sub _ _).trans ?_
    have h4 : u * |x - r| ≤ u * (|x - μ| + E) := mul_le_mul_of_nonneg_left h2 u0
    have h5 : (1 + u) * ((1 + u) ^ (vs.length + 1) - 1) * ((vs.map (fun v => |v|)).sum / (vs.length : ℚ)) = (1 + u) * E := by rw [hE]; ring
    rw [h5]
    linarith

theorem anomaly_row {rnd rnd32 : ℚ → ℚ} {julday : ℤ → ℚ} (ser : List (ℤ × Option ℚ)) (window : ℚ)
    (hl : (movingAverage rnd rnd32 julday ser window false 1).length = ser.length) :
    (anomaly rnd rnd32 julday ser window).length = ser.length ∧ ∀ (i : ℕ) (o : ℤ × Option ℚ) (m : Option ℚ), ser[i]? = some o →
      (movingAverage rnd rnd32 julday ser window false 1)[i]? = some m →
      (anomaly rnd rnd32 julday ser window)[i]? = some (minus rnd o.2 m) := by
  unfold anomaly
  refine ⟨by rw [List.length_zipWith, hl, Nat.min_self], fun i o m ho hm => ?_⟩
  rw [List.getElem?_zipWith, ho, hm]

/-- **C133 (any time stamps).** Every row of a sorted series has an anomaly within rounding of the value minus the mean of a set of rows
that contains all rows inside of the window and none outside of it, up to a second, the error of the Julian dates and the rounding of the
window to single precision. -/
theorem anomaly_accuracy {rnd rnd32 : ℚ → ℚ} {u v ε : ℚ} (h : RelErr rnd u) (h32 : RelErr rnd32 v) (huv : u ≤ v) (hv : v ≤ 1 / 100)
    (hm : ∀ x y, x ≤ y → rnd x ≤ rnd y) (hi : ∀ x, rnd (rnd x) = rnd x) (hodd : ∀ x, rnd (-x) = -rnd x) {julday : ℤ → ℚ} (hj : JulianErr julday ε) (hε : ε ≤ 1 / 200000)
    (ser : List (ℤ × Option ℚ)) (hs : ser.Pairwise (fun a b => a.1 ≤ b.1)) (hr : ∀ o ∈ ser, InRange o.1) (window : ℚ) (hw : 0 ≤ window) :
    ∃ used : ℤ → ℤ → Bool,
      (∀ t s, InRange t → InRange s → (days s t + (1 / 86400 + 2 * ε + 2 * v * window) ≤ window / 2 → used t s = true) ∧
        (used t s = true → days s t ≤ window / 2 + (1 / 86400 + 2 * ε + 4 * v * window))) ∧
      (anomaly rnd rnd32 julday ser window).length = ser.length ∧
      ∀ (i : ℕ) (o : ℤ × Option ℚ), ser[i]? = some o → ∃ a, (anomaly rnd rnd32 julday ser window)[i]? = some a ∧ AnomalyOk u used ser o a := by
  obtain ⟨used, h1, h2, h3⟩ := moving_average_partial h h32 huv hv hm hi hodd hj hε ser hs hr window hw false 1
  obtain ⟨r1, r2⟩ := anomaly_row ser window h2
  refine ⟨used, h1, r1, fun i o ho => ?_⟩
  obtain ⟨m, e1, e2⟩ := h3 i o ho
  exact ⟨_, r2 i o m ho e1, anomaly_of_smoothed h used ser o m e2⟩

/-- **C133 (daily data).** For data at midnight and windows of whole days the rows are exactly those inside of the window, its edges
included, and a row has an anomaly exactly if it has a value (other than -999999). -/
theorem anomaly_daily {julday : ℤ → ℚ} (hj : ∀ k : ℤ, |k| ≤ 110000 → julday (k * 86400) = 4881175 / 2 + k)
    (ser : List (ℤ × Option ℚ)) (hs : ser.Pairwise (fun a b => a.1 ≤ b.1)) (hr : ∀ o ∈ ser, Midnight o.1) (window : ℕ) (hw : window < 2 ^ 24) :
    (anomaly rnd64 rnd32 julday ser window).length = ser.length ∧
      ∀ (i : ℕ) (o : ℤ × Option ℚ), ser[i]? = some o → ∃ a, (anomaly rnd64 rnd32 julday ser window)[i]? = some a ∧
        AnomalyOk (1 / 2 ^ 53) (fun t s => decide (days s t ≤ (window : ℚ) / 2)) ser o a ∧
        (a = none ↔ o.2 = none ∨ o.2 = some (-999999)) := by
  obtain ⟨h2, h3⟩ := moving_average_daily hj ser hs hr window hw false 1
  obtain ⟨r1, r2⟩ := anomaly_row ser (window : ℚ) h2
  refine ⟨r1, fun i o ho => ?_⟩
  obtain ⟨m, e1, e2⟩ := h3 i o ho
  have hok := anomaly_of_smoothed rnd64_relErr (fun t s => decide (days s t ≤ (window : ℚ) / 2)) ser o m e2
  refine ⟨_, r2 i o m ho e1, hok, ?_⟩
  unfold AnomalyOk at hok
  by_cases hc : o.2 = none ∨ o.2 = some (-999999)
  · have hc' : o.2 = none ∨ o.2 = some (-999999) ∨ chosen (fun t s => decide (days s t ≤ (window : ℚ) / 2)) o.1 ser = [] := by tauto
    rw [if_pos hc'] at hok
    exact iff_of_true hok hc
  · have hne : chosen (fun t s => decide (days s t ≤ (window : ℚ) / 2)) o.1 ser ≠ [] := by
      obtain ⟨x, hx⟩ : ∃ x, o.2 = some x := Option.ne_none_iff_exists'.1 (fun h => hc (.inl h))
      have hx2 : x ≠ -999999 := by rintro rfl; exact hc (.inr hx)
      have hmem : x ∈ chosen (fun t s => decide (days s t ≤ (window : ℚ) / 2)) o.1 ser := by
        unfold chosen
        rw [List.mem_filterMap]
        refine ⟨o, List.mem_of_getElem? ho, ?_⟩
        have : days o.1 o.1 ≤ (window : ℚ) / 2 := by
          unfold days
          rw [sub_self, abs_zero, zero_div]
          positivity
        simp [hx, hx2, this]
      exact List.ne_nil_of_mem hmem
    have hc' : ¬ (o.2 = none ∨ o.2 = some (-999999) ∨ chosen (fun t s => decide (days s t ≤ (window : ℚ) / 2)) o.1 ser = []) := by tauto
    rw [if_neg hc'] at hok
    obtain ⟨x, a, -, ha, -⟩ := hok
    rw [ha]
    exact iff_of_false (by simp) hc

/-- **C133, negation.** The anomalies of a constant series are not zero: three days of 0.1 have the anomaly -2^-56. -/
theorem anomaly_constant_wrong :
    anomaly rnd64 rnd32 julday64 [(10957 * 86400000000000, some (rnd64 (1 / 10))), (10958 * 86400000000000, some (rnd64 (1 / 10))),
      (10959 * 86400000000000, some (rnd64 (1 / 10)))] 35 = [some (-1 / 2 ^ 56), some (-1 / 2 ^ 56), some (-1 / 2 ^ 56)] := by
  decide +kernel

/-- three days, the second without a value, and a window of four days -/
example : anomaly rnd64 rnd32 julday64 [(10957 * 86400000000000, some 1), (10958 * 86400000000000, none), (10959 * 86400000000000, some 3)] 4 =
    [some (-1), none, some 1] := by decide +kernel

example := (anomaly_daily julday64_midnight [(10957 * 86400000000000, some 1), (10958 * 86400000000000, none), (10959 * 86400000000000, some 3)]
  (by decide +kernel) (by
    intro o ho
    fin_cases ho
    · exact ⟨10957, rfl, by decide⟩
    · exact ⟨10958, rfl, by decide⟩
    · exact ⟨10959, rfl, by decide⟩) 4 (by norm_num)).2 0 _ rfl

/-- data every six hours with a gap, window of one day -/
example := anomaly_accuracy rnd64_relErr rnd32_relErr (by norm_num) (by norm_num) Verif.Rolling.Fl.rnd64_mono rnd64_idem rnd64_neg julday64_err (by norm_num)
    [(minute 0, some 1), (minute 360, none), (minute 720, some 3)] (by decide +kernel) (by intro o ho; fin_cases ho <;> (unfold InRange; decide +kernel)) 1 (by norm_num)

end Verif.Rounding.Moving
