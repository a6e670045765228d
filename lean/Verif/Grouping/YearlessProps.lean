import Mathlib.Tactic.IntervalCases
import Mathlib.Tactic.Linarith
import Verif.Grouping.Yearless
import Verif.Grouping.Months

/-! C117: `YearlessDatetime` objects. -/

namespace Verif.Grouping

open Climatology (isLeap monthLength dayOfYear)

/-- a `doy` that meets `CountsDays`, for the examples -/
def exDoy (m d : ℤ) : Except Err ℤ := .ok (dayOfYear true m.toNat d.toNat : ℕ)

theorem exDoy_counts : CountsDays exDoy := by
  intro m d _ _ _ _
  simp [exDoy]

/-! ### Auxiliary -/

theorem pyMonthLen_eq (y m : ℤ) : pyMonthLen y m = (monthLength (isLeap y.toNat) m.toNat : ℕ) := rfl

theorem pyLeap_eq (y : ℤ) (h : 0 ≤ y) : pyLeap y = isLeap y.toNat := by
  obtain ⟨n, rfl⟩ := Int.eq_ofNat_of_zero_le h
  have e : ∀ k : ℕ, (((n : ℤ) % (k : ℤ) == 0) = (n % k == 0)) := by
    intro k
    rw [Bool.eq_iff_iff, beq_iff_eq, beq_iff_eq]
    norm_cast
  have e4 := e 4
  have e100 := e 100
  have e400 := e 400
  simp only [Nat.cast_ofNat] at e4 e100 e400
  simp only [pyLeap, isLeap, Int.ofNat_eq_natCast, Int.toNat_natCast, bne, e4, e100, e400]

theorem mkDatetime_ok {y mo d h mi s : ℤ} (hy : 1 ≤ y ∧ y ≤ 9999) (hm : 1 ≤ mo ∧ mo ≤ 12) (hd : 1 ≤ d ∧ d ≤ pyMonthLen y mo)
    (hh : 0 ≤ h ∧ h ≤ 23) (hmi : 0 ≤ mi ∧ mi ≤ 59) (hs : 0 ≤ s ∧ s ≤ 59) :
    mkDatetime y mo d h mi s = .ok ⟨y, mo, d, h, mi, s, 0⟩ := by
  simp only [mkDatetime, hy, hm, hd, hh, hmi, hs, and_self, not_true_eq_false, if_false]

theorem mkDatetime_cases (y mo d h mi s : ℤ) :
    ((1 ≤ y ∧ y ≤ 9999) ∧ (1 ≤ mo ∧ mo ≤ 12) ∧ (1 ≤ d ∧ d ≤ pyMonthLen y mo) ∧ (0 ≤ h ∧ h ≤ 23) ∧ (0 ≤ mi ∧ mi ≤ 59) ∧
      (0 ≤ s ∧ s ≤ 59) ∧ mkDatetime y mo d h mi s = .ok ⟨y, mo, d, h, mi, s, 0⟩) ∨
    (¬ ((1 ≤ y ∧ y ≤ 9999) ∧ (1 ≤ mo ∧ mo ≤ 12) ∧ (1 ≤ d ∧ d ≤ pyMonthLen y mo) ∧ (0 ≤ h ∧ h ≤ 23) ∧ (0 ≤ mi ∧ mi ≤ 59) ∧
      (0 ≤ s ∧ s ≤ 59)) ∧ mkDatetime y mo d h mi s = .error .valueError) := by
  unfold mkDatetime
  split
  · right; exact ⟨fun k => absurd k.1 (by assumption), rfl⟩
  split
  · right; exact ⟨fun k => absurd k.2.1 (by assumption), rfl⟩
  split
  · right; exact ⟨fun k => absurd k.2.2.1 (by assumption), rfl⟩
  split
  · right; exact ⟨fun k => absurd k.2.2.2.1 (by assumption), rfl⟩
  split
  · right; exact ⟨fun k => absurd k.2.2.2.2.1 (by assumption), rfl⟩
  split
  · right; exact ⟨fun k => absurd k.2.2.2.2.2 (by assumption), rfl⟩
  · left; simp_all

theorem leapYear_leap : pyLeap leapYear = true := by decide

theorem skip_leapYear (doy : ℤ → ℤ → Except Err ℤ) (p : Yearless) : skipYear doy p leapYear = .ok false := by
  rw [skipYear, if_pos leapYear_leap]

theorem toDatetime_leapYear (doy : ℤ → ℤ → Except Err ℤ) (p : Yearless) :
    (p.exists ∧ p.toDatetime doy [leapYear] = .ok (.one ⟨2400, p.month, p.day, p.hour, p.minute, p.second, 0⟩)) ∨
    (¬ p.exists ∧ p.toDatetime doy [leapYear] = .error .valueError) := by
  have hl : isLeap (leapYear).toNat = true := by decide
  rcases mkDatetime_cases leapYear p.month p.day p.hour p.minute p.second with ⟨_, h1, h2, h3, h4, h5, he⟩ | ⟨hn, he⟩
  · left
    rw [pyMonthLen_eq, hl] at h2
    refine ⟨⟨h1.1, h1.2, h2.1, h2.2, h3.1, h3.2, h4.1, h4.2, h5⟩, ?_⟩
    simp only [Yearless.toDatetime, toDatetimeLoop, bind, Except.bind, skip_leapYear, he, Bool.false_eq_true, if_false, packDts]
    rfl
  · right
    rw [pyMonthLen_eq, hl] at hn
    refine ⟨fun k => hn ⟨by decide, ⟨k.1, k.2.1⟩, ⟨k.2.2.1, k.2.2.2.1⟩, ⟨k.2.2.2.2.1, k.2.2.2.2.2.1⟩,
      ⟨k.2.2.2.2.2.2.1, k.2.2.2.2.2.2.2.1⟩, k.2.2.2.2.2.2.2.2⟩, ?_⟩
    simp only [Yearless.toDatetime, toDatetimeLoop, bind, Except.bind, skip_leapYear, he, Bool.false_eq_true, if_false]

theorem eq_iff_secs (a b : Yearless) (ha : a.exists) (hb : b.exists) : a = b ↔ a.month = b.month ∧ a.secs = b.secs := by
  constructor
  · rintro rfl
    exact ⟨rfl, rfl⟩
  · rintro ⟨h1, h2⟩
    obtain ⟨_, _, _, _, a1, a2, a3, a4, a5, a6⟩ := ha
    obtain ⟨_, _, _, _, b1, b2, b3, b4, b5, b6⟩ := hb
    rcases a with ⟨m, d, h, mi, s⟩
    rcases b with ⟨m', d', h', mi', s'⟩
    simp only [Yearless.secs] at *
    have e1 : s = s' := by omega
    have e2 : mi = mi' := by omega
    have e3 : h = h' := by omega
    have e4 : d = d' := by omega
    rw [h1, e1, e2, e3, e4]

theorem lexLt_cons (a b : ℤ) (l : List (ℤ × ℤ)) : lexLt ((a, b) :: l) = true ↔ a < b ∨ (a = b ∧ lexLt l = true) := by
  rw [lexLt]
  split_ifs with h1 h2
  · simp [h1]
  · simp; omega
  · have : a = b := by omega
    simp [this]

theorem lexLt_iff (a b : Yearless) (ha : a.exists) (hb : b.exists) :
    Datetime.lt ⟨2400, a.month, a.day, a.hour, a.minute, a.second, 0⟩ ⟨2400, b.month, b.day, b.hour, b.minute, b.second, 0⟩ = true ↔
      a.before b := by
  obtain ⟨_, _, _, _, a1, a2, a3, a4, a5, a6⟩ := ha
  obtain ⟨_, _, _, _, b1, b2, b3, b4, b5, b6⟩ := hb
  have h0 : lexLt [] = true ↔ False := by simp [lexLt]
  simp only [Datetime.lt, lexLt_cons, h0, Yearless.before, Yearless.secs, lt_irrefl, false_or, true_and, and_false, or_false]
  omega

/-! ### Order -/

/-- **C117.** For dates of a leap year the four comparisons answer, and say which one is earlier in the year. -/
theorem yearless_compare (doy : ℤ → ℤ → Except Err ℤ) (a b : Yearless) (ha : a.exists) (hb : b.exists) :
    ∃ lt gt le ge : Bool, a.lt doy b = .ok lt ∧ a.gt doy b = .ok gt ∧ a.le doy b = .ok le ∧ a.ge doy b = .ok ge ∧
      (lt = true ↔ a.before b) ∧ (gt = true ↔ b.before a) ∧ (le = true ↔ a.before b ∨ a = b) ∧ (ge = true ↔ b.before a ∨ a = b) := by
  have tri : ∀ p q : Yearless, p.exists → q.exists → (¬ q.before p ↔ p.before q ∨ p = q) := by
    intro p q hp hq
    rw [eq_iff_secs p q hp hq]
    unfold Yearless.before
    omega
  rcases toDatetime_leapYear doy a with ⟨_, hx⟩ | ⟨h, _⟩
  swap; · exact absurd ha h
  rcases toDatetime_leapYear doy b with ⟨_, hy⟩ | ⟨h, _⟩
  swap; · exact absurd hb h
  refine ⟨_, _,
    !(Datetime.lt ⟨2400, b.month, b.day, b.hour, b.minute, b.second, 0⟩ ⟨2400, a.month, a.day, a.hour, a.minute, a.second, 0⟩),
    !(Datetime.lt ⟨2400, a.month, a.day, a.hour, a.minute, a.second, 0⟩ ⟨2400, b.month, b.day, b.hour, b.minute, b.second, 0⟩),
    ?_, ?_, ?_, ?_, lexLt_iff a b ha hb, lexLt_iff b a hb ha, ?_, ?_⟩
  · simp only [Yearless.lt, bind, Except.bind, hx, hy, cmpDts]
  · simp only [Yearless.gt, bind, Except.bind, hx, hy, cmpDts]
  · simp only [Yearless.le, bind, Except.bind, hx, hy, cmpDts]
  · simp only [Yearless.ge, bind, Except.bind, hx, hy, cmpDts]
  · rw [Bool.not_eq_true', ← Bool.not_eq_true, lexLt_iff b a hb ha]
    exact tri a b ha hb
  · rw [Bool.not_eq_true', ← Bool.not_eq_true, lexLt_iff a b ha hb, tri b a hb ha]
    constructor
    · rintro (h | h)
      · exact .inl h
      · exact .inr h.symm
    · rintro (h | h)
      · exact .inl h
      · exact .inr h.symm

/-- **C117.** The order is total and fits the equality: of two dates of a leap year exactly one is earlier, or they are equal. -/
theorem yearless_trichotomy (doy : ℤ → ℤ → Except Err ℤ) (a b : Yearless) (ha : a.exists) (hb : b.exists) :
    (a.lt doy b = .ok true ∧ a.eq b = false ∧ b.lt doy a = .ok false) ∨
    (a.lt doy b = .ok false ∧ a.eq b = true ∧ b.lt doy a = .ok false) ∨
    (a.lt doy b = .ok false ∧ a.eq b = false ∧ b.lt doy a = .ok true) := by
  obtain ⟨l, g, _, _, h1, _, _, _, i1, _, _, _⟩ := yearless_compare doy a b ha hb
  obtain ⟨l', g', _, _, h1', _, _, _, i1', _, _, _⟩ := yearless_compare doy b a hb ha
  have he : a.eq b = true ↔ a = b := by
    rcases a with ⟨m, d, h, mi, s⟩
    rcases b with ⟨m', d', h', mi', s'⟩
    simp only [Yearless.eq, Bool.and_eq_true, decide_eq_true_eq, Yearless.mk.injEq, and_assoc]
  have t : (a.before b ∧ a ≠ b ∧ ¬ b.before a) ∨ (¬ a.before b ∧ a = b ∧ ¬ b.before a) ∨ (¬ a.before b ∧ a ≠ b ∧ b.before a) := by
    rw [Ne, eq_iff_secs a b ha hb]
    unfold Yearless.before
    omega
  rw [h1, h1']
  rcases t with ⟨t1, t2, t3⟩ | ⟨t1, t2, t3⟩ | ⟨t1, t2, t3⟩
  · left
    refine ⟨by rw [i1.2 t1], by rw [← Bool.not_eq_true, he]; exact t2, ?_⟩
    rw [Bool.eq_false_iff.2 (fun k => t3 (i1'.1 k))]
  · right; left
    refine ⟨?_, he.2 t2, ?_⟩
    · rw [Bool.eq_false_iff.2 (fun k => t1 (i1.1 k))]
    · rw [Bool.eq_false_iff.2 (fun k => t3 (i1'.1 k))]
  · right; right
    refine ⟨?_, by rw [← Bool.not_eq_true, he]; exact t2, by rw [i1'.2 t3]⟩
    rw [Bool.eq_false_iff.2 (fun k => t1 (i1.1 k))]

/-- **C117.** The order is transitive. -/
theorem yearless_trans (doy : ℤ → ℤ → Except Err ℤ) (a b c : Yearless) (h1 : a.le doy b = .ok true) (h2 : b.le doy c = .ok true) :
    a.le doy c = .ok true := by
  have ex : ∀ p q : Yearless, p.le doy q = .ok true → p.exists ∧ q.exists := by
    intro p q h
    rcases toDatetime_leapYear doy p with ⟨hp, hx⟩ | ⟨_, hx⟩
    swap; · simp [Yearless.le, bind, Except.bind, hx] at h
    rcases toDatetime_leapYear doy q with ⟨hq, hy⟩ | ⟨_, hy⟩
    swap; · simp [Yearless.le, bind, Except.bind, hx, hy] at h
    exact ⟨hp, hq⟩
  obtain ⟨ha, hb⟩ := ex a b h1
  obtain ⟨_, hc⟩ := ex b c h2
  obtain ⟨_, _, x, _, _, _, e1, _, _, _, i1, _⟩ := yearless_compare doy a b ha hb
  obtain ⟨_, _, y, _, _, _, e2, _, _, _, i2, _⟩ := yearless_compare doy b c hb hc
  obtain ⟨_, _, z, _, _, _, e3, _, _, _, i3, _⟩ := yearless_compare doy a c ha hc
  rw [e1] at h1
  rw [e2] at h2
  rw [e3]
  have k1 := i1.1 (by simpa using h1)
  have k2 := i2.1 (by simpa using h2)
  have k3 : a.before c ∨ a = c := by
    rcases k1 with k1 | rfl
    · rcases k2 with k2 | rfl
      · left
        unfold Yearless.before at *
        omega
      · exact .inl k1
    · exact k2
  rw [i3.2 k3]

/-- **C117.** A date that no year has is refused by every comparison, on either side (it can be constructed). -/
theorem yearless_invalid (doy : ℤ → ℤ → Except Err ℤ) (a b : Yearless) (h : ¬ a.exists ∨ ¬ b.exists) :
    a.lt doy b = .error .valueError ∧ a.gt doy b = .error .valueError ∧ a.le doy b = .error .valueError ∧
      a.ge doy b = .error .valueError := by
  rcases toDatetime_leapYear doy a with ⟨ha, hx⟩ | ⟨_, hx⟩
  · rcases toDatetime_leapYear doy b with ⟨hb, _⟩ | ⟨_, hy⟩
    · tauto
    · simp [Yearless.lt, Yearless.gt, Yearless.le, Yearless.ge, bind, Except.bind, hx, hy]
  · simp [Yearless.lt, Yearless.gt, Yearless.le, Yearless.ge, bind, Except.bind, hx]

/-! ### Conversion -/

theorem doy_sixty (doy : ℤ → ℤ → Except Err ℤ) (hdoy : CountsDays doy) (p : Yearless) (hp : p.exists) :
    ∃ n, doy p.month p.day = .ok n ∧ (n = 60 ↔ p.isLeapDay) := by
  obtain ⟨h1, h2, h3, h4, _⟩ := hp
  rcases p with ⟨m, d, h, mi, s⟩
  simp only at *
  obtain ⟨m, rfl⟩ := Int.eq_ofNat_of_zero_le (show 0 ≤ m by omega)
  obtain ⟨d, rfl⟩ := Int.eq_ofNat_of_zero_le (show 0 ≤ d by omega)
  have e := hdoy m d (by omega) (by omega) (by omega) (by simpa using h4)
  refine ⟨_, e, ?_⟩
  have hm1 : 1 ≤ m := by omega
  have hm2 : m ≤ 12 := by omega
  simp only [Int.toNat_natCast, Nat.cast_le] at h4
  simp only [Yearless.isLeapDay]
  interval_cases m <;> simp [dayOfYear, monthLength, List.range_succ] at h4 ⊢ <;> omega

/-- **C117.** In the years 1 to 9999, `to_datetime` finds the date in every year that has it: in all years, but 29 February in leap years
only. What it returns depends on how many these are. -/
theorem yearless_to_datetime_partial (doy : ℤ → ℤ → Except Err ℤ) (hdoy : CountsDays doy) (p : Yearless) (hp : p.exists) (years : List ℤ)
    (hy : ∀ y ∈ years, 1 ≤ y ∧ y ≤ 9999) :
    ∃ l : List Datetime, toDatetimeLoop doy p years = .ok l ∧ p.toDatetime doy years = .ok (packDts l) ∧
      l.map Datetime.year = years.filter (fun y => !(decide p.isLeapDay) || isLeap y.toNat) ∧
      (∀ t ∈ l, t.exists ∧ t.micro = 0 ∧ Yearless.fromDatetime t = p) := by
  suffices h : ∃ l : List Datetime, toDatetimeLoop doy p years = .ok l ∧
      l.map Datetime.year = years.filter (fun y => !(decide p.isLeapDay) || isLeap y.toNat) ∧
      (∀ t ∈ l, t.exists ∧ t.micro = 0 ∧ Yearless.fromDatetime t = p) by
    obtain ⟨l, e, r⟩ := h
    exact ⟨l, e, by simp only [Yearless.toDatetime, e, bind, Except.bind], r⟩
  induction years with
  | nil => exact ⟨[], rfl, rfl, by simp⟩
  | cons y ys ih =>
    obtain ⟨l, e, e2, e3⟩ := ih (fun z hz => hy z (by simp [hz]))
    obtain ⟨n, hn, hn60⟩ := doy_sixty doy hdoy p hp
    obtain ⟨hy1, hy2⟩ := hy y (by simp)
    have hpl := pyLeap_eq y (by omega)
    obtain ⟨h1, h2, h3, h4, h5, h6, h7, h8, h9, h10⟩ := hp
    by_cases hk : p.isLeapDay → isLeap y.toNat = true
    · have hlen : p.day ≤ pyMonthLen y p.month := by
        rw [pyMonthLen_eq]
        by_cases hl : isLeap y.toNat = true
        · rw [hl]; exact h4
        · have hnl : ¬ p.isLeapDay := fun k => hl (hk k)
          rw [Bool.not_eq_true] at hl
          rw [hl]
          by_cases hm : p.month = 2
          · have h29 : p.day ≠ 29 := fun k => hnl ⟨hm, k⟩
            simp only [hm, monthLength, Int.reduceToNat, if_true, Bool.false_eq_true, if_false] at h4 ⊢
            omega
          · have : p.month.toNat ≠ 2 := by omega
            simpa only [monthLength, this, if_false] using h4
      have hmk := mkDatetime_ok ⟨hy1, hy2⟩ ⟨h1, h2⟩ ⟨h3, hlen⟩ ⟨h5, h6⟩ ⟨h7, h8⟩ ⟨h9, h10⟩
      have hskip : skipYear doy p y = .ok false := by
        unfold skipYear
        by_cases hl : pyLeap y = true
        · rw [if_pos hl]
        · rw [if_neg hl]
          have hnl : ¬ n = 60 := fun k => hl (hpl ▸ hk (hn60.1 k))
          simp only [bind, Except.bind, hn, hnl, decide_false]
      refine ⟨⟨y, p.month, p.day, p.hour, p.minute, p.second, 0⟩ :: l, ?_, ?_, ?_⟩
      · rw [toDatetimeLoop, hskip]
        simp only [bind, Except.bind, hmk, e, Bool.false_eq_true, if_false]
      · rw [List.map_cons, e2, List.filter_cons_of_pos (by simpa [imp_iff_not_or] using hk)]
      · intro t ht
        rcases List.mem_cons.1 ht with rfl | ht
        · rw [pyMonthLen_eq] at hlen
          exact ⟨⟨hy1, hy2, h1, h2, h3, hlen, h5, h6, h7, h8, h9, h10, by simp, by simp⟩, rfl, rfl⟩
        · exact e3 t ht
    · have hk' := Classical.not_imp.1 hk
      have hskip : skipYear doy p y = .ok true := by
        unfold skipYear
        rw [hpl, if_neg hk'.2]
        simp only [bind, Except.bind, hn, hn60.2 hk'.1, decide_true]
      refine ⟨l, ?_, ?_, e3⟩
      · rw [toDatetimeLoop, hskip]
        simp only [bind, Except.bind, if_true]
        exact e
      · rw [e2, List.filter_cons_of_neg (by simpa using hk')]

/-- **C117.** In one year: the date with that year, or nothing for 29 February of an ordinary year. -/
theorem yearless_one_year (doy : ℤ → ℤ → Except Err ℤ) (hdoy : CountsDays doy) (p : Yearless) (hp : p.exists) (y : ℤ)
    (hy : 1 ≤ y ∧ y ≤ 9999) :
    (p.isLeapDay ∧ isLeap y.toNat = false ∧ p.toDatetime doy [y] = .ok .none) ∨
    ((p.isLeapDay → isLeap y.toNat = true) ∧ p.toDatetime doy [y] = .ok (.one ⟨y, p.month, p.day, p.hour, p.minute, p.second, 0⟩)) := by
  obtain ⟨l, _, e, e2, e3⟩ := yearless_to_datetime_partial doy hdoy p hp [y] (by simpa using hy)
  by_cases hk : p.isLeapDay ∧ isLeap y.toNat = false
  · left
    have : l = [] := by
      rw [← List.map_eq_nil_iff (f := Datetime.year), e2]
      simp [hk.1, hk.2]
    exact ⟨hk.1, hk.2, by rw [e, this]; rfl⟩
  · right
    have hk' : p.isLeapDay → isLeap y.toNat = true := fun h => by
      by_contra h'
      exact hk ⟨h, by simpa using h'⟩
    have hm : l.map Datetime.year = [y] := by
      rw [e2, List.filter_cons_of_pos (by simpa [imp_iff_not_or] using hk')]
      rfl
    obtain ⟨t, rfl, ht⟩ : ∃ t, l = [t] ∧ t.year = y := by
      match l, hm with
      | [t], hm => exact ⟨t, rfl, by simpa using hm⟩
    obtain ⟨_, h0, hf⟩ := e3 t (by simp)
    refine ⟨hk', ?_⟩
    rw [e]
    rcases t with ⟨ty, tm, td, th, tmi, ts, tu⟩
    simp only [Yearless.fromDatetime] at *
    subst hf ht h0
    rfl

/-- **C117.** There and back: dropping the year of an existing time without fractions of a second and putting it back changes nothing. -/
theorem from_to_datetime (doy : ℤ → ℤ → Except Err ℤ) (hdoy : CountsDays doy) (t : Datetime) (ht : t.exists) :
    (Yearless.fromDatetime t).exists ∧
      (Yearless.fromDatetime t).toDatetime doy [t.year] = .ok (.one { t with micro := 0 }) := by
  obtain ⟨h1, h2, h3, h4, h5, h6, h7, h8, h9, h10, h11, h12, _, _⟩ := ht
  have hle : monthLength (isLeap t.year.toNat) t.month.toNat ≤ monthLength true t.month.toNat := by
    unfold monthLength
    cases isLeap t.year.toNat <;> split_ifs <;> simp_all
  have hp : (Yearless.fromDatetime t).exists :=
    ⟨h3, h4, h5, le_trans h6 (by exact_mod_cast hle), h7, h8, h9, h10, h11, h12⟩
  refine ⟨hp, ?_⟩
  rcases yearless_one_year doy hdoy _ hp t.year ⟨h1, h2⟩ with ⟨⟨a, b⟩, c, _⟩ | ⟨_, e⟩
  · exfalso
    simp only [Yearless.fromDatetime] at a b
    rw [a, b, c] at h6
    simp [monthLength] at h6
  · exact e

/-- **C117, negation.** Fractions of a second are lost. -/
theorem fraction_lost (doy : ℤ → ℤ → Except Err ℤ) (hdoy : CountsDays doy) (t : Datetime) (ht : t.exists) (hf : t.micro ≠ 0) :
    (Yearless.fromDatetime t).toDatetime doy [t.year] ≠ .ok (.one t) := by
  rw [(from_to_datetime doy hdoy t ht).2]
  intro h
  have : { t with micro := 0 } = t := by simpa using h
  exact hf (by rw [← this])

/-- **C117, negation.** Asked for several years, the method does not always return a list: for 29 February and years of which one is a leap
year it returns a single `datetime`, and `None` if none is. -/
theorem not_always_list (doy : ℤ → ℤ → Except Err ℤ) (hdoy : CountsDays doy) (p : Yearless) (hp : p.exists) (hl : p.isLeapDay)
    (years : List ℤ) (hy : ∀ y ∈ years, 1 ≤ y ∧ y ≤ 9999) :
    (years.countP (fun y => isLeap y.toNat) = 0 → p.toDatetime doy years = .ok .none) ∧
      (years.countP (fun y => isLeap y.toNat) = 1 → ∃ t, p.toDatetime doy years = .ok (.one t)) ∧
      (1 < years.countP (fun y => isLeap y.toNat) → ∃ l, p.toDatetime doy years = .ok (.many l)) := by
  obtain ⟨l, _, e, e2, _⟩ := yearless_to_datetime_partial doy hdoy p hp years hy
  have hlen : l.length = years.countP (fun y => isLeap y.toNat) := by
    rw [← List.length_map (f := Datetime.year), e2, List.countP_eq_length_filter]
    simp [hl]
  rw [← hlen, e]
  match l with
  | [] => exact ⟨fun _ => rfl, by simp, by simp⟩
  | [t] => exact ⟨by simp, fun _ => ⟨t, rfl⟩, by simp⟩
  | a :: b :: r => exact ⟨by simp, by simp, fun _ => ⟨_, rfl⟩⟩

/-- **C117.** A date that no year has is refused in leap years; a year before 1 or after 9999 is refused for every date but 29 February. -/
theorem to_datetime_refused (doy : ℤ → ℤ → Except Err ℤ) (hdoy : CountsDays doy) (p : Yearless) (y : ℤ) :
    (¬ p.exists → pyLeap y = true → p.toDatetime doy [y] = .error .valueError) ∧
      (p.exists → ¬ p.isLeapDay → ¬ (1 ≤ y ∧ y ≤ 9999) → p.toDatetime doy [y] = .error .valueError) := by
  constructor
  · intro hp hl
    have hs : skipYear doy p y = .ok false := by rw [skipYear, if_pos hl]
    rcases mkDatetime_cases y p.month p.day p.hour p.minute p.second with ⟨h0, h1, h2, h3, h4, h5, _⟩ | ⟨_, he⟩
    · exfalso
      rw [pyMonthLen_eq, ← pyLeap_eq y (by omega), hl] at h2
      exact hp ⟨h1.1, h1.2, h2.1, h2.2, h3.1, h3.2, h4.1, h4.2, h5⟩
    · simp only [Yearless.toDatetime, toDatetimeLoop, bind, Except.bind, hs, he, Bool.false_eq_true, if_false]
  · intro hp hl hy
    obtain ⟨n, hn, h60⟩ := doy_sixty doy hdoy p hp
    have hs : skipYear doy p y = .ok false := by
      unfold skipYear
      by_cases h : pyLeap y = true
      · rw [if_pos h]
      · rw [if_neg h]
        have : ¬ n = 60 := fun k => hl (h60.1 k)
        simp only [bind, Except.bind, hn, this, decide_false]
    rcases mkDatetime_cases y p.month p.day p.hour p.minute p.second with ⟨h0, _⟩ | ⟨_, he⟩
    · exact absurd h0 hy
    · simp only [Yearless.toDatetime, toDatetimeLoop, bind, Except.bind, hs, he, Bool.false_eq_true, if_false]

/-! ### The positions used by `TsDistributor` -/

/-- the position in the year of `Verif.Grouping.Model` -/
def Yearless.pos (p : Yearless) : Pos :=
  ⟨p.month.toNat, p.day.toNat, ((p.hour * 60 + p.minute) * 60 + p.second).toNat * 1000000000⟩

/-- **C117.** The comparisons of the objects are those of the positions in the model of `TsDistributor`. -/
theorem yearless_key (doy : ℤ → ℤ → Except Err ℤ) (a b : Yearless) (ha : a.exists) (hb : b.exists) :
    a.lt doy b = .ok (decide (a.pos.key < b.pos.key)) := by
  obtain ⟨l, _, _, _, h, _, _, _, i, _⟩ := yearless_compare doy a b ha hb
  rw [h]
  congr 1
  rw [Bool.eq_iff_iff, i, decide_eq_true_eq]
  obtain ⟨m1, m2, d1, d2, a1, a2, a3, a4, a5, a6⟩ := ha
  obtain ⟨m1', m2', d1', d2', b1, b2, b3, b4, b5, b6⟩ := hb
  have len : ∀ m, monthLength true m ≤ 31 := by
    intro m
    unfold monthLength
    split_ifs <;> omega
  have la := len a.month.toNat
  have lb := len b.month.toNat
  simp only [Yearless.before, Yearless.secs, Yearless.pos, Pos.key, dayNs]
  omega

/-! ### Text -/

theorem fmt02_two (n : ℤ) (h0 : 0 ≤ n) (h1 : n < 100) : (fmt02 n).length = 2 := by
  have key : ∀ a : Fin 100, (fmt02 (a.val : ℤ)).length = 2 := by decide +kernel
  have := key ⟨n.toNat, by omega⟩
  simpa [Int.toNat_of_nonneg h0] using this

theorem fmt02_inj (n m : ℤ) (h0 : 0 ≤ n) (h1 : n < 100) (k0 : 0 ≤ m) (k1 : m < 100) (h : fmt02 n = fmt02 m) : n = m := by
  have key : ∀ a b : Fin 100, fmt02 (a.val : ℤ) = fmt02 (b.val : ℤ) → a = b := by decide +kernel
  have := key ⟨n.toNat, by omega⟩ ⟨m.toNat, by omega⟩ (by simpa [Int.toNat_of_nonneg h0, Int.toNat_of_nonneg k0] using h)
  simp only [Fin.mk.injEq] at this
  omega

theorem append_parts {P A B C D E A' B' C' D' E' : List Char} {u v w x : Char}
    (h : P ++ A ++ [u] ++ B ++ [v] ++ C ++ [w] ++ D ++ [x] ++ E = P ++ A' ++ [u] ++ B' ++ [v] ++ C' ++ [w] ++ D' ++ [x] ++ E')
    (hA : A.length = A'.length) (hB : B.length = B'.length) (hC : C.length = C'.length) (hD : D.length = D'.length) :
    A = A' ∧ B = B' ∧ C = C' ∧ D = D' ∧ E = E' := by
  simp only [List.append_assoc] at h
  have h := List.append_cancel_left h
  obtain ⟨q1, h⟩ := List.append_inj h hA
  have h := List.append_cancel_left h
  obtain ⟨q2, h⟩ := List.append_inj h hB
  have h := List.append_cancel_left h
  obtain ⟨q3, h⟩ := List.append_inj h hC
  have h := List.append_cancel_left h
  obtain ⟨q4, h⟩ := List.append_inj h hD
  exact ⟨q1, q2, q3, q4, List.append_cancel_left h⟩

theorem length_parts {P A B C D E : List Char} {u v w x : Char} (hP : P.length = 5) (hA : A.length = 2) (hB : B.length = 2)
    (hC : C.length = 2) (hD : D.length = 2) (hE : E.length = 2) :
    (P ++ A ++ [u] ++ B ++ [v] ++ C ++ [w] ++ D ++ [x] ++ E).length = 19 := by
  simp [hP, hA, hB, hC, hD, hE]

/-- **C117.** The text of a date of a leap year has a fixed width and tells which date it is. -/
theorem yearless_repr (a b : Yearless) (ha : a.exists) (hb : b.exists) :
    a.repr.length = 19 ∧ (a.repr = b.repr ↔ a = b) := by
  have len : ∀ m, monthLength true m ≤ 31 := by
    intro m
    unfold monthLength
    split_ifs <;> omega
  have la := len a.month.toNat
  have lb := len b.month.toNat
  obtain ⟨m1, m2, d1, d2, a1, a2, a3, a4, a5, a6⟩ := ha
  obtain ⟨m1', m2', d1', d2', b1, b2, b3, b4, b5, b6⟩ := hb
  have w1 := fmt02_two a.month (by omega) (by omega)
  have w2 := fmt02_two a.day (by omega) (by omega)
  have w3 := fmt02_two a.hour (by omega) (by omega)
  have w4 := fmt02_two a.minute (by omega) (by omega)
  have w5 := fmt02_two a.second (by omega) (by omega)
  have v1 := fmt02_two b.month (by omega) (by omega)
  have v2 := fmt02_two b.day (by omega) (by omega)
  have v3 := fmt02_two b.hour (by omega) (by omega)
  have v4 := fmt02_two b.minute (by omega) (by omega)
  refine And.intro ?_ (Iff.intro (fun h => ?_) (congrArg Yearless.repr))
  · exact length_parts (by rfl) w1 w2 w3 w4 w5
  obtain ⟨q1, q2, q3, q4, q5⟩ := append_parts h (w1.trans v1.symm) (w2.trans v2.symm) (w3.trans v3.symm) (w4.trans v4.symm)
  have r1 := fmt02_inj _ _ (by omega) (by omega) (by omega) (by omega) q1
  have r2 := fmt02_inj _ _ (by omega) (by omega) (by omega) (by omega) q2
  have r3 := fmt02_inj _ _ a1 (by omega) b1 (by omega) q3
  have r4 := fmt02_inj _ _ a3 (by omega) b3 (by omega) q4
  have r5 := fmt02_inj _ _ a5 (by omega) b5 (by omega) q5
  rcases a with ⟨m, d, h', mi, s⟩
  rcases b with ⟨m', d', h'', mi', s'⟩
  simp only at r1 r2 r3 r4 r5
  rw [r1, r2, r3, r4, r5]

/-! ### Examples -/

section Examples

/-- 29 February, noon -/
def exLeap : Yearless := ⟨2, 29, 12, 0, 0⟩
/-- 1 March -/
def exMarch : Yearless := { month := 3 }

theorem exLeap_exists : exLeap.exists := by decide +kernel

theorem exMarch_exists : exMarch.exists := by decide +kernel

example := yearless_compare exDoy exLeap exMarch exLeap_exists exMarch_exists
example := yearless_trichotomy exDoy exLeap exMarch exLeap_exists exMarch_exists
example : exLeap.lt exDoy exMarch = .ok true ∧ exLeap.ge exDoy exMarch = .ok false := by decide +kernel
example : exLeap.le exDoy exMarch = .ok true := yearless_trans exDoy exLeap exLeap exMarch (by decide +kernel) (by decide +kernel)
example : (⟨2, 30, 0, 0, 0⟩ : Yearless).lt exDoy exMarch = .error .valueError :=
  (yearless_invalid exDoy ⟨2, 30, 0, 0, 0⟩ exMarch (.inl (by decide +kernel))).1
example := yearless_to_datetime_partial exDoy exDoy_counts exLeap exLeap_exists [2019, 2020, 2024] (by decide)
example : exLeap.toDatetime exDoy [2019, 2020, 2024] = .ok (.many [⟨2020, 2, 29, 12, 0, 0, 0⟩, ⟨2024, 2, 29, 12, 0, 0, 0⟩]) := by
  decide +kernel
example : ∃ t, exLeap.toDatetime exDoy [2019, 2020] = .ok (.one t) :=
  (not_always_list exDoy exDoy_counts exLeap exLeap_exists ⟨rfl, rfl⟩ [2019, 2020] (by decide)).2.1 (by decide +kernel)
example := yearless_one_year exDoy exDoy_counts exMarch exMarch_exists 2019 (by decide)
example := from_to_datetime exDoy exDoy_counts ⟨2020, 2, 29, 1, 2, 3, 400⟩ (by decide +kernel)
example := fraction_lost exDoy exDoy_counts ⟨2020, 2, 29, 1, 2, 3, 400⟩ (by decide +kernel) (by decide)
example : exMarch.toDatetime exDoy [10000] = .error .valueError :=
  (to_datetime_refused exDoy exDoy_counts exMarch 10000).2 exMarch_exists (by decide) (by decide)
example : (⟨4, 31, 0, 0, 0⟩ : Yearless).toDatetime exDoy [2020] = .error .valueError :=
  (to_datetime_refused exDoy exDoy_counts ⟨4, 31, 0, 0, 0⟩ 2020).1 (by decide +kernel) (by decide +kernel)
example := yearless_key exDoy exLeap exMarch exLeap_exists exMarch_exists
example : exLeap.repr = "****-02-29T12:00:00".toList := by decide +kernel
example := yearless_repr exLeap exMarch exLeap_exists exMarch_exists

end Examples

end Verif.Grouping
