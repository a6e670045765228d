import Verif.Grouping.Spec

/-! Model of `YearlessDatetime` (/repo/src/pytesmo/time_series/grouping.py:159-230) as a Python object: integer fields without a check in
the constructor, the four comparisons, the equality of the dataclass, the text form, and the conversion from and to `datetime` objects.

`cadati.conv_doy.doy` is not part of the repository and is a parameter. `datetime` is modelled by its range checks and the comparison of its
fields from the year down. Specification at the end. -/

namespace Verif.Grouping

open Climatology (isLeap monthLength dayOfYear)

/-- grouping.py:159-172: the fields of the dataclass (no `__post_init__`, so nothing is checked) -/
structure Yearless where
  month : ℤ
  day : ℤ := 1
  hour : ℤ := 0
  minute : ℤ := 0
  second : ℤ := 0
  deriving DecidableEq

/-- a Python `datetime` without a time zone. Used for grouping.py:217-223, grouping.py:225-230. -/
structure Datetime where
  year : ℤ
  month : ℤ
  day : ℤ
  hour : ℤ
  minute : ℤ
  second : ℤ
  micro : ℤ
  deriving DecidableEq

/-- `calendar.isleap(year)` for any integer. Used for grouping.py:218. -/
def pyLeap (y : ℤ) : Bool := (y % 4 == 0 && y % 100 != 0) || y % 400 == 0

/-- days in a month as `datetime` checks them. Used for grouping.py:217-223. -/
def pyMonthLen (year month : ℤ) : ℤ := (monthLen year.toNat month.toNat : ℕ)

/-- `datetime(year, month, day, hour, minute, second)` (221): `ValueError` for what is out of range -/
def mkDatetime (y mo d h mi s : ℤ) : Except Err Datetime :=
  if ¬ (1 ≤ y ∧ y ≤ 9999) then .error .valueError
  else if ¬ (1 ≤ mo ∧ mo ≤ 12) then .error .valueError
  else if ¬ (1 ≤ d ∧ d ≤ pyMonthLen y mo) then .error .valueError
  else if ¬ (0 ≤ h ∧ h ≤ 23) then .error .valueError
  else if ¬ (0 ≤ mi ∧ mi ≤ 59) then .error .valueError
  else if ¬ (0 ≤ s ∧ s ≤ 59) then .error .valueError
  else .ok ⟨y, mo, d, h, mi, s, 0⟩

/-- comparison of the fields in turn: the first difference decides. Used for grouping.py:184-185, grouping.py:187-188. -/
def lexLt : List (ℤ × ℤ) → Bool
  | [] => false
  | (a, b) :: l => if a < b then true else if b < a then false else lexLt l

/-- `datetime.__lt__`. Used for grouping.py:184-185, grouping.py:187-188. -/
def Datetime.lt (a b : Datetime) : Bool :=
  lexLt [(a.year, b.year), (a.month, b.month), (a.day, b.day), (a.hour, b.hour), (a.minute, b.minute), (a.second, b.second),
    (a.micro, b.micro)]

/-- what `to_datetime` returns (225-230): `None`, one `datetime`, or a list -/
inductive Dts
  | none
  | one (d : Datetime)
  | many (l : List Datetime)
  deriving DecidableEq

/-- grouping.py:218: is the year left out? The day of the year is asked for in ordinary years only. -/
def skipYear (doy : ℤ → ℤ → Except Err ℤ) (p : Yearless) (y : ℤ) : Except Err Bool :=
  if pyLeap y then .ok false
  else do
    let n ← doy p.month p.day
    .ok (decide (n = 60))

/-- grouping.py:217-223: the loop over the years -/
def toDatetimeLoop (doy : ℤ → ℤ → Except Err ℤ) (p : Yearless) : List ℤ → Except Err (List Datetime)
  | [] => .ok []
  | y :: ys => do
    let skip ← skipYear doy p y
    if skip then toDatetimeLoop doy p ys
    else do
      let d ← mkDatetime y p.month p.day p.hour p.minute p.second
      let ds ← toDatetimeLoop doy p ys
      .ok (d :: ds)

/-- grouping.py:225-230 -/
def packDts : List Datetime → Dts
  | [d] => .one d
  | [] => .none
  | l => .many l

/-- grouping.py:209-230 `to_datetime(years)` -/
def Yearless.toDatetime (doy : ℤ → ℤ → Except Err ℤ) (p : Yearless) (years : List ℤ) : Except Err Dts := do
  let l ← toDatetimeLoop doy p years
  .ok (packDts l)

/-- one comparison of two results of `to_datetime`; lists and `None` have no order with the others (`TypeError`).
Used for grouping.py:184-185, grouping.py:187-188. -/
def cmpDts (f : Datetime → Datetime → Bool) : Dts → Dts → Except Err Bool
  | .one a, .one b => .ok (f a b)
  | _, _ => .error .typeError

/-- grouping.py:174-176: the leap year of the comparisons -/
def leapYear : ℤ := 2400

/-- grouping.py:184-185 `__lt__` -/
def Yearless.lt (doy : ℤ → ℤ → Except Err ℤ) (a b : Yearless) : Except Err Bool := do
  let x ← a.toDatetime doy [leapYear]
  let y ← b.toDatetime doy [leapYear]
  cmpDts (fun x y => x.lt y) x y

/-- grouping.py:187-188 `__gt__` -/
def Yearless.gt (doy : ℤ → ℤ → Except Err ℤ) (a b : Yearless) : Except Err Bool := do
  let x ← a.toDatetime doy [leapYear]
  let y ← b.toDatetime doy [leapYear]
  cmpDts (fun x y => y.lt x) x y

/-- grouping.py:181-182 `__le__` -/
def Yearless.le (doy : ℤ → ℤ → Except Err ℤ) (a b : Yearless) : Except Err Bool := do
  let x ← a.toDatetime doy [leapYear]
  let y ← b.toDatetime doy [leapYear]
  cmpDts (fun x y => !(y.lt x)) x y

/-- grouping.py:178-179 `__ge__` -/
def Yearless.ge (doy : ℤ → ℤ → Except Err ℤ) (a b : Yearless) : Except Err Bool := do
  let x ← a.toDatetime doy [leapYear]
  let y ← b.toDatetime doy [leapYear]
  cmpDts (fun x y => !(x.lt y)) x y

/-- `__eq__` of the dataclass (159): equality of the tuples of fields -/
def Yearless.eq (a b : Yearless) : Bool :=
  decide (a.month = b.month) && decide (a.day = b.day) && decide (a.hour = b.hour) && decide (a.minute = b.minute) &&
    decide (a.second = b.second)

/-- grouping.py:203-207 `from_datetime` -/
def Yearless.fromDatetime (t : Datetime) : Yearless := ⟨t.month, t.day, t.hour, t.minute, t.second⟩

/-- the format `02` of an integer -/
def fmt02 (n : ℤ) : List Char :=
  let s := (toString n.natAbs).toList
  if n < 0 then '-' :: s else if s.length < 2 then '0' :: s else s

/-- grouping.py:190-192 `__repr__` -/
def Yearless.repr (p : Yearless) : List Char :=
  "****-".toList ++ fmt02 p.month ++ ['-'] ++ fmt02 p.day ++ ['T'] ++ fmt02 p.hour ++ [':'] ++ fmt02 p.minute ++ [':'] ++ fmt02 p.second

/-! ### Specification -/

/-- a date and time of a leap year -/
def Yearless.exists (p : Yearless) : Prop :=
  1 ≤ p.month ∧ p.month ≤ 12 ∧ 1 ≤ p.day ∧ p.day ≤ (monthLength true p.month.toNat : ℕ) ∧ 0 ≤ p.hour ∧ p.hour ≤ 23 ∧
    0 ≤ p.minute ∧ p.minute ≤ 59 ∧ 0 ≤ p.second ∧ p.second ≤ 59

instance (p : Yearless) : Decidable p.exists := by unfold Yearless.exists; infer_instance

/-- seconds of the month -/
def Yearless.secs (p : Yearless) : ℤ := ((p.day * 24 + p.hour) * 60 + p.minute) * 60 + p.second

/-- earlier in the year: in an earlier month, or in the same month with fewer seconds passed -/
def Yearless.before (a b : Yearless) : Prop := a.month < b.month ∨ (a.month = b.month ∧ a.secs < b.secs)

/-- 29 February -/
def Yearless.isLeapDay (p : Yearless) : Prop := p.month = 2 ∧ p.day = 29

instance (p : Yearless) : Decidable p.isLeapDay := inferInstanceAs (Decidable (p.month = 2 ∧ p.day = 29))

/-- What is used of `cadati`'s `doy` without a year: the days of a leap year are counted from 1. -/
def CountsDays (doy : ℤ → ℤ → Except Err ℤ) : Prop :=
  ∀ m d : ℕ, 1 ≤ m → m ≤ 12 → 1 ≤ d → d ≤ monthLength true m →
    doy m d = .ok (dayOfYear true m d : ℕ)

/-- an existing date and time -/
def Datetime.exists (t : Datetime) : Prop :=
  1 ≤ t.year ∧ t.year ≤ 9999 ∧ 1 ≤ t.month ∧ t.month ≤ 12 ∧ 1 ≤ t.day ∧
    t.day ≤ (monthLength (isLeap t.year.toNat) t.month.toNat : ℕ) ∧ 0 ≤ t.hour ∧ t.hour ≤ 23 ∧ 0 ≤ t.minute ∧ t.minute ≤ 59 ∧
    0 ≤ t.second ∧ t.second ≤ 59 ∧ 0 ≤ t.micro ∧ t.micro ≤ 999999

instance (t : Datetime) : Decidable t.exists := by unfold Datetime.exists; infer_instance

end Verif.Grouping
