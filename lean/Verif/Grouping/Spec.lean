import Verif.Climatology.Spec
import Verif.Grouping.Model

/-! Specification: calendar positions, day bins. -/

namespace Verif.Grouping

open Climatology (isLeap monthLength)

/-- earlier or equal in the year -/
def posLe (a b : Pos) : Prop := a.month < b.month ∨ (a.month = b.month ∧ (a.day < b.day ∨ (a.day = b.day ∧ a.ns ≤ b.ns)))

/-- a date and time of a leap year -/
def validPos (p : Pos) : Prop := 1 ≤ p.month ∧ p.month ≤ 12 ∧ 1 ≤ p.day ∧ p.day ≤ monthLength true p.month ∧ p.ns < 86400000000000

/-- an existing date and time -/
def validStamp (t : Stamp) : Prop :=
  1 ≤ t.pos.month ∧ t.pos.month ≤ 12 ∧ 1 ≤ t.pos.day ∧ t.pos.day ≤ monthLength (isLeap t.year) t.pos.month ∧
    t.pos.ns < 86400000000000

/-- The position lies in the range, which may cross New Year. -/
def inYearlessRange (g : Pos × Pos) (p : Pos) : Prop :=
  (posLe g.1 g.2 ∧ posLe g.1 p ∧ posLe p g.2) ∨ (¬ posLe g.1 g.2 ∧ (posLe g.1 p ∨ posLe p g.2))

/-- earlier or equal -/
def stampLe (a b : Stamp) : Prop := a.year < b.year ∨ (a.year = b.year ∧ posLe a.pos b.pos)

/-- a 29 February -/
def leapDay (p : Pos) : Prop := p.month = 2 ∧ p.day = 29

/-- a date that exists -/
def validDate (d : Date) : Prop := 1 ≤ d.month ∧ d.month ≤ 12 ∧ 1 ≤ d.day ∧ d.day ≤ monthLength (isLeap d.year) d.month

/-- Days `d` and `d'` are in the same bin: no bin edge between them. -/
def sameBin (bins : List ℤ) (d d' : ℕ) : Prop := ∀ b ∈ bins, b ≤ (d : ℤ) ↔ b ≤ (d' : ℤ)

/-- strictly earlier date -/
def dateLt (a b : Date) : Prop :=
  a.year < b.year ∨ (a.year = b.year ∧ (a.month < b.month ∨ (a.month = b.month ∧ a.day < b.day)))

end Verif.Grouping
