import Verif.Model.Monitor
/-
Specification of the monitor helpers.
-/
namespace Trv.Mon

/-- The number denoted by decimal digits. -/
def readNat (l : List Char) : ℕ := l.foldl (fun a c => 10 * a + (c.toNat - '0'.toNat)) 0

/-- `d` occurs somewhere in `s`. -/
def Occurs {α : Type} (d s : List α) : Prop := d <:+: s

section
variable {K : Type} [Field K] [LinearOrder K]

/-- Nodes at multiples of the interval, the last one at completion. -/
def Spaced (δ : K) (l : List K) : Prop :=
  l.head? = some δ ∧ l.getLast? = some 1 ∧
  ∀ i x y, l[i]? = some x → l[i + 1]? = some y → x < y ∧ y = min (x + δ) 1

end

/-- Number of days in a month. -/
def daysIn (year month : ℤ) : ℤ :=
  if month = 2 then (if year % 4 = 0 ∧ (year % 100 ≠ 0 ∨ year % 400 = 0) then 29 else 28)
  else if month = 4 ∨ month = 6 ∨ month = 9 ∨ month = 11 then 30 else 31

/-- A date and time of the calendar. -/
def DateTime.Valid (t : DateTime) : Prop :=
  1 ≤ t.month ∧ t.month ≤ 12 ∧ 1 ≤ t.day ∧ t.day ≤ daysIn t.year t.month ∧
  0 ≤ t.hour ∧ t.hour < 24 ∧ 0 ≤ t.minute ∧ t.minute < 60

end Trv.Mon
