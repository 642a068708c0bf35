import Verif.Model.Chrono
/-!
# Specification of calendar dates
-/

namespace AsyncZip.Spec

/-- The months have 31, 28 or 29, 31, 30, … days; every fourth year has 29 in February, except centuries not divisible by
400. -/
def monthLengths (y : Int) : List Nat :=
  [31, if 4 ∣ y ∧ (100 ∣ y → 400 ∣ y) then 29 else 28, 31, 30, 31, 30, 31, 31, 30, 31, 30, 31]

/-- A date of the calendar. -/
def IsDate (y : Int) (m d : Nat) : Prop := 1 ≤ m ∧ 1 ≤ d ∧ ∃ n, (monthLengths y)[m - 1]? = some n ∧ d ≤ n

/-- A moment of UTC, possibly a leap second. -/
structure IsMoment (t : UtcDateTime) : Prop where
  years : -262143 ≤ t.year.toInt ∧ t.year.toInt ≤ 262142
  date : IsDate t.year.toInt t.month.toNat t.day.toNat
  hour : t.hour.toNat < 24
  minute : t.minute.toNat < 60
  second : t.second.toNat < 60

/-- Earlier, at a resolution of two seconds. -/
def Earlier (a b : UtcDateTime) : Prop :=
  a.year.toInt < b.year.toInt ∨ a.year = b.year ∧ (a.month < b.month ∨ a.month = b.month ∧ (a.day < b.day ∨ a.day = b.day ∧
    (a.hour < b.hour ∨ a.hour = b.hour ∧ (a.minute < b.minute ∨ a.minute = b.minute ∧
      a.second.toNat / 2 < b.second.toNat / 2))))

/-- A date and time as one number, as DOS tools compare them. -/
def dosNumber (d : ZipDateTime) : Nat := d.date.toNat * 65536 + d.time.toNat

end AsyncZip.Spec
