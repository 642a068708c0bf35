import Verif.Model.Types
/-!
# Conversions from and to `chrono::DateTime<Utc>` (`src/date/mod.rs:53-113`, feature `chrono`)

`chrono` is outside `/repo`. What the crate uses of a `DateTime<Utc>` are its calendar components; what it uses of `Utc` is
`with_ymd_and_hms`, which gives `LocalResult::Single` for components that name a moment of the proleptic Gregorian
calendar and `LocalResult::None` otherwise (UTC has no ambiguous local times).
-/

namespace AsyncZip

/-- `chrono`'s leap year rule. -/
def isLeapYear (y : Int) : Bool := y % 4 == 0 && (y % 100 != 0 || y % 400 == 0)

/-- The number of days in a month (0 if there is no such month). -/
def daysInMonth (y : Int) (m : Nat) : Nat :=
  if m = 2 then (if isLeapYear y then 29 else 28)
  else if m = 4 ∨ m = 6 ∨ m = 9 ∨ m = 11 then 30
  else if 1 ≤ m ∧ m ≤ 12 then 31
  else 0

/-- The components of a `DateTime<Utc>` (`Datelike`, `Timelike`); a leap second is second 59 with 10^9 nanoseconds or more. -/
structure UtcDateTime where
  year : Int32
  month : UInt32
  day : UInt32
  hour : UInt32
  minute : UInt32
  second : UInt32
  nanosecond : UInt32
deriving DecidableEq, Repr

/-- `Utc.with_ymd_and_hms`: `NaiveDate::from_ymd_opt` and `and_hms_opt` check the ranges; `none` is `LocalResult::None`. -/
def withYmdAndHms (year : Int32) (month day hour minute second : UInt32) : Option UtcDateTime :=
  if -262143 ≤ year.toInt ∧ year.toInt ≤ 262142 ∧ 1 ≤ day.toNat ∧ day.toNat ≤ daysInMonth year.toInt month.toNat ∧
      hour.toNat < 24 ∧ minute.toNat < 60 ∧ second.toNat < 60 then
    some { year, month, day, hour, minute, second, nanosecond := 0 }
  else none

/-- `impl From<&DateTime<Utc>> for ZipDateTime`, `src/date/mod.rs:78-91` (`from_chrono`, `66-68`; `102-104`). -/
def ZipDateTime.fromChrono (b : Build) (t : UtcDateTime) : Res ZipDateTime := do
  let d ← ZipDateTime.default.withYear b t.year
  let d ← d.withMonth t.month
  let d ← d.withDay t.day
  let d ← d.withHour t.hour
  let d ← d.withMinute t.minute
  d.withSecond t.second

/-- `impl From<&ZipDateTime> for LocalResult<DateTime<Utc>>`, `src/date/mod.rs:94-98` (`as_chrono`, `58-60`; `109-111`). -/
def ZipDateTime.asChrono (d : ZipDateTime) : Option UtcDateTime :=
  withYmdAndHms (Int32.ofNat d.year) (UInt32.ofNat d.month) (UInt32.ofNat d.day) (UInt32.ofNat d.hour)
    (UInt32.ofNat d.minute) (UInt32.ofNat d.second)

end AsyncZip
