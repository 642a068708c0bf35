import Verif.Model.Types
/-!
# Specification of MS-DOS dates
-/

namespace AsyncZip

namespace Spec

/-- The six components of a date and time. -/
inductive Component where
  | year | month | day | hour | minute | second
deriving DecidableEq

/-- The value of a component. -/
def Component.get : Component → ZipDateTime → Nat
  | .year, d => d.year
  | .month, d => d.month
  | .day, d => d.day
  | .hour, d => d.hour
  | .minute, d => d.minute
  | .second, d => d.second

/-- The value of a component in a fresh builder. -/
def Component.base : Component → Nat
  | .year => 1980
  | _ => 0

/-- One call of a builder setter. -/
inductive SetCall where
  | year (y : Int32)
  | month (v : UInt32)
  | day (v : UInt32)
  | hour (v : UInt32)
  | minute (v : UInt32)
  | second (v : UInt32)

/-- The component a call is about. -/
def SetCall.component : SetCall → Component
  | .year _ => .year
  | .month _ => .month
  | .day _ => .day
  | .hour _ => .hour
  | .minute _ => .minute
  | .second _ => .second

/-- The value an MS-DOS date can hold for the argument of a call: reduced to the width of the field. -/
def SetCall.stored : SetCall → Nat
  | .year y => 1980 + ((y.toInt - 1980) % 128).toNat
  | .month v => v.toNat % 16
  | .day v => v.toNat % 32
  | .hour v => v.toNat % 32
  | .minute v => v.toNat % 64
  | .second v => v.toNat / 2 % 32 * 2

/-- Perform a call. -/
def SetCall.apply (b : Build) (d : ZipDateTime) : SetCall → Res ZipDateTime
  | .year y => d.withYear b y
  | .month v => d.withMonth v
  | .day v => d.withDay v
  | .hour v => d.withHour v
  | .minute v => d.withMinute v
  | .second v => d.withSecond v

/-- Perform calls one after the other on a builder. -/
def applyCalls (b : Build) (d : ZipDateTime) : List SetCall → Res ZipDateTime
  | [] => .ok d
  | c :: cs => c.apply b d >>= fun d' => applyCalls b d' cs

/-- `year - 1980` does not overflow an `i32` (or overflow is not checked). -/
def SetCall.NoOverflow (b : Build) : SetCall → Prop
  | .year y => b.overflowChecks = false ∨ -(2 ^ 31 : Int) + 1980 ≤ y.toInt
  | _ => True

/-- The MS-DOS words, from Microsoft's description: year in bits 9-15, month in 5-8, day in 0-4; hour in 11-15, minute in
5-10, half the second in 0-4. -/
def dosDate (year month day : Nat) : Nat := (year - 1980) * 512 + month * 32 + day
/-- See `dosDate`. -/
def dosTime (hour minute second : Nat) : Nat := hour * 2048 + minute * 32 + second / 2

/-- The six calls that build a date from its components. -/
def allCalls (y : Int32) (mo d h mi s : UInt32) : List SetCall :=
  [.year y, .month mo, .day d, .hour h, .minute mi, .second s]

end Spec

end AsyncZip
