import Verif.Spec.Openable
import Verif.Model.Basic
/-!
# What a narrower `usize` does to errors, and which files are refused for it
-/

namespace AsyncZip.Spec

/-- An error, as a target reports it whose `usize` has `top` values: of the one number in it that is a `usize`, only the lower bits
are left. -/
def narrow (top : Nat) : Fail → Fail
  | .err (.invalidExtraFieldHeader size remaining) => .err (.invalidExtraFieldHeader size (remaining % top))
  | e => e

/-- A file that is in order as far as the directory, and says that there are `top` entries or more. -/
structure DeclaresMany (top : Nat) (data : List UInt8) (j : Nat) : Prop where
  last : LastEnd data j
  near : data.length ≤ j + reach
  complete : j + 22 ≤ data.length
  zip64 : HasLocator data j → zip64End data j + 56 ≤ data.length
  disk : declaredDisk data j = declaredStartDisk data j
  whole : declaredEntries data j = declaredEntriesOnDisk data j
  many : top ≤ declaredEntries data j

end AsyncZip.Spec
