import Verif.Spec.Visits
/-!
# What an entry must at least take up in the file
-/

namespace AsyncZip.Spec
open Rd

/-- The bytes of a text as they are in the file. -/
def ownBytes (t : ZipString) : List UInt8 := t.alternative.getD t.raw

/-- In the directory: the fixed part of its record, its name and its comment. -/
def inDirectory (e : ZipEntry) : Nat := 46 + (ownBytes e.filename).length + (ownBytes e.comment).length

/-- In front of the directory, as the streaming reader sees it: the fixed part of its header, its name and, if it was read
and is not compressed, its data. -/
def inBody (v : ZipEntry × Option (List UInt8)) : Nat :=
  30 + (ownBytes v.1.filename).length + (if v.1.compression = .stored then (v.2.getD []).length else 0)

end AsyncZip.Spec
