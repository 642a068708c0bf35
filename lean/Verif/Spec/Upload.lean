import Verif.Model.Upload
import Verif.Spec.Codec
/-!
# What packing an upload should put into an archive
-/

namespace AsyncZip.Spec

/-- The request came through: these are its parts, each with the file name it gives, if any, and the pieces of its data. -/
def Arrived (body : List (Option Part)) (parts : List (Option RString × List (List UInt8))) : Prop :=
  body = parts.map fun x => some ⟨x.1, x.2.map some⟩

/-- The name of the entry for a part: the one given, cleaned up, or one made up for it. -/
def entryName (san : RString → RString) (made : RString) (given : Option RString) : List UInt8 := ((given.map san).getD made).bytes

/-- The call opened an entry of that name, compressed with Deflate, wrote the data to it in one or more pieces, and closed it, and
all of that went well. -/
def UploadCall (name data : List UInt8) (op : Op) (r : OpResult) : Prop :=
  ∃ evs acts evs' rs, op = .stream (ZipEntry.new ⟨.utf8, name, none⟩ .deflate) false evs acts (.close evs') ∧
    r = .stream (.ok ()) rs (some (.ok ())) ∧ AllOk rs ∧ accepted acts rs = data ∧ ∀ a ∈ acts, ∃ b ev, a = .write b ev

/-- The calls and their results are those for the parts, in that order; the first of them is the `k`-th of the request. -/
structure UploadCalls (san : RString → RString) (uuid : Nat → RString) (k : Nat) (parts : List (Option RString × List (List UInt8)))
    (ops : List Op) (rs : List OpResult) : Prop where
  count : ops.length = parts.length
  results : rs.length = parts.length
  each : ∀ (i : Nat) (x : Option RString × List (List UInt8)), parts[i]? = some x → ∃ op r, ops[i]? = some op ∧ rs[i]? = some r ∧
    UploadCall (entryName san (uuid (k + i)) x.1) x.2.flatten op r

/-- The file takes `c + 1` bytes at a time and never fails. -/
def Takes (c : Nat) (evs : List Ev) : Prop := ∀ e ∈ evs, e = .accept (c + 1)

end AsyncZip.Spec
