import Verif.Model.InnerReader
import Verif.Spec.Own
/-!
# Using the source of a seekable reader
-/

namespace AsyncZip.Spec

/-- The calls without the uses of the source. -/
def callsOnly : List InnerCall → List Call
  | [] => []
  | .call c :: cs => c :: callsOnly cs
  | .inner _ :: cs => callsOnly cs

/-- What the borrow checker allows: after a use of the source, an entry has to be opened before anything is read. `open?` says whether one
is. -/
def Borrowed : Bool → List InnerCall → Prop
  | _, [] => True
  | _, .inner _ :: cs => Borrowed false cs
  | _, .call (.open _) :: cs => Borrowed true cs
  | o, .call _ :: cs => o = true ∧ Borrowed o cs

/-- Uses that may move the source and change what it contains, as long as it agrees with `d` where the entries are that are opened, and the
source goes on to answer as it would have. -/
structure HarmlessUse (f : ZipFile) (d : List UInt8) (cs : List InnerCall) (use : RState → RState) : Prop where
  sched : ∀ s, (use s).sched = s.sched
  data : ∀ i, .call (.open i) ∈ cs → ∀ e, f.entries[i]? = some e → ∀ s, SameData d (use s).data e

end AsyncZip.Spec
