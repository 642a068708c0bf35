import Verif.Model.PathReader
/-!
# Files that are replaced
-/

namespace AsyncZip.Spec

/-- The call opens an entry. -/
def Opening (c : SharedCall) : Prop := ∃ i, c.call = .open i

/-- The same calls, and the same files whenever an entry is opened. -/
structure SameWhenOpened (c c' : PathCall) : Prop where
  call : c.call = c'.call
  now : Opening c.call → c.now = c'.now

/-- The calls of one user. -/
def byUser (u : Nat) (cs : List PathCall) : List PathCall := cs.filter fun c => c.call.user = u

end AsyncZip.Spec
