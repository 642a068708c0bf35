import Verif.Model.Sessions
/-!
# Using the source of a seekable reader (`inner_mut`, `src/base/read/seek.rs:72-77`)
-/

namespace AsyncZip
open Rd

/-- A call on a seekable reader, or a use of its source through `inner_mut`, `src/base/read/seek.rs:75-77`: the client may read, seek, write
or put another source in its place, so that it is left in any state. -/
inductive InnerCall where
  | call (c : Call)
  | inner (use : RState → RState)

/-- One of them. `inner_mut` borrows the reader, so that no entry reader is left. -/
def innerStep (C : Codec) (f : ZipFile) (c : InnerCall) (st : Option EntryReader × RState) : List Seen × (Option EntryReader × RState) :=
  match c with
  | .call c => ([(seekCall C f c st).1], (seekCall C f c st).2)
  | .inner g => ([], (none, g st.2))

/-- Any sequence of them: what the calls show. -/
def innerSession (C : Codec) (f : ZipFile) : List InnerCall → Option EntryReader × RState → List Seen
  | [], _ => []
  | c :: cs, st => (innerStep C f c st).1 ++ innerSession C f cs (innerStep C f c st).2

end AsyncZip
