import Verif.Model.Sessions
/-!
# The path reader, and the file it finds at its path (`src/tokio/read/fs.rs`)

A path reader keeps a path and the listing (`fs.rs:80-83`), not the file: `reader_without_entry` and `reader_with_entry` open whatever
is at the path when they are called. What is there may have been replaced since.
-/

namespace AsyncZip
open Rd

/-- One call on a path reader, and what the file at the path contains when it is made. -/
structure PathCall where
  call : SharedCall
  now : Bytes

/-- Any interleaving of calls by any number of users, `src/tokio/read/fs.rs:126-160`. An open file is the file it was when it was opened,
also when another one has been put at its path; writing into a file that is open is not modelled. -/
def pathRun (C : Codec) (f : ZipFile) : List PathCall → World → List (Nat × Seen)
  | [], _ => []
  | c :: cs, w =>
    let r := sharedCall C c.now f c.call w
    (c.call.user, r.1) :: pathRun C f cs r.2

end AsyncZip
