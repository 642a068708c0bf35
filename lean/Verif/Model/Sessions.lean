import Verif.Model.EntryReader
/-!
# Using archive readers over time (`src/base/read/{seek,mem}.rs`, `src/tokio/read/fs.rs`)

A program's calls, in order, on a seekable reader (one source, at most one entry reader at a time because it borrows the
source), and on an in-memory or file reader (any number of entry readers at a time, each with a source of its own).
-/

namespace AsyncZip
open Rd

/-- What the caller sees of one call. -/
inductive Seen where
  | opened (e : ZipEntry)
  | bytes (b : Bytes)
  | hash (h : UInt32)
  | failed (e : Fail)
  /-- `read_to_end` failed after putting `b` into the caller's vector. -/
  | cut (b : Bytes) (e : Fail)
  /-- No entry reader is open: the type system rules the call out. -/
  | nothing
deriving DecidableEq

/-- How the call failed, if it did. -/
def Seen.failure : Seen → Option Fail
  | .failed e => some e
  | .cut _ e => some e
  | _ => none

/-- One call. -/
inductive Call where
  | open (index : Nat)
  | read (n : Nat)
  | readToEnd (chunk : Nat)
  | computeHash
deriving DecidableEq

/-- `reader_with_entry`, `src/base/read/seek.rs:97-109`: the previous entry reader, if any, is gone (its borrow ended). -/
def callOpen (f : ZipFile) (index : Nat) (s : RState) : Seen × Option EntryReader × RState :=
  match readerWithEntry f index s with
  | (.ok (er, e), s') => (.opened e, some er, s')
  | (.error e, s') => (.failed e, none, s')

/-- A call on an open entry reader, `src/base/read/io/entry.rs:54-72`. -/
def callReader (C : Codec) (er : EntryReader) (c : Call) (s : RState) : Seen × Option EntryReader × RState :=
  match c with
  | .open _ => (.nothing, some er, s)
  | .read n =>
    match er.read C n s with
    | (.ok (b, er'), s') => (.bytes b, some er', s')
    | (.error e, s') => (.failed e, some er, s')
  | .readToEnd chunk =>
    match er.readToEnd C chunk s with
    | (.ok (b, er'), s') => (.bytes b, some er', s')
    | (.error e, s') => (.cut (er.readPart C chunk [] s).1 e, some (er.readPart C chunk [] s).2, s')
  | .computeHash => (.hash er.computeHash.1, some er.computeHash.2, s)

/-- One call on a seekable reader, `src/base/read/seek.rs:85-109`. -/
def seekCall (C : Codec) (f : ZipFile) (c : Call) (st : Option EntryReader × RState) : Seen × Option EntryReader × RState :=
  match c, st with
  | .open i, (_, s) => callOpen f i s
  | _, (none, s) => (.nothing, none, s)
  | c, (some er, s) => callReader C er c s

/-- A sequence of calls on a seekable reader: what was seen, and the state afterwards. -/
def seekSession (C : Codec) (f : ZipFile) : List Call → Option EntryReader × RState → List Seen × (Option EntryReader × RState)
  | [], st => ([], st)
  | c :: cs, st =>
    let r := seekCall C f c st
    let rest := seekSession C f cs r.2
    (r.1 :: rest.1, rest.2)

/-- A call made by one of many users of a shared in-memory or file reader. For `open`, `src` is how the fresh source
behaves: `Cursor::new(&self.inner.data)` (`mem.rs:119-146`) or `File::open(&self.inner.path)` (`fs.rs:126-160`, which may
itself fail with an I/O error, `openErr`). -/
structure SharedCall where
  user : Nat
  call : Call
  sched : Option (List RdResp)
  openErr : Option Nat

/-- Every user's entry reader and its source. -/
def World := Nat → Option (EntryReader × RState)

/-- Nobody has opened anything. -/
def World.empty : World := fun _ => none

/-- Replace one user's state. -/
def World.set (w : World) (u : Nat) (x : Option (EntryReader × RState)) : World := fun v => if v = u then x else w v

/-- One call on a shared reader over `data` (bytes that do not change while the reader is in use). -/
def sharedCall (C : Codec) (data : Bytes) (f : ZipFile) (c : SharedCall) (w : World) : Seen × World :=
  match c.call with
  | .open i =>
    if f.entries[i]? = none then (.failed (.err .entryIndexOutOfBounds), w.set c.user none)
    else
      match c.openErr with
      | some e => (.failed (.err (.upstreamReadError (.other e))), w.set c.user none)
      | none =>
        match callOpen f i { data := data, pos := 0, sched := c.sched, log := [] } with
        | (seen, some er, s') => (seen, w.set c.user (some (er, s')))
        | (seen, none, _) => (seen, w.set c.user none)
  | call =>
    match w c.user with
    | none => (.nothing, w)
    | some (er, s) =>
      match callReader C er call s with
      | (seen, some er', s') => (seen, w.set c.user (some (er', s')))
      | (seen, none, _) => (seen, w.set c.user none)

/-- Any interleaving of calls by any number of users: what each call saw. -/
def sharedRun (C : Codec) (data : Bytes) (f : ZipFile) : List SharedCall → World → List (Nat × Seen)
  | [], _ => []
  | c :: cs, w =>
    let r := sharedCall C data f c w
    (c.user, r.1) :: sharedRun C data f cs r.2

end AsyncZip
