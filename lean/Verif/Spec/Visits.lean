import Verif.Spec.RoundTrip
/-!
# A client of the streaming reader
-/

namespace AsyncZip.Spec
open Rd

/-- What the client does with an entry: skip it; read it to its end in buffers of `chunk` bytes and then call `done`; the same
with the check (`read_to_end_checked`); or read the first `n` bytes of it, in buffers of up to `chunk` bytes, and skip the
rest. -/
inductive Visit where
  | skip
  | read (chunk : Nat)
  | check (chunk : Nat)
  | part (n chunk : Nat)

/-- The client's buffers are not empty. -/
def Visit.Buffered : Visit → Prop
  | .skip => True
  | .read chunk => 0 < chunk
  | .check chunk => 0 < chunk
  | .part _ chunk => 0 < chunk

/-- What the client gets to see of the data. -/
def Visit.sees (v : Visit) (d : List UInt8) : Option (List UInt8) :=
  match v with
  | .skip => none
  | .read _ => some d
  | .check _ => some d
  | .part n _ => some (d.take n)

/-- If the client checks what it reads, then against the checksum of the data. -/
def Visit.Confirms (v : Visit) (e : ZipEntry) (d : List UInt8) : Prop := ∀ k, v = .check k → e.crc32 = crc32 d

/-- A client's loop that reads until it has `n` bytes or is told that there are no more. It asks at most `fuel` times; as no
read before the last is empty, `n` times are enough. -/
def readUpTo (C : Codec) (chunk : Nat) : Nat → Nat → EntryReader → Rd (List UInt8 × EntryReader)
  | 0, _, er => pure ([], er)
  | fuel + 1, n, er =>
    if n = 0 then pure ([], er)
    else do
      let x ← er.read C (min chunk n)
      if x.1 = [] then pure ([], x.2)
      else do
        let y ← readUpTo C chunk fuel (n - x.1.length) x.2
        pure (x.1 ++ y.1, y.2)

/-- One entry: `none` if there are no more. -/
def visit (C : Codec) (b : Build) (v : Visit) : Rd (Option (ZipEntry × Option (List UInt8))) := do
  let r ← streamNext b
  match r with
  | none => pure none
  | some r =>
    match v with
    | .skip => do
      r.skip C
      pure (some (r.entry, none))
    | .read chunk => do
      let (d, er) ← r.reader.readToEnd C chunk
      Reading.done C { r with reader := er }
      pure (some (r.entry, some d))
    | .check chunk => do
      let (d, er) ← r.reader.readToEndChecked C chunk r.entry.crc32
      Reading.done C { r with reader := er }
      pure (some (r.entry, some d))
    | .part n chunk => do
      let (d, er) ← readUpTo C chunk n n r.reader
      Reading.skip C { r with reader := er }
      pure (some (r.entry, some d))

/-- One entry after the other, until the plan or the entries are at an end; in the latter case with `true`. -/
def visits (C : Codec) (b : Build) : List Visit → Rd (List (ZipEntry × Option (List UInt8)) × Bool)
  | [] => pure ([], false)
  | v :: vs => do
    let x ← visit C b v
    match x with
    | none => pure ([], true)
    | some x => do
      let (xs, ended) ← visits C b vs
      pure (x :: xs, ended)

/-- The streaming reader shows the listing `l` as `e`. For a streamed entry sizes are not known in advance, and the checksum is
the one on the entry that was given to the writer. -/
structure NextAs (l : Listing) (e : ZipEntry) : Prop where
  name : e.filename.basic = l.entry.filename.basic
  method : e.compression = l.entry.compression
  date : e.lastModificationDate = l.entry.lastModificationDate
  descriptor : e.dataDescriptor = l.streamed
  crc : l.streamed = false → e.crc32 = l.crc
  given : l.streamed = true → e.crc32 = l.entry.crc32
  us : l.streamed = false → e.uncompressedSize = l.us
  cs : l.streamed = false → e.compressedSize = l.cs

/-- The call streams an entry without compression. -/
def StoredStream : Op → Prop
  | .stream e _ _ _ _ => e.compression = .stored
  | _ => False

end AsyncZip.Spec
