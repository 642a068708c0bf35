import Verif.Model.CliCompress
/-!
# Packing what is uploaded (`examples/actix_multipart.rs`)

`create_archive`, the part of the example web server that uses the crate. The content of the example is behind a `cfg` that is never
true, and would not compile (finding 33 in DESIGN.md), so this models the text of the module `inner`, with `write_all_buf` as in
`tokio::io::AsyncWriteExt`. The request, the names that `Uuid::new_v4` makes up and `sanitize_filename::sanitize` come from other
crates and are parameters. The server around it (`do_main`, `handler`) is not modelled: `handler` turns the outcome into a response.
-/

namespace AsyncZip

/-- A part of the request (`actix_multipart::Field`): the file name of its content disposition, and what `field.next()` gives, one
after the other: a piece of the data, or an error (`none`). -/
structure Part where
  filename : Option RString
  chunks : List (Option Bytes)

/-- What the output file does during one turn of the loop: while the entry is opened, during each write, and while it is closed. -/
structure PartEvs where
  opening : List Ev
  writes : List (List Ev)
  closing : List Ev

/-- What becomes of the program with `?`: an error is handed on. A future that is not polled on leaves it where it is. -/
def Packing.asked {α : Type} : Res α → Packing α
  | .ok a => .done a
  | .error .cancelled => .running
  | .error .panic => .panic
  | .error (.err _) => .refused

/-- What becomes of the program with `unwrap()`: an error is a panic. -/
def Packing.unwrapped {α : Type} : Res α → Packing α
  | .ok a => .done a
  | .error .cancelled => .running
  | .error _ => .panic

/-- `entry_writer.write_all_buf(&mut chunk)`, `examples/actix_multipart.rs:65`: writes until nothing is left of the piece; a write
of nothing is an error. Also what the output file will do later. -/
def writeAllBuf {C : Codec} (zw : ZipWriter) (st : EntryStream C) (buf : Bytes) :
    List (List Ev) → Packing (List (List Ev)) × ZipWriter × EntryStream C
  | [] => (if buf.length = 0 then .done [] else .running, zw, st)
  | evs :: evss =>
    if buf.length = 0 then (.done (evs :: evss), zw, st)
    else
      match streamWrite zw st buf evs with
      | (.ok 0, zw', st') => (.refused, zw', st')
      | (.ok (k + 1), zw', st') => writeAllBuf zw' st' (buf.drop (k + 1)) evss
      | (.error e, zw', st') => (Packing.asked (.error e), zw', st')

/-- The inner loop, `examples/actix_multipart.rs:64-66`. -/
def uploadChunks {C : Codec} : List (Option Bytes) → List (List Ev) → ZipWriter → EntryStream C →
    Packing Unit × ZipWriter × EntryStream C
  | [], _, zw, st => (.done (), zw, st)
  | none :: _, _, zw, st => (.refused, zw, st)
  | some b :: cs, evss, zw, st =>
    match writeAllBuf zw st b evss with
    | (.done evss', zw', st') => uploadChunks cs evss' zw' st'
    | (.refused, zw', st') => (.refused, zw', st')
    | (.panic, zw', st') => (.panic, zw', st')
    | (.running, zw', st') => (.running, zw', st')

/-- The name of the entry, `examples/actix_multipart.rs:56-59`; `k` counts the parts. -/
def partName (san : RString → RString) (uuid : Nat → RString) (k : Nat) (p : Part) : RString :=
  match p.filename with
  | some name => san name
  | none => uuid k

/-- What is done about one part, `examples/actix_multipart.rs:61-68`. -/
def uploadPart (C : Codec) (name : RString) (p : Part) (evs : PartEvs) (zw : ZipWriter) : Packing Unit × ZipWriter :=
  match openStream C (ZipEntry.new (ZipString.ofString name) .deflate) false { zw, evs := evs.opening } with
  | (.error e, s) => (Packing.unwrapped (.error e), s.zw)
  | (.ok st, s) =>
    match uploadChunks p.chunks evs.writes s.zw st with
    | (.done _, zw', st') =>
      match closeStream st' { zw := zw', evs := evs.closing } with
      | (r, s') => (Packing.unwrapped r, s'.zw)
    | (.refused, zw', _) => (.refused, zw')
    | (.panic, zw', _) => (.panic, zw')
    | (.running, zw', _) => (.running, zw')

/-- The outer loop, `examples/actix_multipart.rs:53-69`; an error in place of a part is `none`. -/
def uploadLoop (C : Codec) (san : RString → RString) (uuid : Nat → RString) (evs : Nat → PartEvs) :
    List (Option Part) → Nat → ZipWriter → Packing Unit × ZipWriter
  | [], _, zw => (.done (), zw)
  | none :: _, _, zw => (.refused, zw)
  | some p :: ps, k, zw =>
    match uploadPart C (partName san uuid k p) p (evs k) zw with
    | (.done _, zw') => uploadLoop C san uuid evs ps (k + 1) zw'
    | (.refused, zw') => (.refused, zw')
    | (.panic, zw') => (.panic, zw')
    | (.running, zw') => (.running, zw')

/-- `create_archive`, `examples/actix_multipart.rs:48-75`: how it ends, and the file it leaves, if it got that far. Creating the file
and shutting it down are one request to the operating system each; that the latter flushes the file is not shown. -/
def createArchive (C : Codec) (san : RString → RString) (uuid : Nat → RString) (body : List (Option Part)) (create shutdown : OsEv)
    (evs : Nat → PartEvs) (closing : List Ev) : Packing Unit × Option Sink :=
  match create with
  | .fail _ => (.refused, none)
  | .go =>
    match uploadLoop C san uuid evs body 0 (ZipWriter.new ⟨[], 0, 0⟩) with
    | (.done _, zw) =>
      match closeArchive { zw, evs := closing } with
      | (.ok sink, _) => (match shutdown with | .go => .done () | .fail _ => .panic, some sink)
      | (.error e, s) => (Packing.unwrapped (.error e), some s.zw.writer.sink)
    | (.refused, zw) => (.refused, some zw.writer.sink)
    | (.panic, zw) => (.panic, some zw.writer.sink)
    | (.running, zw) => (.running, some zw.writer.sink)

end AsyncZip
