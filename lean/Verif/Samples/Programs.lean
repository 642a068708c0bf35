import Verif.Model.Write
/-!
# A small codec and small programs using the writer
-/

namespace AsyncZip.Samples

/-- Decode: 0 ends, 2 is a flush, anything else announces a byte. -/
def markDecode : Bytes → DecodeResult
  | [] => ⟨[], 0, false⟩
  | [t] => if t = 0 then ⟨[], 1, true⟩ else ⟨[], 1, false⟩
  | t :: x :: r =>
    if t = 0 then ⟨[], 1, true⟩
    else if t = 2 then
      let d := markDecode (x :: r)
      ⟨d.out, d.used + 1, d.ok⟩
    else
      let d := markDecode r
      ⟨x :: d.out, d.used + 2, d.ok⟩

/-- Each byte is preceded by 1, a flush is 2, the end is 0. -/
def markCodec : Codec where
  Enc := Unit
  start _ _ := ()
  feed _ b := ((), b.flatMap fun x => [1, x])
  flush _ := ((), [2])
  finish _ := [0]
  decode _ b := markDecode b
  latePanics := true

/-- A new archive. -/
def fresh : ZipWriter := .new ⟨[], 0, 0⟩

/-- A file, stored. -/
def storedEntry : ZipEntry := { ZipEntry.new ⟨.utf8, [97, 46, 116], none⟩ .stored with lastModificationDate := ⟨20514, 6275⟩ }

/-- A file, compressed. -/
def deflatedEntry : ZipEntry := { ZipEntry.new ⟨.utf8, [98], none⟩ .deflate with externalFileAttribute := 27525120 }

/-- A sink that takes everything. -/
def eager : List Ev := List.replicate 20 (.accept 1000)

/-- A sink that takes a byte now and then. -/
def slow : List Ev := (List.replicate 200 [Ev.pending, .accept 1]).flatten

/-- Writing one stored file, abandoning a stream, streaming a compressed file in two writes with a flush, setting a comment,
and a write that runs into an error of the sink. -/
def program : List Op :=
  [.whole storedEntry [104, 105] false slow,
   .stream storedEntry false eager [.write [1, 2, 3] [.accept 2]] .abandon,
   .stream deflatedEntry false eager [.write [7, 8, 9] [.pending, .accept 2], .flush eager, .write [9] [.drain 1, .accept 5]]
     (.close eager),
   .comment ⟨[99], by decide⟩,
   .whole storedEntry [104, 105] false [.accept 10, .error 5 0]]

end AsyncZip.Samples
