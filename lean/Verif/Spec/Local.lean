import Verif.Spec.Directory
/-!
# What stands before the directory (APPNOTE 4.3.7-4.3.9)
-/

namespace AsyncZip.Spec

/-- At `off` there is a local header for `l`, followed by its stored bytes, followed, if it was streamed, by a descriptor. -/
structure LocalOf (data : List UInt8) (off : Nat) (l : Listing) : Prop where
  signature : OccursAt data sigLocal off
  name : window data (off + 30) (fieldAt data (off + 26) 2) = l.entry.filename.basic
  method : (l.entry.compression, fieldAt data (off + 8) 2) ∈ methodTable
  time : fieldAt data (off + 10) 2 = l.entry.lastModificationDate.time.toNat
  date : fieldAt data (off + 12) 2 = l.entry.lastModificationDate.date.toNat
  streamed : (fieldAt data (off + 6) 2).testBit 3 = l.streamed
  crc : l.streamed = false → fieldAt data (off + 14) 4 = l.crc.toNat
  sizes : l.streamed = false → l.us ≤ 0xFFFFFFFF → l.cs ≤ 0xFFFFFFFF →
    fieldAt data (off + 18) 4 = l.cs.toNat ∧ fieldAt data (off + 22) 4 = l.us.toNat
  stored : OccursAt data l.stored (dataStart data off)
  descriptor : l.streamed = true → OccursAt data sigDescriptor (dataStart data off + l.stored.length) ∧
    fieldAt data (dataStart data off + l.stored.length + 4) 4 = l.crc.toNat

/-- Where the record of `l` at `off` ends: after the stored bytes, or after the data descriptor. -/
def recordEnd (data : List UInt8) (off : Nat) (l : Listing) : Nat :=
  dataStart data off + l.stored.length + if l.streamed then 16 else 0

/-- Between `pos` and `stop` there are the records of these entries, in this order, none reaching into the next. If `tight`,
there is nothing else. -/
inductive Tiled (data : List UInt8) (tight : Prop) : Nat → List (Listing × Nat) → Nat → Prop where
  | nil {pos stop : Nat} (h : pos ≤ stop) (t : tight → pos = stop) : Tiled data tight pos [] stop
  | cons {pos off stop : Nat} {l : Listing} {rest : List (Listing × Nat)} (h : pos ≤ off) (t : tight → pos = off)
      (here : LocalOf data off l) (hs : Tiled data tight (recordEnd data off l) rest stop) :
      Tiled data tight pos ((l, off) :: rest) stop

/-- What the call put into the archive, where the program knows it: not for precompressed data, and not for a compressed
stream with failed writes. -/
inductive Wrote : Op → OpResult → ZipEntry → List UInt8 → Prop where
  | whole (e : ZipEntry) (d : List UInt8) (evs : List Ev) (r : Res Unit) : Wrote (.whole e d false evs) (.whole r) e d
  | stream (e : ZipEntry) (evs evs' : List Ev) (acts : List StreamAct) (rs : List (Res Nat)) (r : Res Unit)
      (h : e.compression = .stored ∨ AllOk rs) :
      Wrote (.stream e false evs acts (.close evs')) (.stream (.ok ()) rs (some r)) e (accepted acts rs)

end AsyncZip.Spec
