import Verif.Model.EntryReader
import Verif.Spec.Archive
/-!
# Specification of entry reading: what a caller observes

`Use` is any way of using one entry reader: reads of any sizes, each of which may succeed or fail, checksum queries, and
changes of the source's schedule in between (a read that was given up can be retried, and the source may behave
differently from one call to the next).
-/

namespace AsyncZip.Spec

instance (data sig : List UInt8) (j : Nat) : Decidable (OccursAt data sig j) := by
  unfold OccursAt; infer_instance

/-- PK 7 8. -/
def sigDescriptor : List UInt8 := [0x50, 0x4B, 0x07, 0x08]

/-- What the caller sees. -/
inductive Got where
  /-- A read into a buffer of `n` bytes delivered `b`. -/
  | read (n : Nat) (b : List UInt8)
  /-- `compute_hash` returned `h`. -/
  | hash (h : UInt32)

/-- Any use of an entry reader. -/
inductive Use (C : Codec) : EntryReader → RState → List Got → EntryReader → RState → Prop where
  | refl (er : EntryReader) (s : RState) : Use C er s [] er s
  | read {er er1 er2 : EntryReader} {s s1 s2 : RState} {n : Nat} {b : Bytes} {t : List Got}
      (h : er.read C n s = (.ok (b, er1), s1)) (rest : Use C er1 s1 t er2 s2) : Use C er s (.read n b :: t) er2 s2
  | failed {er er2 : EntryReader} {s s1 s2 : RState} {n : Nat} {e : Fail} {t : List Got}
      (h : er.read C n s = (.error e, s1)) (rest : Use C er s1 t er2 s2) : Use C er s t er2 s2
  | hash {er er2 : EntryReader} {s s2 : RState} {t : List Got}
      (rest : Use C er.computeHash.2 s t er2 s2) : Use C er s (.hash er.computeHash.1 :: t) er2 s2
  | resched {er er2 : EntryReader} {s s2 : RState} {t : List Got} (sched : Option (List RdResp))
      (rest : Use C er { s with sched := sched } t er2 s2) : Use C er s t er2 s2

/-- All bytes delivered, in order. -/
def delivered : List Got → List UInt8
  | [] => []
  | .read _ b :: t => b ++ delivered t
  | .hash _ :: t => delivered t

/-- The bytes delivered since the last checksum query; `acc` are those delivered before. -/
def sinceHash (acc : List UInt8) : List Got → List UInt8
  | [] => acc
  | .read _ b :: t => sinceHash (acc ++ b) t
  | .hash _ :: t => sinceHash [] t

/-- Where the data of the entry whose local header is at `off` starts (APPNOTE 4.3.7). -/
def dataStart (data : List UInt8) (off : Nat) : Nat :=
  off + 30 + fieldAt data (off + 26) 2 + fieldAt data (off + 28) 2

/-- What an entry's data at `start`, declared to be `len` bytes long, holds: the bytes themselves if stored, else what
the decoder makes of them. -/
def entryData (C : Codec) (m : Compression) (data : List UInt8) (start len : Nat) : DecodeResult :=
  if m = .stored then ⟨window data start len, (window data start len).length, true⟩
  else C.decode m (window data start len)

/-- How long the data descriptor at `off` is: its signature is optional (APPNOTE 4.3.9). -/
def descriptorLength (data : List UInt8) (off : Nat) : Nat := if OccursAt data sigDescriptor off then 16 else 12

end AsyncZip.Spec
