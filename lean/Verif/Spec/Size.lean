import Verif.Spec.Verdict
/-!
# How long an archive is

What every part of an archive takes, in the order the parts are laid out. `force` is `force_no_zip64`, `off` is where the
local header of the entry is.
-/

namespace AsyncZip.Spec

/-- A size of the entry needs 64 bits. -/
def Vast (l : Listing) : Prop := Beyond32 l.us.toNat ∨ Beyond32 l.cs.toNat

instance (l : Listing) : Decidable (Vast l) := by unfold Vast; infer_instance

/-- The ZIP64 field in the local header: a head of 4 bytes and two sizes, and the offset if it needs 64 bits. A streamed
entry always has one. -/
def localZip64 (force : Bool) (off : Nat) (l : Listing) : Nat :=
  if l.streamed then (if force then 0 else 20)
  else if Vast l then (if Beyond32 off then 28 else 20) else 0

/-- The ZIP64 field in the directory. That of a streamed entry has the offset as well, and that of a small entry beyond
4 GiB only the offset. -/
def directoryZip64 (force : Bool) (off : Nat) (l : Listing) : Nat :=
  if l.streamed then (if force then 0 else 28)
  else if Vast l then (if Beyond32 off then 28 else 20) else (if Beyond32 off then 12 else 0)

/-- The entry's part before the directory: header, name, extra fields, data, and 16 bytes of descriptor after a stream. -/
def partLength (force : Bool) (off : Nat) (l : Listing) : Nat :=
  30 + l.entry.filename.basic.length + (namedTotal l.entry (countedAll l.entry.extraFields) + localZip64 force off l) +
    l.stored.length + (if l.streamed then 16 else 0)

/-- The entry's record in the directory. -/
def directoryPart (force : Bool) (off : Nat) (l : Listing) : Nat :=
  46 + l.entry.filename.basic.length +
    (namedTotal l.entry (countedAll l.entry.extraFields) + directoryZip64 force off l) + l.entry.comment.basic.length

/-- Where the entries end that begin at `off`. -/
def partsEnd (force : Bool) : Nat → List Listing → Nat
  | off, [] => off
  | off, l :: ls => partsEnd force (off + partLength force off l) ls

/-- How long the directory is. -/
def directoryLength (force : Bool) : Nat → List Listing → Nat
  | _, [] => 0
  | off, l :: ls => directoryPart force off l + directoryLength force (off + partLength force off l) ls

/-- The end of the archive is in ZIP64 form: because the writer was told so (`forced`), because of an entry or of their
number, or because the directory is beyond 4 GiB. -/
def EndsZip64 (force forced : Bool) (ls : List Listing) : Prop :=
  forced = true ∨ (force = false ∧ ((∃ l ∈ ls, l.streamed = true ∨ Vast l) ∨ 0xFFFF < ls.length)) ∨
    Beyond32 (partsEnd force 0 ls)

instance (force forced : Bool) (ls : List Listing) : Decidable (EndsZip64 force forced ls) := by
  unfold EndsZip64; infer_instance

/-- The length of the archive: entries, directory, 56 bytes of ZIP64 end record and 20 of its locator if there are any, 22
bytes of end record, comment. -/
def archiveLength (force forced : Bool) (ls : List Listing) (comment : List UInt8) : Nat :=
  partsEnd force 0 ls + directoryLength force 0 ls + (if EndsZip64 force forced ls then 76 else 0) + 22 + comment.length

/-- The entries of calls whose stored bytes are known beforehand: whole entries without compression, or compressed by the
caller. -/
def foreseen : List Op → Option (List Listing)
  | [] => some []
  | .comment _ :: ops => foreseen ops
  | .whole e d true _ :: ops => (foreseen ops).map (⟨e, false, e.crc32, e.uncompressedSize, d⟩ :: ·)
  | .whole e d false _ :: ops =>
    if e.compression = .stored then (foreseen ops).map (⟨e, false, crc32 d, UInt64.ofNat d.length, d⟩ :: ·) else none
  | .stream _ _ _ _ _ :: _ => none

end AsyncZip.Spec
