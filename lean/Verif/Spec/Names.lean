import Verif.Spec.RoundTrip
/-!
# What should become of names and comments
-/

namespace AsyncZip.Spec

/-- A string an application can have got from the crate's public constructors. -/
inductive Constructed : ZipString → Prop where
  | new (raw : List UInt8) (enc : StringEncoding) : Constructed (ZipString.new raw enc)
  | alternative (utf8 : RString) (alt : List UInt8) : Constructed (ZipString.newWithAlternative utf8 alt)
  | ofString (s : RString) : Constructed (ZipString.ofString s)

/-- The Info-ZIP unicode field has the known version, and is about other bytes than those `n` puts in the header, or carries
the text of `n`. -/
def Agrees (n : ZipString) : InfoZipField → Prop
  | .v1 crc text => crc = crc32 (n.alternative.getD n.raw) → n.encoding = .utf8 ∧ text = n.raw
  | .unknown _ _ => False

/-- The Info-ZIP unicode fields on the entry, if any, agree with its name and comment. -/
structure UnicodeAgrees (e : ZipEntry) : Prop where
  path : ∀ i, .unicodePath i ∈ e.extraFields → Agrees e.filename i
  comment : ∀ i, .unicodeComment i ∈ e.extraFields → Agrees e.comment i

/-- The entry of a call. -/
def userEntry : Op → Option ZipEntry
  | .whole e _ _ _ => some e
  | .stream e _ _ _ _ => some e
  | .comment _ => none

/-- `r` is what was read where `n` was written. -/
structure SameText (n r : ZipString) : Prop where
  /-- The bytes in the header are the same. -/
  basic : r.alternative.getD r.asBytes = n.alternative.getD n.asBytes
  /-- Text stays text, except if it is empty while its alternative is not. -/
  text : ∀ t, n.asStr = .ok t → (t = [] → n.alternative.getD [] = []) → r.asStr = .ok t
  /-- Alternatives are kept. -/
  alternative : ∀ t a, n.asStr = .ok t → n.alternative = some a → t ≠ [] → r.alternative = some a
  /-- Bytes that are no text stay what they are; they become text only if they are ASCII. -/
  raw : n.encoding = .raw → r.asBytes = n.asBytes ∧ r.alternative = none ∧
    ((∃ x ∈ n.asBytes, 128 ≤ x.toNat) → r.encoding = .raw)

end AsyncZip.Spec
