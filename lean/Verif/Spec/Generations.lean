import Verif.Spec.Copies
import Verif.Spec.RoundTrip
import Verif.Spec.Written
import Verif.Model.Sessions
/-!
# Copies of copies
-/

namespace AsyncZip.Spec

/-- `f'` is a copy of `f`: someone read all entries of `f` with the check, each under its own conditions (`from_` says which
source they had), got `ds`, wrote them with a new writer in any configuration to an empty sink, each call on a sink that answers
as the second components say, and set the comment to that of `f`; every call succeeded, the archive `bytes` has one last end
record and no accidental locator, is not larger than 4 GiB, and `f'` is what some build makes of it. -/
inductive Copy (C : Codec) (f : ZipFile) (from_ : RState → Prop) (ds : List (List UInt8)) (f' : ZipFile) (bytes : List UInt8) : Prop where
  | made (sink sink' : Sink) (zw : ZipWriter) (evs : List Ev) (es : List (List Ev)) (c : RString) (b : Build) (s : RState)
      (created : Created sink zw) (empty : sink.bytes = [])
      (all : f.entries.length = ds.length) (sinks : es.length = ds.length)
      (read : ∀ i d, ds[i]? = some d → ∃ chunk s₁, 0 < chunk ∧ from_ s₁ ∧ (checkedRead C f i chunk s₁).1 = .ok d)
      (comment : c.bytes = f.comment.raw) (short : c.bytes.length ≤ 65535)
      (closed : (runArchive C zw (copyAll f.entries (ds.zip es) c) evs).2.1 = .ok sink') (written : sink'.bytes = bytes)
      (fine : ∀ r ∈ (runArchive C zw (copyAll f.entries (ds.zip es) c) evs).1, Fine r ∧ ¬ TooMany r)
      (last : LastEnd bytes (endPosition bytes c.bytes))
      (locator : HasLocator bytes (endPosition bytes c.bytes) →
        (runArchive C zw (copyAll f.entries (ds.zip es) c) evs).2.2.isZip64 = true)
      (small : bytes.length ≤ 0xFFFFFFFF)
      (room : f.entries.length ≤ b.maxVecEntries) (source : s.data = bytes) (opened : (openFile b s).1 = .ok f')

/-- `f` and its bytes are the last of a series of `n + 1` copies, of which the first was made of `f₀` when its entries gave `ds`,
and each of the others of the one before. -/
inductive Generation (C : Codec) (f₀ : ZipFile) (ds : List (List UInt8)) : Nat → ZipFile → List UInt8 → Prop where
  | first {f : ZipFile} {bytes : List UInt8} (h : Copy C f₀ (fun _ => True) ds f bytes) : Generation C f₀ ds 0 f bytes
  | next {n : Nat} {f f' : ZipFile} {ds' : List (List UInt8)} {bytes bytes' : List UInt8} (h : Generation C f₀ ds n f bytes)
      (h' : Copy C f (fun s => s.data = bytes) ds' f' bytes') : Generation C f₀ ds (n + 1) f' bytes'

/-- `r` is what became of `n` in the end. -/
structure KeptText (n r : ZipString) : Prop where
  /-- The bytes in the header are the same. -/
  basic : r.alternative.getD r.asBytes = n.alternative.getD n.asBytes
  /-- Text stays text, except if it is empty while its alternative is not. -/
  text : ∀ t, n.asStr = .ok t → (t = [] → n.alternative.getD [] = []) → r.asStr = .ok t
  /-- Alternatives are kept. -/
  alternative : ∀ t a, n.asStr = .ok t → n.alternative = some a → t ≠ [] → r.alternative = some a
  /-- Bytes that are no text stay what they are; they become text only if they are ASCII. -/
  raw : n.encoding = .raw → r.asBytes = n.asBytes ∧ r.alternative.getD r.asBytes = n.asBytes ∧
    ((∃ x ∈ n.asBytes, 128 ≤ x.toNat) → r.encoding = .raw ∧ r.alternative = none)

/-- `y` is what became of `x` in the end. Of the extra fields those at the end without content may be lost. -/
structure Descended (x y : ZipEntry) : Prop where
  name : KeptText x.filename y.filename
  comment : KeptText x.comment y.comment
  method : y.compression = x.compression
  date : y.lastModificationDate = x.lastModificationDate
  internal : y.internalFileAttribute = x.internalFileAttribute
  external : y.externalFileAttribute = x.externalFileAttribute
  fields : ∃ lost, otherFields x.extraFields = otherFields y.extraFields ++ lost ∧ ∀ f ∈ lost, EmptyContent f

end AsyncZip.Spec
