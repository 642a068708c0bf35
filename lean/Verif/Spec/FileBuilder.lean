import Verif.Model.FileBuilder
import Verif.Model.Sessions
import Verif.Proofs.Strings
import Verif.Spec.Own
/-!
# Listings that a client can come by
-/

namespace AsyncZip.Spec

mutual

/-- A builder that safe code can come by. The strings it is given are any that keep their promise, as all that safe code can
make do (C11). -/
inductive HasBuilder : ZipFileBuilder → Prop where
  | new : HasBuilder .new
  | ofFile {f : ZipFile} (h : HasFile f) : HasBuilder (.ofFile f)
  | comment {b : ZipFileBuilder} (h : HasBuilder b) (c : ZipString) (hc : Utf8Safe c) : HasBuilder (b.comment c)

/-- A listing that safe code can come by: opening an archive, or building it. -/
inductive HasFile : ZipFile → Prop where
  | opened {b : Build} {s s' : RState} {f : ZipFile} (h : openFile b s = (.ok f, s')) : HasFile f
  | built {b : ZipFileBuilder} (h : HasBuilder b) : HasFile b.build

end

/-- The listing has the entries of an archive that was opened. -/
def Stems (f : ZipFile) : Prop :=
  ∃ b s s' g, openFile b s = (.ok g, s') ∧ f.entries = g.entries ∧ f.zip64 = g.zip64

/-- What a call sees of a reader whose listing is empty. -/
def seesNone : Call → Seen
  | .open _ => .failed (.err .entryIndexOutOfBounds)
  | _ => .nothing

/-- Where the region of an entry ends: local header, name, extra field and declared data. -/
def regionEnd (a : List UInt8) (e : StoredZipEntry) : Nat :=
  e.fileOffset + 30 + fieldAt a (e.fileOffset + 26) 2 + fieldAt a (e.fileOffset + 28) 2 + e.entry.compressedSize.toNat

end AsyncZip.Spec
