import Verif.Spec.Written
import Verif.Spec.Codec
/-!
# Calls within the limits of the format
-/

namespace AsyncZip.Spec

/-- Most bytes an extra field takes. A ZIP64 field is given the most it can take. -/
def allowance : ExtraField → Nat
  | .zip64 _ => 36
  | .unicodePath (.v1 _ s) => 9 + s.length
  | .unicodePath (.unknown _ d) => 5 + d.length
  | .unicodeComment (.v1 _ s) => 9 + s.length
  | .unicodeComment (.unknown _ d) => 5 + d.length
  | .unknown f => 4 + f.content.length

/-- Most bytes extra fields take. -/
def allowances : List ExtraField → Nat
  | [] => 0
  | f :: fs => allowance f + allowances fs

/-- Name and comment fit in 16-bit lengths, and so do the extra fields with a ZIP64 field (36 bytes) and both names in
Unicode (9 bytes each and the text) added. -/
structure Fits (e : ZipEntry) : Prop where
  name : e.filename.basic.length ≤ 65535
  comment : e.comment.basic.length ≤ 65535
  extra : allowances e.extraFields + e.filename.raw.length + e.comment.raw.length + 54 ≤ 65535

instance (e : ZipEntry) : Decidable (Fits e) :=
  decidable_of_iff (e.filename.basic.length ≤ 65535 ∧ e.comment.basic.length ≤ 65535 ∧
    allowances e.extraFields + e.filename.raw.length + e.comment.raw.length + 54 ≤ 65535)
    ⟨fun h => ⟨h.1, h.2.1, h.2.2⟩, fun h => ⟨h.1, h.2, h.3⟩⟩

/-- The call asks for something the format and the crate can represent. -/
def Sound : Op → Prop
  | .whole e _ pre _ => Fits e ∧ ¬ (e.compression = .deflate64 ∧ pre = false)
  | .stream e pre evs acts fin => Fits e ∧ ¬ (e.compression = .deflate64 ∧ pre = false) ∧
      ¬ WritesClosed (.stream e pre evs acts fin)
  | .comment _ => True

/-- Every part of the call that the sink let finish succeeded. -/
def Succeeded : OpResult → Prop
  | .whole r => Completed r → r = .ok ()
  | .stream o rs c =>
    (Completed o → o = .ok ()) ∧ (∀ r ∈ rs, Completed r → ∃ n, r = .ok n) ∧ ∀ r, c = some r → Completed r → r = .ok ()
  | .comment => True

end AsyncZip.Spec
