import Verif.Spec.RoundTrip
/-!
# Archives nobody could mistake

Conditions on what the caller passes in, none on the bytes that come out, under which an archive is `Legible`.
-/

namespace AsyncZip.Spec

/-- UTF-8 text without a native alternative. -/
def Plain (n : ZipString) : Prop := n.encoding = .utf8 ∧ n.alternative = none

/-- An entry with plain strings and no extra fields of its own, and in which nothing looks like a ZIP64 locator. -/
structure OrdinaryEntry (e : ZipEntry) : Prop where
  name : Plain e.filename
  comment : Plain e.comment
  extra : e.extraFields = []
  quiet : ∀ i, ¬ OccursAt (e.filename.raw ++ e.comment.raw) sigLocator i
  external : ∀ i < 4, e.externalFileAttribute.toNat / 256 ^ i % 256 ∉ [6, 75, 80]

/-- Every entry of the call is ordinary. -/
def Ordinary : Op → Prop
  | .whole e _ _ _ => OrdinaryEntry e
  | .stream e _ _ _ _ => OrdinaryEntry e
  | .comment _ => True

end AsyncZip.Spec
