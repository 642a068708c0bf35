import Verif.Spec.Visits
/-!
# Decoders that work from the front
-/

namespace AsyncZip.Spec

/-- Whether a decoder finds its data complete, what it makes of it and how much of its input it uses depend on the bytes it
uses alone. -/
def FrontToBack (C : Codec) : Prop :=
  ∀ (c : Compression) (x : List UInt8), (C.decode c x).ok = true → (C.decode c x).used ≤ x.length ∧
    ∀ y : List UInt8, y.take (C.decode c x).used = x.take (C.decode c x).used → C.decode c y = C.decode c x

end AsyncZip.Spec
