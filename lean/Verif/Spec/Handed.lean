import Verif.Spec.RoundTrip
/-!
# Data that the caller has compressed
-/

namespace AsyncZip.Spec

/-- The call put these bytes into the archive, as compressed data of this entry. -/
inductive Handed : Op → OpResult → ZipEntry → List UInt8 → Prop where
  | whole (e : ZipEntry) (x : List UInt8) (evs : List Ev) (r : Res Unit) : Handed (.whole e x true evs) (.whole r) e x
  | stream (e : ZipEntry) (evs evs' : List Ev) (acts : List StreamAct) (rs : List (Res Nat)) (r : Res Unit) :
      Handed (.stream e true evs acts (.close evs')) (.stream (.ok ()) rs (some r)) e (accepted acts rs)

end AsyncZip.Spec
