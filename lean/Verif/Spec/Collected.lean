import Verif.Spec.Visits
import Verif.Spec.Copies
/-!
# Archives of what was read elsewhere
-/

namespace AsyncZip.Spec

/-- The entries of which the client has seen data, with the data. -/
def kept (xs : List (ZipEntry × Option (List UInt8))) : List (ZipEntry × List UInt8) :=
  xs.filterMap fun x => x.2.map fun d => (x.1, d)

/-- The calls that write what the client has seen, each on a sink that answers like this, and then set the comment. Entries that
were skipped are left out. -/
def collect : List (ZipEntry × List UInt8) → List (List Ev) → RString → List Op
  | (e, d) :: xs, evs :: es, c => .whole e d false evs :: collect xs es c
  | _, _, c => [.comment c]

/-- Some reader shows this entry: it is in the list of an archive that some build opened, or some client met it in a stream. -/
inductive ReadSomewhere (e : ZipEntry) : Prop where
  | listed (b : Build) (s : RState) (f : ZipFile) (x : StoredZipEntry) (opened : (openFile b s).1 = .ok f) (mem : x ∈ f.entries)
      (eq : x.entry = e)
  | met (C : Codec) (b : Build) (vs : List Visit) (s : RState) (xs : List (ZipEntry × Option (List UInt8))) (ended : Bool)
      (d : Option (List UInt8)) (seen : (visits C b vs s).1 = .ok (xs, ended)) (mem : (e, d) ∈ xs)

end AsyncZip.Spec
