import Verif.Spec.Extract
import Verif.Spec.Names
/-!
# When extracting an archive succeeds
-/

namespace AsyncZip.Spec

/-- What is in a directory is in a directory. -/
def Grown (fs : FS) : Prop := ∀ q r, fs q ≠ none → r <+: q → r ≠ q → fs r = some .dir

/-- The name is that of a file. -/
def IsFile (name : List UInt8) : Prop := name.getLast? ≠ some 0x2F

/-- What comes after the last slash of either kind. -/
def lastPiece (name : List UInt8) : List UInt8 := (name.splitOnP fun b => b = 0x2F ∨ b = 0x5C).getLast?.getD []

/-- There is room for the entry: no file is in its way, and if it is one itself, it has a name and nothing is there. -/
structure Room (san : List UInt8 → List UInt8) (out : List (List UInt8)) (fs : FS) (name : List UInt8) : Prop where
  clear : ∀ q c, q <+: out ++ target san name → fs q ≠ some (.file c)
  free : IsFile name → san (lastPiece name) ≠ [] ∧ fs (out ++ target san name) = none

/-- Neither entry is a file where the other has to pass. -/
def Apart (san : List UInt8 → List UInt8) (n m : List UInt8) : Prop :=
  (IsFile n → ¬ target san n <+: target san m) ∧ (IsFile m → ¬ target san m <+: target san n)

/-- The entry can be opened and, if it is a file, read. -/
def Fetchable (C : Codec) (f : ZipFile) (data : List UInt8) (i : Nat) (name : List UInt8) : Prop :=
  (∃ er, (readerWithoutEntry f i ⟨data, 0, none, []⟩).1 = .ok er) ∧
    (IsFile name → ∃ c, (plainRead C f i 8192 ⟨data, 0, none, []⟩).1 = .ok c)

/-- The listed calls of a program put these names and data into the archive. -/
inductive Packs (C : Codec) : List Op → List OpResult → List (List UInt8 × List UInt8) → Prop where
  | nil : Packs C [] [] []
  | listed {op : Op} {r : OpResult} {e : ZipEntry} {n d : List UInt8} {ops : List Op} {rs : List OpResult}
      {items : List (List UInt8 × List UInt8)} (h : isListed r = true) (he : userEntry op = some e)
      (hn : e.filename.asStr = .ok n) (hne : n ≠ []) (hc : Constructed e.filename) (hu : UnicodeAgrees e) (hd : DataOf C op r d)
      (hs : Packs C ops rs items) : Packs C (op :: ops) (r :: rs) ((n, d) :: items)
  | other {op : Op} {r : OpResult} {ops : List Op} {rs : List OpResult} {items : List (List UInt8 × List UInt8)}
      (h : isListed r = false) (hs : Packs C ops rs items) : Packs C (op :: ops) (r :: rs) items

end AsyncZip.Spec
