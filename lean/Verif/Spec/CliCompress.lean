import Verif.Model.CliCompress
import Verif.Spec.ExtractAll
/-!
# What packing a directory should put into an archive
-/

namespace AsyncZip.Spec

/-- A disk as there are: what is in a directory is in a directory, names are names, and `read_dir` gives each name in a
directory once and nothing else. -/
structure Browsable (t : Tree) : Prop where
  grown : Grown t.fs
  parts : ∀ q, t.fs q ≠ none → ∀ c ∈ q, PathPart c
  once : ∀ q, t.fs q = some .dir → (t.list q).Nodup
  all : ∀ q c, t.fs q = some .dir → (c ∈ t.list q ↔ t.fs (q ++ [c]) ≠ none)

/-- There is an end to what is below. -/
def Bounded (fs : FS) (input : List (List UInt8)) : Prop := ∃ all : List (List (List UInt8)), ∀ q, input <+: q → fs q ≠ none → q ∈ all

/-- The list has the path of every file below the directory, relative to it, once, and nothing else. -/
structure AllFiles (fs : FS) (input : List (List UInt8)) (rels : List (List (List UInt8))) : Prop where
  once : rels.Nodup
  all : ∀ r, r ∈ rels ↔ ∃ c, fs (input ++ r) = some (.file c)

/-- A relative path as a string. -/
def joined : List (List UInt8) → List UInt8
  | [] => []
  | [c] => c
  | c :: cs => c ++ 0x2F :: joined cs

/-- What is in the file. -/
def contentAt (fs : FS) (q : List (List UInt8)) : List UInt8 :=
  match fs q with
  | some (.file c) => c
  | _ => []

/-- Names and data. -/
def itemsOf (fs : FS) (input : List (List UInt8)) (rels : List (List (List UInt8))) : List (List UInt8 × List UInt8) :=
  rels.map fun r => (joined r, contentAt fs (input ++ r))

/-- The calls that pack the items, in that order, as entries compressed with Deflate, the first of them being the `k`-th. -/
def packCalls (evs : Nat → List Ev) : Nat → List (List UInt8 × List UInt8) → List Op
  | _, [] => []
  | k, x :: xs => .whole (ZipEntry.new ⟨.utf8, x.1, none⟩ .deflate) x.2 false (evs k) :: packCalls evs (k + 1) xs

/-- A fresh writer, given the items in this order, takes each of them and finishes `sink`. -/
def PackedInto (C : Codec) (evs : Nat → List Ev) (items : List (List UInt8 × List UInt8)) (sink : Sink) : Prop :=
  (runArchive C (.new ⟨[], 0, 0⟩) (packCalls evs 0 items) (evs items.length)).2.1 = .ok sink ∧
    ∀ r ∈ (runArchive C (.new ⟨[], 0, 0⟩) (packCalls evs 0 items) (evs items.length)).1, r = .whole (.ok ())

/-- The output directory has got the files of the other, with their contents, and the directories on the way to them. -/
structure Restored (from_ : FS) (input : List (List UInt8)) (to_ : FS) (out : List (List UInt8)) : Prop where
  files : ∀ r c, to_ (out ++ r) = some (.file c) ↔ from_ (input ++ r) = some (.file c)
  dirs : ∀ r, r ≠ [] → (to_ (out ++ r) = some .dir ↔
    from_ (input ++ r) = some .dir ∧ ∃ r' c, r <+: r' ∧ from_ (input ++ r') = some (.file c))

end AsyncZip.Spec
