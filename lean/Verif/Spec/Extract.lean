import Verif.Model.Extract
/-!
# What extracting an archive may do to a disk
-/

namespace AsyncZip.Spec

/-- What the program relies on: of a piece of a name, `sanitize` leaves something without a slash that is neither `.` nor
`..`, and nothing of nothing. -/
structure Sanitizes (san : List UInt8 → List UInt8) : Prop where
  flat : ∀ s, 0x2F ∉ san s
  named : ∀ s, san s ≠ [0x2E] ∧ san s ≠ [0x2E, 0x2E]
  nothing : san [] = []

/-- Something one directory can hold. -/
def PathPart (c : List UInt8) : Prop := c ≠ [] ∧ 0x2F ∉ c ∧ c ≠ [0x2E] ∧ c ≠ [0x2E, 0x2E]

/-- Where below the output directory an entry belongs: what is left of the pieces of its name between slashes of either
kind. -/
def target (san : List UInt8 → List UInt8) (name : List UInt8) : List (List UInt8) :=
  ((name.splitOnP fun b => b = 0x2F ∨ b = 0x5C).map san).filter (· ≠ [])

/-- The string for an absolute path. -/
def render (cs : List (List UInt8)) : List UInt8 := if cs = [] then [0x2F] else cs.flatMap (0x2F :: ·)

/-- Strictly below. -/
def Below (out q : List (List UInt8)) : Prop := out <+: q ∧ q ≠ out

/-- The directory exists, with all above it. -/
def Rooted (fs : FS) (out : List (List UInt8)) : Prop := ∀ q, q <+: out → fs q = some .dir

/-- Nothing changed but below the directory, and nothing that was there changed. -/
structure Contained (out : List (List UInt8)) (fs fs' : FS) : Prop where
  outside : ∀ q, ¬ Below out q → fs' q = fs q
  kept : ∀ q n, fs q = some n → fs' q = some n

end AsyncZip.Spec

namespace AsyncZip.Spec

/-- A client: open the entry at index `i` and read it to its end, unchecked, in buffers of `chunk` bytes. -/
def plainRead (C : Codec) (f : ZipFile) (i chunk : Nat) : Rd (List UInt8) := do
  let er ← readerWithoutEntry f i
  let (b, _) ← er.readToEnd C chunk
  pure b

/-- What extracting entry `i` must have done: its directory is there, or a new file with what was read for it. -/
structure Extracted (C : Codec) (f : ZipFile) (san : List UInt8 → List UInt8) (out : List (List UInt8)) (data : List UInt8)
    (fs fs' : FS) (i : Nat) (e : ZipEntry) (name : List UInt8) : Prop where
  named : e.filename = ⟨.utf8, name, e.filename.alternative⟩
  dir : name.getLast? = some 0x2F → fs' (out ++ target san name) = some .dir
  file : name.getLast? ≠ some 0x2F → fs (out ++ target san name) = none ∧
    ∃ c, fs' (out ++ target san name) = some (.file c) ∧ ∃ s, s.data = data ∧ (plainRead C f i 8192 s).1 = .ok c

/-- Something new is an entry's, or a directory on the way to one. -/
def OnlyNew (out : List (List UInt8)) (targets : List (List (List UInt8))) (fs fs' : FS) : Prop :=
  ∀ q, fs q = none → fs' q ≠ none → ∃ t ∈ targets, q = out ++ t ∨ (q <+: out ++ t ∧ fs' q = some .dir)

end AsyncZip.Spec
