import Verif.Model.Extract
import Verif.Model.Write
/-!
# Packing files and directories (`examples/cli_compress.rs`)

The example program, on Unix. Its content is behind a `cfg` that is never true (finding 33 in DESIGN.md), so this models the text
of the module `inner`. Paths are byte strings, as in `Model/Extract.lean`; the disk has no symbolic links and does not change
while the program runs, the output file included: the disk given here is the one after `File::create` (line 45).
-/

namespace AsyncZip

/-- A disk, and what `read_dir` gives for each of its directories, in that order. -/
structure Tree where
  fs : FS
  list : List Bytes → List Bytes

/-- `Path::is_dir` (`std::path`). That `stat` fails is not modelled. -/
def Tree.isDir (t : Tree) (p : Bytes) : Bool := t.fs (OsPath.of p).resolve = some .dir

/-- How far `walk_dir` got: to its end, to an error, or no end in sight yet. -/
inductive Walk where
  | files (ps : List Bytes)
  | stopped
  | running
deriving DecidableEq

/-- `walk_dir`, `examples/cli_compress.rs:98-117`: at most `n` turns of the outer loop, each one request to the operating
system. `entry.path()` is the path of the directory with the name pushed to it. -/
def walkDir (t : Tree) : Nat → List OsEv → List Bytes → List Bytes → Walk × List OsEv
  | _, os, [], files => (.files files, os)
  | 0, os, _ :: _, _ => (.running, os)
  | n + 1, os, dir :: dirs, files =>
    match os.head?.getD .go, t.fs (OsPath.of dir).resolve with
    | .go, some .dir =>
      let ps := (t.list (OsPath.of dir).resolve).map (pathPush dir)
      walkDir t n os.tail (dirs ++ ps.filter t.isDir) (files ++ ps.filter fun p => !t.isDir p)
    | _, _ => (.stopped, os.tail)

/-- `&s[n..]` on a string, `examples/cli_compress.rs:78`: a panic if `n` is behind the end or inside a character. -/
def sliceFrom (s : Bytes) (n : Nat) : Option Bytes :=
  if n ≤ s.length ∧ ((s.drop n).head?.all fun b => !isCont b) = true then some (s.drop n) else none

/-- How a part of the program ends, other than well. -/
inductive Packing (α : Type) where
  | done (a : α)
  | refused
  | panic
  | running
deriving DecidableEq

/-- What an error of the writer does to the program: `?` hands it on, a panic stays one. -/
def Packing.ofRes {α : Type} : Res α → Packing α
  | .ok a => .done a
  | .error .panic => .panic
  | .error _ => .refused

/-- The entry `write_entry` builds, `examples/cli_compress.rs:92`; `filename.into()` is `src/string.rs:107-111`. -/
def cliEntry (name : Bytes) : ZipEntry := ZipEntry.new { encoding := .utf8, raw := name, alternative := none } .deflate

/-- `write_entry`, `examples/cli_compress.rs:85-96`: opening and reading the file is one request to the operating system. -/
def packEntry (C : Codec) (t : Tree) (os : OsEv) (evs : List Ev) (name path : Bytes) (zw : ZipWriter) : Packing Unit × ZipWriter :=
  match os, t.fs (OsPath.of path).resolve with
  | .go, some (.file content) =>
    match writeWhole C (cliEntry name) content false { zw, evs } with
    | (r, s) => (Packing.ofRes r, s.zw)
  | _, _ => (.refused, zw)

/-- The loop of `handle_directory`, `examples/cli_compress.rs:70-80`; `evs k` is what the output file does during the `k`-th
call of the writer. -/
def packLoop (C : Codec) (t : Tree) (base : Bytes) (evs : Nat → List Ev) :
    List Bytes → Nat → List OsEv → ZipWriter → Packing Nat × ZipWriter
  | [], k, _, zw => (.done k, zw)
  | p :: ps, k, os, zw =>
    if utf8Valid p = true ∧ base.isPrefixOf p = true then
      match sliceFrom p (base.length + 1) with
      | none => (.panic, zw)
      | some name =>
        match packEntry C t (os.head?.getD .go) (evs k) name p zw with
        | (.done _, zw') => packLoop C t base evs ps (k + 1) os.tail zw'
        | (.refused, zw') => (.refused, zw')
        | (.panic, zw') => (.panic, zw')
        | (.running, zw') => (.running, zw')
    else (.refused, zw)

/-- `handle_directory`, `examples/cli_compress.rs:66-83`. -/
def handleDirectory (C : Codec) (t : Tree) (n : Nat) (base : Bytes) (os : List OsEv) (evs : Nat → List Ev) (zw : ZipWriter) :
    Packing Nat × ZipWriter :=
  match walkDir t n os [base] [] with
  | (.files ps, os') => if utf8Valid base = true then packLoop C t base evs ps 0 os' zw else (.refused, zw)
  | (.stopped, _) => (.refused, zw)
  | (.running, _) => (.running, zw)

/-- `handle_singular`, `examples/cli_compress.rs:59-64`. `Path::file_name` is the last component. -/
def handleSingular (C : Codec) (t : Tree) (input : List Bytes) (path : Bytes) (os : List OsEv) (evs : Nat → List Ev) (zw : ZipWriter) :
    Packing Nat × ZipWriter :=
  match input.getLast? with
  | none => (.refused, zw)
  | some name =>
    if utf8Valid name = true then
      match packEntry C t (os.head?.getD .go) (evs 0) name path zw with
      | (.done _, zw') => (.done 1, zw')
      | (.refused, zw') => (.refused, zw')
      | (.panic, zw') => (.panic, zw')
      | (.running, zw') => (.running, zw')
    else (.refused, zw)

/-- `run`, `examples/cli_compress.rs:26-57`, from the canonical input path on; `path` is that path as a string and `input`
its components. On success the output file. -/
def cliCompress (C : Codec) (t : Tree) (n : Nat) (input : List Bytes) (path : Bytes) (os : List OsEv) (evs : Nat → List Ev) :
    Packing Sink :=
  let zw := ZipWriter.new ⟨[], 0, 0⟩
  let r : Packing Nat × ZipWriter := match t.fs input with
    | none => (.refused, zw)
    | some .dir => handleDirectory C t n path os evs zw
    | some (.file _) => handleSingular C t input path os evs zw
  match r with
  | (.done k, zw') => Packing.ofRes (closeArchive { zw := zw', evs := evs k }).1
  | (.refused, _) => .refused
  | (.panic, _) => .panic
  | (.running, _) => .running

end AsyncZip
