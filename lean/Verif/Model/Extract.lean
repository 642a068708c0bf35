import Verif.Model.EntryReader
/-!
# Extracting an archive to disk (`examples/file_extraction.rs`)

The example program, on Unix: `sanitize_file_path` and `unzip_file`. The parts of `std::path` it uses are modelled on byte
strings. `sanitize_filename::sanitize` is another crate and a parameter. The file system is a tree of directories and files
without symbolic links; every operation on it may also fail, at any point, for reasons of its own.

Every `expect` and `unwrap` of the program stops it: `false` stands for that panic.
-/

namespace AsyncZip

/-- `str::replace('\\', "/")`, `examples/file_extraction.rs:35`, on the bytes of the string. -/
def replaceBackslash (s : Bytes) : Bytes := s.map fun b => if b = 0x5C then 0x2F else b

/-- `str::split('/')`, `examples/file_extraction.rs:37`, on the bytes of the string. -/
def splitSlash : Bytes → List Bytes
  | [] => [[]]
  | b :: bs =>
    if b = 0x2F then [] :: splitSlash bs
    else
      match splitSlash bs with
      | [] => [[b]]
      | p :: ps => (b :: p) :: ps

/-- `PathBuf::push` (`std::path`, Unix): an absolute path replaces what is there. -/
def pathPush (p c : Bytes) : Bytes :=
  if c.head? = some 0x2F then c
  else if p = [] ∨ p.getLast? = some 0x2F then p ++ c
  else p ++ 0x2F :: c

/-- `sanitize_file_path`, `examples/file_extraction.rs:33-40`; collecting into a `PathBuf` pushes one after the other. -/
def sanitizeFilePath (san : Bytes → Bytes) (path : Bytes) : Bytes :=
  ((splitSlash (replaceBackslash path)).map san).foldl pathPush []

/-- An absolute path as the operating system sees it: what is between the slashes, without empty components and `.`, and
whether it ends in a slash, so that it cannot name a file. -/
structure OsPath where
  comps : List Bytes
  slash : Bool
deriving DecidableEq

/-- The path a string stands for. Relative paths do not occur: `current_dir()` is absolute. -/
def OsPath.of (p : Bytes) : OsPath :=
  { comps := (splitSlash p).filter fun c => c ≠ [] ∧ c ≠ [0x2E], slash := p.getLast? == some 0x2F }

/-- `Path::parent` (`std::path`): none for the root. -/
def OsPath.parent (p : OsPath) : Option OsPath :=
  if p.comps = [] then none else some { comps := p.comps.dropLast, slash := false }

/-- Where a path leads: `..` goes up. -/
def OsPath.resolve (p : OsPath) : List Bytes :=
  p.comps.foldl (fun at_ c => if c = [0x2E, 0x2E] then at_.dropLast else at_ ++ [c]) []

/-- A directory or a file. -/
inductive Node where
  | dir
  | file (content : Bytes)
deriving DecidableEq

/-- What there is on disk. -/
abbrev FS := List Bytes → Option Node

/-- How the operating system treats a request: as it should, or it fails after it got as far as `n`. -/
inductive OsEv where
  | go
  | fail (n : Nat)

/-- The disk, and what the operating system will do. -/
structure Disk where
  fs : FS
  evs : List OsEv

/-- What the operating system does about the next request. -/
def Disk.next (d : Disk) : OsEv := d.evs.head?.getD .go

/-- The disk after a request that put `fs` on it. -/
def Disk.after (d : Disk) (fs : FS) : Disk := ⟨fs, d.evs.tail⟩

/-- `stat`: a path that ends in a slash does not name a file. -/
def Disk.stat (d : Disk) (p : OsPath) : Option Node :=
  match d.fs p.resolve with
  | some (.file c) => if p.slash then none else some (.file c)
  | n => n

/-- Directories are made at `q` and above it where there is nothing. -/
def makeDirs (fs : FS) (q : List Bytes) : FS := fun r => if r <+: q ∧ fs r = none then some .dir else fs r

/-- A file is in the way. -/
def blocked (fs : FS) (q : List Bytes) : Bool := 
  (List.range (q.length + 1)).any fun n => match fs (q.take n) with | some (.file _) => true | _ => false

/-- `create_dir_all`, `examples/file_extraction.rs:60,67`. If it fails on its own account, some of the directories may have
been made. -/
def Disk.createDirAll (d : Disk) (p : OsPath) : Bool × Disk :=
  if blocked d.fs p.resolve then (false, d.after d.fs)
  else
    match d.next with
    | .go => (true, d.after (makeDirs d.fs p.resolve))
    | .fail n => (false, d.after (makeDirs d.fs (p.resolve.take n)))

/-- `OpenOptions::new().write(true).create_new(true).open(&path)`, `examples/file_extraction.rs:69-74`: there must be nothing
at the path and a directory above it. -/
def Disk.createNew (d : Disk) (p : OsPath) : Bool × Disk :=
  if p.slash ∨ d.fs p.resolve ≠ none ∨ d.fs p.resolve.dropLast ≠ some .dir then (false, d.after d.fs)
  else
    match d.next with
    | .go => (true, d.after fun r => if r = p.resolve then some (.file []) else d.fs r)
    | .fail _ => (false, d.after d.fs)

/-- Bytes written to the new file, or some of them. -/
def Disk.write (d : Disk) (p : OsPath) (b : Bytes) : Bool × Disk :=
  match d.next with
  | .go => (true, d.after fun r => if r = p.resolve then some (.file b) else d.fs r)
  | .fail n => (false, d.after fun r => if r = p.resolve then some (.file (b.take n)) else d.fs r)

/-- `futures_lite::io::copy`, `examples/file_extraction.rs:75-77`: reads through a buffer of 8 KiB to the end and writes what it
gets. If the source fails, what was read before that has been written, or some of it. -/
def copyOut (C : Codec) (er : EntryReader) (p : OsPath) (s : RState) (d : Disk) : Bool × RState × Disk :=
  match er.readToEnd C 8192 s with
  | (.ok (b, _), s') => ((d.write p b).1, s', (d.write p b).2)
  | (.error _, s') => (false, s', (d.write p (er.readPart C 8192 [] s).1).2)

/-- The part for a file, `examples/file_extraction.rs:65-77`. -/
def extractFile (C : Codec) (er : EntryReader) (p : OsPath) (s : RState) (d : Disk) : Bool × RState × Disk :=
  match p.parent with
  | none => (false, s, d)
  | some parent =>
    let m := if d.stat parent = some .dir then (true, d) else d.createDirAll parent
    if m.1 then
      let n := m.2.createNew p
      if n.1 then copyOut C er p s n.2 else (false, s, n.2)
    else (false, s, m.2)

/-- One turn of the loop, `examples/file_extraction.rs:47-80`; `out` is the output directory. -/
def extractEntry (C : Codec) (san : Bytes → Bytes) (out : Bytes) (f : ZipFile) (index : Nat) (e : ZipEntry) (s : RState)
    (d : Disk) : Bool × RState × Disk :=
  match e.filename.asStr with
  | .error _ => (false, s, d)
  | .ok name =>
    let path := OsPath.of (pathPush out (sanitizeFilePath san name))
    match e.dir with
    | .error _ => (false, s, d)
    | .ok isDir =>
      match readerWithoutEntry f index s with
      | (.error _, s') => (false, s', d)
      | (.ok er, s') =>
        if isDir then
          if d.stat path ≠ none then (true, s', d)
          else ((d.createDirAll path).1, s', (d.createDirAll path).2)
        else extractFile C er path s' d

/-- The loop, `examples/file_extraction.rs:46-81`: the entries from `index` on. -/
def extractLoop (C : Codec) (san : Bytes → Bytes) (out : Bytes) (f : ZipFile) :
    List StoredZipEntry → Nat → RState → Disk → Bool × RState × Disk
  | [], _, s, d => (true, s, d)
  | e :: es, index, s, d =>
    match extractEntry C san out f index e.entry s d with
    | (true, s', d') => extractLoop C san out f es (index + 1) s' d'
    | (false, s', d') => (false, s', d')

/-- `unzip_file`, `examples/file_extraction.rs:43-82`: whether it came to its end, and the disk afterwards. -/
def unzipFile (b : Build) (C : Codec) (san : Bytes → Bytes) (out : Bytes) (s : RState) (d : Disk) : Bool × Disk :=
  match openFile b s with
  | (.error _, _) => (false, d)
  | (.ok f, s') =>
    let r := extractLoop C san out f f.entries 0 s' d
    (r.1, r.2.2)

end AsyncZip
