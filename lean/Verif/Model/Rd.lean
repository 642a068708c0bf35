import Verif.Model.Basic
/-!
# Readers

A source implementing `AsyncRead + AsyncSeek` and the `.await` loops that drive it.

A source is an immutable byte string with a position. Its behaviour over time is a finite schedule of poll results:
`Pending`, an I/O error, or a short read of at most `c + 1` bytes (zero bytes only at end of data, as `AsyncRead`
requires for non-empty buffers). Running out of schedule means the future was never polled to completion (dropped).
`sched = none` is the ideal source that always answers at once and in full.

All I/O errors of the source are reported by the crate as `ZipError::UpstreamReadError` through `?`
(`src/error.rs:59-60`).

`log` is a ghost trace of the requests made of the source; nothing reads it.
-/

namespace AsyncZip

/-- One result of polling the source. -/
inductive RdResp where
  | pending
  | chunk (c : Nat)
  | error (code : Nat)
deriving DecidableEq, Repr

/-- One request made of the source. -/
inductive RdEvent where
  | read (pos len : Nat)
  | seek (target : Nat)
deriving DecidableEq, Repr

/-- A source. -/
structure RState where
  data : Bytes
  pos : Nat
  sched : Option (List RdResp)
  log : List RdEvent

/-- An `async fn` over a source: outcome and the source afterwards. -/
def Rd (α : Type) := RState → Res α × RState

namespace Rd

/-- Sequencing `.await`s; an error, panic or cancellation stops the function (`?`). -/
instance : Monad Rd where
  pure a := fun s => (.ok a, s)
  bind m f := fun s =>
    match m s with
    | (.ok a, s') => f a s'
    | (.error e, s') => (.error e, s')

/-- `return Err(e)` or a panic. -/
def fail {α : Type} (e : Fail) : Rd α := fun s => (.error e, s)

/-- `return Err(e)`. -/
def throwErr {α : Type} (e : ZipError) : Rd α := fail (.err e)

/-- Lift a synchronous fallible computation. -/
def lift {α : Type} (r : Res α) : Rd α := fun s => (r, s)

/-- One `reader.read(&mut buf).await` with `buf.len() = n`, given the schedule. -/
def readSched (n : Nat) (s : RState) : List RdResp → Res Bytes × RState
  | [] => (.error .cancelled, { s with sched := some [], log := s.log ++ [.read s.pos n] })
  | .pending :: rs => readSched n s rs
  | .error c :: rs =>
    (.error (.err (.upstreamReadError (.other c))), { s with sched := some rs, log := s.log ++ [.read s.pos n] })
  | .chunk c :: rs =>
    let b := (s.data.drop s.pos).take (min n (c + 1))
    (.ok b, { s with pos := s.pos + b.length, sched := some rs, log := s.log ++ [.read s.pos n] })

/-- One `reader.read(&mut buf).await` with `buf.len() = n` (`futures_lite::io::AsyncReadExt::read`). -/
def readOnce (n : Nat) : Rd Bytes := fun s =>
  match s.sched with
  | none =>
    let b := (s.data.drop s.pos).take n
    (.ok b, { s with pos := s.pos + b.length, log := s.log ++ [.read s.pos n] })
  | some rs => readSched n s rs

/-- `reader.seek(..).await` given the schedule: a `chunk` answer means the seek completed. -/
def seekSched (target : Nat) (s : RState) : List RdResp → Res Nat × RState
  | [] => (.error .cancelled, { s with sched := some [], log := s.log ++ [.seek target] })
  | .pending :: rs => seekSched target s rs
  | .error c :: rs =>
    (.error (.err (.upstreamReadError (.other c))), { s with sched := some rs, log := s.log ++ [.seek target] })
  | .chunk _ :: rs => (.ok target, { s with pos := target, sched := some rs, log := s.log ++ [.seek target] })

/-- Move to an absolute position; returns it. -/
def seekTo (target : Nat) : Rd Nat := fun s =>
  match s.sched with
  | none => (.ok target, { s with pos := target, log := s.log ++ [.seek target] })
  | some rs => seekSched target s rs

/-- `reader.seek(SeekFrom::Start(p)).await`. Seeking past the end is allowed, as for files and cursors. -/
def seekStart (p : Nat) : Rd Nat := seekTo p
/-- `reader.seek(SeekFrom::End(0)).await`. -/
def seekEnd : Rd Nat := fun s => seekTo s.data.length s
/-- `reader.seek(SeekFrom::Current(d)).await` for `d ≥ 0`. -/
def seekForward (d : Nat) : Rd Nat := fun s => seekTo (s.pos + d) s

/-- `AsyncReadExt::read_exact` (futures-lite): read until the buffer is full; `Ok(0)` is `UnexpectedEof`. -/
def readExactLoop (need : Nat) (acc : Bytes) : Rd Bytes :=
  if need = 0 then pure acc
  else do
    let b ← readOnce need
    if b.length = 0 then throwErr (.upstreamReadError .unexpectedEof)
    else readExactLoop (need - b.length) (acc ++ b)
termination_by need
decreasing_by omega

/-- `reader.read_exact(&mut [0; n]).await?`, returning the filled buffer. -/
def readExact (n : Nat) : Rd Bytes := readExactLoop n []

/-- Read until `n` bytes have been read or end of data: the shape of `take(n).read_to_end` and of the locator's buffer
fill. -/
def readUpToLoop (need : Nat) (acc : Bytes) : Rd Bytes :=
  if need = 0 then pure acc
  else do
    let b ← readOnce need
    if b.length = 0 then pure acc
    else readUpToLoop (need - b.length) (acc ++ b)
termination_by need
decreasing_by omega

/-- `io::read_bytes`, `src/base/read/io/mod.rs:25-33`: `reader.take(length).read_to_end(&mut buffer)`. `Take` stops
without polling the source once the limit is used up; before that, each request is for the whole remaining limit
(`read_to_end` may ask for less at a time; a source answering with short reads covers that). -/
def readBytes (length : Nat) : Rd Bytes := readUpToLoop length []

end Rd
end AsyncZip
