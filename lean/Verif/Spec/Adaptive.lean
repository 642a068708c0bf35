import Verif.Model.Vectored
import Verif.Spec.Codec
/-!
# Programs that decide as they go

Elsewhere a program is a list of calls. Here it is a function that looks at the results so far and decides on the next call, or to
stop.
-/

namespace AsyncZip.Spec

/-- A call on an open entry, vectored writes included. -/
inductive StreamCall where
  | write (buf : List UInt8) (evs : List Ev)
  | vectored (bufs : List (List UInt8)) (evs : List Ev)
  | flush (evs : List Ev)
  | shut (evs : List Ev)

/-- Make the call. -/
def StreamCall.make {C : Codec} (zw : ZipWriter) (st : EntryStream C) : StreamCall → Res Nat × ZipWriter × EntryStream C
  | .write buf evs => streamWrite zw st buf evs
  | .vectored bufs evs => streamWriteVectored zw st bufs evs
  | .flush evs => match streamFlush zw st evs with | (r, zw', st') => (r.map fun _ => 0, zw', st')
  | .shut evs => match streamShut zw st evs with | (r, zw', st') => (r.map fun _ => 0, zw', st')

/-- What a program does with an open entry, given the results so far. -/
abbrev StreamClient := List (Res Nat) → Option StreamCall

/-- Let it make up to `n` calls, after those with the results `seen`. -/
def runClient {C : Codec} (client : StreamClient) (zw : ZipWriter) (st : EntryStream C) : Nat → List (Res Nat) →
    List (Res Nat) × ZipWriter × EntryStream C
  | 0, seen => (seen, zw, st)
  | n + 1, seen =>
    match client seen with
    | none => (seen, zw, st)
    | some c => match c.make zw st with | (r, zw', st') => runClient client zw' st' n (seen ++ [r])

/-- A call of a program on the archive. -/
inductive ArchiveCall where
  | whole (e : ZipEntry) (data : List UInt8) (precompressed : Bool) (evs : List Ev)
  | stream (e : ZipEntry) (precompressed : Bool) (evs : List Ev) (client : StreamClient) (n : Nat) (fin : List (Res Nat) → StreamEnd)
  | comment (c : RString)

/-- Make the call. -/
def ArchiveCall.make (C : Codec) (zw : ZipWriter) : ArchiveCall → OpResult × ZipWriter
  | .whole e data pre evs => match writeWhole C e data pre { zw, evs } with | (r, s) => (.whole r, s.zw)
  | .stream e pre evs client n fin =>
    match openStream C e pre { zw, evs } with
    | (.error x, s) => (.stream (.error x) [] none, s.zw)
    | (.ok st, s) =>
      match runClient client s.zw st n [] with
      | (rs, zw', st') =>
        match fin rs with
        | .abandon => (.stream (.ok ()) rs none, zw')
        | .close evs' => match closeStream st' { zw := zw', evs := evs' } with | (r, s'') => (.stream (.ok ()) rs (some r), s''.zw)
  | .comment c => (.comment, zw.setComment c)

/-- Let a program make up to `n` calls. -/
def runProgram (C : Codec) (program : List OpResult → Option ArchiveCall) (zw : ZipWriter) : Nat → List OpResult →
    List OpResult × ZipWriter
  | 0, seen => (seen, zw)
  | n + 1, seen =>
    match program seen with
    | none => (seen, zw)
    | some c => match c.make C zw with | (r, zw') => runProgram C program zw' n (seen ++ [r])

/-- The plain call that a call amounts to: for a vectored write, writing the first buffer that is not empty. -/
inductive Amounts : StreamCall → StreamAct → Prop where
  | write (buf : List UInt8) (evs : List Ev) : Amounts (.write buf evs) (.write buf evs)
  | vectored (pre post : List (List UInt8)) (buf : List UInt8) (evs : List Ev) (h : ∀ x ∈ pre, x = []) (hb : buf ≠ []) :
      Amounts (.vectored (pre ++ buf :: post) evs) (.write buf evs)
  | nothing (bufs : List (List UInt8)) (evs : List Ev) (h : ∀ x ∈ bufs, x = []) : Amounts (.vectored bufs evs) (.write [] evs)
  | flush (evs : List Ev) : Amounts (.flush evs) (.flush evs)
  | shut (evs : List Ev) : Amounts (.shut evs) (.shut evs)

/-- The list of calls that the program made, each decided on after the results before it. -/
def Followed (client : StreamClient) (acts : List StreamAct) (rs : List (Res Nat)) : Prop :=
  ∀ i a, acts[i]? = some a → ∃ c, client (rs.take i) = some c ∧ Amounts c a

/-- `IoSlice::advance_slices`: the buffers without their first `k` bytes. -/
def advance : Nat → List (List UInt8) → List (List UInt8)
  | _, [] => []
  | k, b :: bs => if b.length ≤ k then advance (k - b.length) bs else b.drop k :: bs

/-- How much was accepted, if no call failed or accepted nothing. -/
def progress : List (Res Nat) → Option Nat
  | [] => some 0
  | .ok (k + 1) :: rs => (progress rs).map (k + 1 + ·)
  | _ :: _ => none

/-- `write_all`, or its vectored form: write what is left until nothing is, or a call fails or accepts nothing. `evs i` is the
sink's behaviour during call `i`. -/
def writeAllClient (bufs : List (List UInt8)) (evs : Nat → List Ev) : StreamClient := fun seen =>
  match progress seen with
  | none => none
  | some t => if (advance t bufs).flatten = [] then none else some (.vectored (advance t bufs) (evs seen.length))

end AsyncZip.Spec
