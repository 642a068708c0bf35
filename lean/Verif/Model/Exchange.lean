import Verif.Model.Sessions
/-!
# Entry readers that are exchanged (`src/base/read/io/owned.rs`, `reader_mut` of `src/base/read/stream.rs`)

An entry reader owns its source or borrows it; only the first can give it back. `reader_mut` of a streaming reader lends the entry reader
inside, so that a client can put another one in its place (`std::mem::swap`).
-/

namespace AsyncZip
open Rd

/-- An entry reader with its source, `src/base/read/io/entry.rs:24-27` and `src/base/read/io/owned.rs:15-18`: `owned` for
`OwnedReader::Owned` (made by `new_with_owned`, `entry.rs:34-37`: the streaming, in-memory and path readers and `into_entry`), otherwise
`OwnedReader::Borrow` (`new_with_borrow`, `entry.rs:40-43`: `seek.rs:89` and `102`). -/
structure Held where
  owned : Bool
  reader : EntryReader
  src : RState

/-- `into_inner`, `src/base/read/io/entry.rs:75-77`, and `owned_into_inner`, `src/base/read/io/owned.rs:25-30`. -/
def Held.intoInner (h : Held) : Res RState :=
  if h.owned then .ok h.src else .error .panic

/-- The end of `done` and `skip`, `src/base/read/stream.rs:153-160` and `166-173`. -/
def Held.finish (h : Held) (dataDescriptor : Bool) : Res RState :=
  match h.intoInner with
  | .error e => .error e
  | .ok s =>
    if dataDescriptor then
      match consumeDataDescriptor s with
      | (.ok _, s') => .ok s'
      | (.error e, _) => .error e
    else .ok s

/-- `done`, `src/base/read/stream.rs:148-161`: the source of the reader that is `Ready` again. -/
def Held.done (C : Codec) (h : Held) (dataDescriptor : Bool) : Res RState :=
  match h.reader.read C 1 h.src with
  | (.error e, _) => .error e
  | (.ok (b, er), s) => if b.length ≠ 0 then .error (.err .eofNotReached) else Held.finish ⟨h.owned, er, s⟩ dataDescriptor

/-- `skip`, `src/base/read/stream.rs:164-174`. -/
def Held.skip (C : Codec) (h : Held) (dataDescriptor : Bool) : Res RState :=
  match h.reader.readToEnd C 2048 h.src with
  | (.error e, _) => .error e
  | (.ok (_, er), s) => Held.finish ⟨h.owned, er, s⟩ dataDescriptor

/-- What a client has: streaming readers (`src/base/read/stream.rs:69-78`) that are ready or reading an entry, the flag of which they keep
beside the entry reader (line 72), and entry readers of other readers. -/
inductive Slot where
  | gone
  | ready (s : RState)
  | reading (h : Held) (dataDescriptor : Bool)
  | entry (h : Held)

/-- The entry reader that can be reached: `reader_mut`, `src/base/read/stream.rs:143-145`, or the client's own. -/
def Slot.held : Slot → Option Held
  | .reading h _ => some h
  | .entry h => some h
  | _ => none

/-- Another entry reader in its place; the flag is not part of it. -/
def Slot.put (h : Held) : Slot → Slot
  | .reading _ dd => .reading h dd
  | .entry _ => .entry h
  | x => x

/-- What the client does. `call` is a call on an entry reader (`open` is not one), `exchange` is `std::mem::swap`. -/
inductive BenchOp where
  | next (k : Nat)
  | call (k : Nat) (c : Call)
  | done (k : Nat)
  | skip (k : Nat)
  | exchange (j k : Nat)
deriving DecidableEq

/-- What the client sees. -/
inductive BenchSeen where
  | seen (s : Seen)
  /-- There is no further entry. -/
  | last
  /-- The entry was left; the reader is ready for the next. -/
  | ready
deriving DecidableEq

/-- All that the client has. -/
def Bench := Nat → Slot

/-- Replace one of the things. -/
def Bench.set (w : Bench) (k : Nat) (x : Slot) : Bench := fun v => if v = k then x else w v

/-- Whatever comes of `done` and `skip`: they consume the reader (`mut self`). -/
def benchLeft (w : Bench) (k : Nat) : Res RState → BenchSeen × Bench
  | .ok s => (.ready, w.set k (.ready s))
  | .error e => (.seen (.failed e), w.set k .gone)

/-- A call on the entry reader in a place. -/
def benchCall (C : Codec) (w : Bench) (k : Nat) (c : Call) : BenchSeen × Bench :=
  match (w k).held with
  | none => (.seen .nothing, w)
  | some h =>
    let r := callReader C h.reader c h.src
    (.seen r.1, w.set k ((w k).put ⟨h.owned, r.2.1.getD h.reader, r.2.2⟩))

/-- One step, `src/base/read/stream.rs:90-114` and `143-174`. What the type system rules out does nothing. Not modelled: that the source
goes on to be used by whom it was borrowed from. -/
def benchStep (C : Codec) (b : Build) (op : BenchOp) (w : Bench) : BenchSeen × Bench :=
  match op with
  | .next k =>
    match w k with
    | .ready s =>
      match streamNext b s with
      | (.ok none, _) => (.last, w.set k .gone)
      | (.ok (some r), s') => (.seen (.opened r.entry), w.set k (.reading ⟨true, r.reader, s'⟩ r.dataDescriptor))
      | (.error e, _) => (.seen (.failed e), w.set k .gone)
    | _ => (.seen .nothing, w)
  | .call k c => benchCall C w k c
  | .done k =>
    match w k with
    | .reading h dd => benchLeft w k (h.done C dd)
    | _ => (.seen .nothing, w)
  | .skip k =>
    match w k with
    | .reading h dd => benchLeft w k (h.skip C dd)
    | _ => (.seen .nothing, w)
  | .exchange j k =>
    match (w j).held, (w k).held with
    | some hj, some hk => (.seen .nothing, (w.set j ((w j).put hk)).set k ((w k).put hj))
    | _, _ => (.seen .nothing, w)

/-- Any sequence of steps. -/
def benchRun (C : Codec) (b : Build) : List BenchOp → Bench → List BenchSeen × Bench
  | [], w => ([], w)
  | op :: ops, w =>
    let r := benchStep C b op w
    let rest := benchRun C b ops r.2
    (r.1 :: rest.1, rest.2)

end AsyncZip
