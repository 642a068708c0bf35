import Verif.Model.Write
/-!
# What is assumed of a codec, and what a caller observes of a streamed entry
-/

namespace AsyncZip.Spec

/-- Feeding and flushing an encoder that started as `e`, in any steps: input so far, output so far, state. -/
inductive Encodes (C : Codec) (e : C.Enc) : List UInt8 → List UInt8 → C.Enc → Prop where
  | start : Encodes C e [] [] e
  | feed {i o : List UInt8} {s : C.Enc} (b : List UInt8) (h : Encodes C e i o s) :
      Encodes C e (i ++ b) (o ++ (C.feed s b).2) (C.feed s b).1
  | flush {i o : List UInt8} {s : C.Enc} (h : Encodes C e i o s) : Encodes C e i (o ++ (C.flush s).2) (C.flush s).1

/-- A codec is lossless: for the methods the crate can compress with, at any level, however the input is cut and flushed,
decoding the output followed by anything gives the input back and uses exactly the output. -/
def Lawful (C : Codec) : Prop :=
  ∀ (c : Compression) (l : Level), c ≠ .stored → c ≠ .deflate64 → ∀ (i o : List UInt8) (s : C.Enc),
    Encodes C (C.start c l) i o s → ∀ rest : List UInt8,
      C.decode c (o ++ C.finish s ++ rest) = ⟨i, (o ++ C.finish s).length, true⟩

/-- The data bytes of a streamed entry the writer accepted, according to what it told the caller. -/
def accepted : List StreamAct → List (Res Nat) → List UInt8
  | .write buf _ :: acts, .ok k :: rs => buf.take k ++ accepted acts rs
  | .write _ _ :: acts, .error _ :: rs => accepted acts rs
  | .flush _ :: acts, _ :: rs => accepted acts rs
  | .shut _ :: acts, _ :: rs => accepted acts rs
  | _, _ => []

/-- No call failed. -/
def AllOk (rs : List (Res Nat)) : Prop := ∀ r ∈ rs, ∃ k, r = .ok k

/-- How many flushes succeeded. -/
def flushCount : List StreamAct → List (Res Nat) → Nat
  | .flush _ :: acts, .ok _ :: rs => 1 + flushCount acts rs
  | .flush _ :: acts, .error _ :: rs => flushCount acts rs
  | .write _ _ :: acts, _ :: rs => flushCount acts rs
  | .shut _ :: acts, _ :: rs => flushCount acts rs
  | _, _ => 0

/-- The successful calls on a streamed entry: a piece accepted, or a flush. -/
def pieces : List StreamAct → List (Res Nat) → List (Option (List UInt8))
  | .write buf _ :: acts, .ok k :: rs => some (buf.take k) :: pieces acts rs
  | .flush _ :: acts, .ok _ :: rs => none :: pieces acts rs
  | .shut _ :: acts, .ok _ :: rs => pieces acts rs
  | _ :: acts, .error _ :: rs => pieces acts rs
  | _, _ => []

/-- The flushes of the sink one call asked for and got. -/
def opFlushes : Op → OpResult → Nat
  | .stream _ _ _ acts _, .stream _ rs _ => flushCount acts rs
  | _, _ => 0

/-- The flushes a whole program asked for and got. -/
def opsFlushes : List Op → List OpResult → Nat
  | op :: ops, r :: rs => opFlushes op r + opsFlushes ops rs
  | _, _ => 0

/-- The sink did not interfere: the call succeeded, or failed by the crate's own decision. -/
def Completed {α : Type} (r : Res α) : Prop := ∀ e, r = .error e → e ≠ .cancelled ∧ ∀ io, e ≠ .err (.upstreamReadError io)

/-- The same call under possibly different behaviour of the sink, completed both times. For a streamed entry the sink may
also have decided how much of each buffer was accepted, so what counts is what was accepted in total (if it is stored as it
is) or piece by piece (if it is compressed). -/
inductive SameCall : Op → OpResult → Op → OpResult → Prop where
  | whole (e : ZipEntry) (d : List UInt8) (pre : Bool) (evs evs' : List Ev) (r r' : Res Unit) (h : Completed r)
      (h' : Completed r') : SameCall (.whole e d pre evs) (.whole r) (.whole e d pre evs') (.whole r')
  | comment (c : RString) : SameCall (.comment c) .comment (.comment c) .comment
  | rejected (e : ZipEntry) (pre : Bool) (evs evs' : List Ev) (acts acts' : List StreamAct) (fin fin' : StreamEnd)
      (x x' : Fail) (h : Completed (.error x : Res Unit)) (h' : Completed (.error x' : Res Unit)) :
      SameCall (.stream e pre evs acts fin) (.stream (.error x) [] none)
        (.stream e pre evs' acts' fin') (.stream (.error x') [] none)
  | stream (e : ZipEntry) (pre : Bool) (evs evs' cevs cevs' : List Ev) (acts acts' : List StreamAct)
      (rs rs' : List (Res Nat)) (r r' : Res Unit) (h : Completed r) (h' : Completed r')
      (ha : accepted acts rs = accepted acts' rs') (hf : flushCount acts rs = flushCount acts' rs')
      (hp : (pre = true ∨ e.compression = .stored) ∨ (AllOk rs ∧ AllOk rs' ∧ pieces acts rs = pieces acts' rs')) :
      SameCall (.stream e pre evs acts (.close cevs)) (.stream (.ok ()) rs (some r))
        (.stream e pre evs' acts' (.close cevs')) (.stream (.ok ()) rs' (some r'))

/-- Two programs made of the same calls. -/
inductive SamePrograms : List Op → List OpResult → List Op → List OpResult → Prop where
  | nil : SamePrograms [] [] [] []
  | cons {op op' : Op} {r r' : OpResult} {ops ops' : List Op} {rs rs' : List OpResult} (h : SameCall op r op' r')
      (hs : SamePrograms ops rs ops' rs') : SamePrograms (op :: ops) (r :: rs) (op' :: ops') (r' :: rs')

end AsyncZip.Spec
