import Verif.Spec.Irrelevant
/-!
# Compressing ahead of time

What the documentation of `write_entry_whole_precompressed` and `write_entry_stream_precompressed` recommends
(`src/base/write/mod.rs:141-145,158-162`): `base::write::compress` and `base::write::crc32` first, then a call with the result.
-/

namespace AsyncZip.Spec

/-- `packed` is what to pass in place of `d`: what `compress` returns, or `d` if the entry is to be stored, for which `compress`
must not be called. -/
def PackedAs (C : Codec) (e : ZipEntry) (d packed : List UInt8) : Prop :=
  (e.compression = .stored ∧ packed = d) ∨ (e.compression ≠ .stored ∧ compress C e d = .ok packed)

/-- The same call, or a call with the data compressed ahead of time and the entry with its checksum and size. -/
inductive AheadOfTime (C : Codec) : Op → Op → Prop where
  | same (op : Op) : AheadOfTime C op op
  | packed {e e' : ZipEntry} (d packed : List UInt8) (evs : List Ev) (h : SameFace e e') (hp : PackedAs C e d packed)
      (hcrc : e'.crc32 = crc32Fn d) (hus : e'.uncompressedSize = UInt64.ofNat d.length) :
      AheadOfTime C (.whole e d false evs) (.whole e' packed true evs)

/-- The same call, as in `SameCall`, or a stream of data compressed ahead of time in place of a stream of data. The sinks may
behave differently. As a stream is compressed at the default level, so is the data, and an encoder has to get it in one piece. -/
inductive StreamAheadOfTime (C : Codec) : Op → OpResult → Op → OpResult → Prop where
  | same {op op' : Op} {r r' : OpResult} (h : SameCall op r op' r') : StreamAheadOfTime C op r op' r'
  | packed {e : ZipEntry} (packed : List UInt8) (evs evs' cevs cevs' : List Ev) (acts acts' : List StreamAct)
      (rs rs' : List (Res Nat)) (r r' : Res Unit) (h : Completed r) (h' : Completed r')
      (hp : PackedAs C { e with compressionLevel := .default } (accepted acts rs) packed)
      (hone : e.compression = .stored ∨ (AllOk rs ∧ pieces acts rs = [some (accepted acts rs)]))
      (ha : accepted acts' rs' = packed) (hf : flushCount acts' rs' = flushCount acts rs)
      (hcrc : e.crc32 = crc32Fn (accepted acts rs)) (hus : e.uncompressedSize = UInt64.ofNat (accepted acts rs).length) :
      StreamAheadOfTime C (.stream e false evs acts (.close cevs)) (.stream (.ok ()) rs (some r))
        (.stream e true evs' acts' (.close cevs')) (.stream (.ok ()) rs' (some r'))

/-- Two programs related call by call. -/
inductive ProgramsAheadOfTime (C : Codec) : List Op → List OpResult → List Op → List OpResult → Prop where
  | nil : ProgramsAheadOfTime C [] [] [] []
  | cons {op op' : Op} {r r' : OpResult} {ops ops' : List Op} {rs rs' : List OpResult} (h : StreamAheadOfTime C op r op' r')
      (hs : ProgramsAheadOfTime C ops rs ops' rs') : ProgramsAheadOfTime C (op :: ops) (r :: rs) (op' :: ops') (r' :: rs')

end AsyncZip.Spec
