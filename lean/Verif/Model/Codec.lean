import Verif.Model.Types
/-!
# Compression codecs (external crate `async_compression`)

The crate delegates compression to `async_compression`, which is outside `/repo`. A `Codec` is an arbitrary
implementation: an incremental encoder and a decoder. What the crate needs from it is the hypothesis `Codec.Lawful`
(`Verif/Spec/Codec.lean`), used only by the theorems about compressed content.
-/

namespace AsyncZip

/-- Decoding the bytes available to a `bufread` decoder (`src/base/read/io/compressed.rs:24-36`): everything it would
output, how many input bytes it consumes, and whether it then reports end of stream or an error. -/
structure DecodeResult where
  out : Bytes
  used : Nat
  ok : Bool
deriving DecidableEq, Repr

/-- An `async_compression` style codec: `start` is `Encoder::with_quality`/`new`
(`src/base/write/entry_whole.rs:260-290`, `src/base/write/compressed_writer.rs:38-50`). Versions of the crate differ in
whether writing to an encoder that was closed panics (`latePanics`) or is an error. -/
structure Codec where
  Enc : Type
  start : Compression → Level → Enc
  feed : Enc → Bytes → Enc × Bytes
  flush : Enc → Enc × Bytes
  finish : Enc → Bytes
  decode : Compression → Bytes → DecodeResult
  latePanics : Bool

end AsyncZip
