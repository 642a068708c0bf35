import Verif.Model.Basic
/-!
# CRC-32 (external crate `crc32fast`)

`crc32fast` computes the standard reflected CRC-32 (polynomial 0xEDB88320, initial value and final xor 0xFFFFFFFF).
It is outside `/repo`; the definitions below are the textbook bit-serial algorithm and stand for
`crc32fast::hash` (`src/base/write/entry_whole.rs:119,133,152,301`, `src/base/read/mod.rs:268,298`) and
`crc32fast::Hasher` (`src/base/read/io/hashed.rs:20-41,59-68`, `src/base/write/entry_stream.rs:40,205,293`).
-/

namespace AsyncZip

/-- One shift of the CRC register. -/
def crcBit (s : BitVec 32) : BitVec 32 :=
  (s >>> 1) ^^^ (if s.getLsbD 0 then 0xEDB88320#32 else 0#32)

/-- Eight shifts after xoring in a byte. -/
def crcByte (s : BitVec 32) (b : UInt8) : BitVec 32 :=
  crcBit (crcBit (crcBit (crcBit (crcBit (crcBit (crcBit (crcBit (s ^^^ b.toBitVec.setWidth 32))))))))

/-- `crc32fast::Hasher`: the running register. -/
structure Hasher where
  reg : BitVec 32
deriving DecidableEq, Repr

/-- `Hasher::new()` / `Hasher::default()`. -/
def Hasher.new : Hasher := ⟨0xFFFFFFFF#32⟩
/-- `Hasher::update`. -/
def Hasher.update (h : Hasher) (b : Bytes) : Hasher := ⟨b.foldl crcByte h.reg⟩
/-- `Hasher::finalize`. -/
def Hasher.finalize (h : Hasher) : UInt32 := ⟨~~~h.reg⟩

/-- `crc32fast::hash`. -/
def crc32 (b : Bytes) : UInt32 := (Hasher.new.update b).finalize

end AsyncZip
