/-!
# Bytes, integers, errors

Foundations shared by the whole model.
-/

namespace AsyncZip

/-- A Rust `Vec<u8>` / `&[u8]`. -/
abbrev Bytes := List UInt8

/-- The `k` little-endian bytes of `n` (`uN::to_le_bytes`, used throughout `src/spec/parse.rs:17-88`). -/
def leBytes : Nat → Nat → Bytes
  | 0, _ => []
  | k + 1, n => UInt8.ofNat (n % 256) :: leBytes k (n / 256)

/-- The number a little-endian byte string denotes (`uN::from_le_bytes`, `src/spec/parse.rs:97-181`). -/
def leNat : Bytes → Nat
  | [] => 0
  | b :: bs => b.toNat + 256 * leNat bs

/-- `u16::to_le_bytes`. -/
def le16 (x : UInt16) : Bytes := leBytes 2 x.toNat
/-- `u32::to_le_bytes`. -/
def le32 (x : UInt32) : Bytes := leBytes 4 x.toNat
/-- `u64::to_le_bytes`. -/
def le64 (x : UInt64) : Bytes := leBytes 8 x.toNat

/-- `u16::from_le_bytes`. -/
def fromLe16 (b : Bytes) : UInt16 := UInt16.ofNat (leNat b)
/-- `u32::from_le_bytes`. -/
def fromLe32 (b : Bytes) : UInt32 := UInt32.ofNat (leNat b)
/-- `u64::from_le_bytes`. -/
def fromLe64 (b : Bytes) : UInt64 := UInt64.ofNat (leNat b)

/-- `&value[i..j]` for in-range `i ≤ j ≤ len` (callers that could be out of range check explicitly). -/
def slice (b : Bytes) (i j : Nat) : Bytes := (b.drop i).take (j - i)

/-- The `std::io::ErrorKind`s the crate's control flow distinguishes, plus any error of the underlying I/O object. -/
inductive IoError where
  | unexpectedEof
  | writeZero
  | invalidData
  | other (code : Nat)
deriving Repr, DecidableEq

/-- `src/error.rs:12-16`. -/
inductive Zip64ErrorCase where
  | tooManyFiles
  | largeFile
deriving Repr, DecidableEq

/-- `ZipError`, `src/error.rs:27-72`, variant by variant. -/
inductive ZipError where
  | featureNotSupported (what : String)
  | compressionNotSupported (id : UInt16)
  | attributeCompatibilityNotSupported (id : UInt16)
  | targetZip64NotSupported
  | zip64Needed (case : Zip64ErrorCase)
  | eofNotReached
  | extraFieldTooLarge
  | commentTooLarge
  | fileNameTooLarge
  | stringNotUtf8
  | unableToLocateEOCDR
  | invalidExtraFieldHeader (size : UInt16) (remaining : Nat)
  | zip64ExtendedFieldIncomplete
  | upstreamReadError (e : IoError)
  | crc32CheckError
  | entryIndexOutOfBounds
  | unexpectedHeaderError (actual expected : UInt32)
  | infoZipUnicodeCommentFieldIncomplete
  | infoZipUnicodePathFieldIncomplete
deriving Repr, DecidableEq

/-- How a call can fail to return normally: a Rust `Err`, a panic, or the future being dropped (or the process dying)
before completion. -/
inductive Fail where
  | err (e : ZipError)
  | panic
  | cancelled
deriving Repr, DecidableEq

/-- Outcome of a call. -/
abbrev Res (α : Type) := Except Fail α

/-- Build parameters that influence behaviour.
`overflowChecks` is Cargo's `overflow-checks` (on in debug, off in release by default): arithmetic overflow panics or
wraps. `maxVecEntries` is the largest `n` for which `Vec::<StoredZipEntry>::with_capacity(n)` does not panic or abort
(`src/base/read/mod.rs:89`); it is at most `isize::MAX / size_of::<StoredZipEntry>()`. -/
structure Build where
  overflowChecks : Bool
  maxVecEntries : Nat

/-- `a + b` on `u64`. -/
def addU64 (b : Build) (x y : Nat) : Res Nat :=
  if x + y < 2 ^ 64 then .ok (x + y)
  else if b.overflowChecks then .error .panic else .ok ((x + y) % 2 ^ 64)

/-- `SIGNATURE_LENGTH`, `src/spec/consts.rs:4`. -/
def SIGNATURE_LENGTH : Nat := 4
/-- `LFH_SIGNATURE`, `src/spec/consts.rs:9`. -/
def LFH_SIGNATURE : UInt32 := 0x04034b50
/-- `LFH_LENGTH`, `src/spec/consts.rs:11`. -/
def LFH_LENGTH : Nat := 26
/-- `CDH_SIGNATURE`, `src/spec/consts.rs:16`. -/
def CDH_SIGNATURE : UInt32 := 0x02014b50
/-- `CDH_LENGTH`, `src/spec/consts.rs:18`. -/
def CDH_LENGTH : Nat := 42
/-- `EOCDR_SIGNATURE`, `src/spec/consts.rs:23`. -/
def EOCDR_SIGNATURE : UInt32 := 0x06054b50
/-- `EOCDR_LENGTH`, `src/spec/consts.rs:25`. -/
def EOCDR_LENGTH : Nat := 18
/-- `ZIP64_EOCDR_SIGNATURE`, `src/spec/consts.rs:29`. -/
def ZIP64_EOCDR_SIGNATURE : UInt32 := 0x06064b50
/-- `ZIP64_EOCDL_SIGNATURE`, `src/spec/consts.rs:32`. -/
def ZIP64_EOCDL_SIGNATURE : UInt32 := 0x07064b50
/-- `ZIP64_EOCDL_LENGTH`, `src/spec/consts.rs:35`. -/
def ZIP64_EOCDL_LENGTH : Nat := 20
/-- `NON_ZIP64_MAX_SIZE`, `src/spec/consts.rs:38`. -/
def NON_ZIP64_MAX_SIZE : UInt32 := 0xFFFFFFFF
/-- `NON_ZIP64_MAX_NUM_FILES`, `src/spec/consts.rs:40`. -/
def NON_ZIP64_MAX_NUM_FILES : UInt16 := 0xFFFF
/-- `DATA_DESCRIPTOR_SIGNATURE`, `src/spec/consts.rs:43`. -/
def DATA_DESCRIPTOR_SIGNATURE : UInt32 := 0x08074b50
/-- `DATA_DESCRIPTOR_LENGTH`, `src/spec/consts.rs:44`. -/
def DATA_DESCRIPTOR_LENGTH : Nat := 12

end AsyncZip
