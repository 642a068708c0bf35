import Verif.Model.Basic
/-!
# Strings (`src/string.rs`)
-/

namespace AsyncZip

/-- A UTF-8 continuation byte. -/
def isCont (b : UInt8) : Bool := 0x80 ≤ b && b ≤ 0xBF

/-- `core::str::from_utf8(..).is_ok()` (`src/string.rs:29`), following `core::str::validations::run_utf8_validation`
(Unicode table 3-7). External to `/repo`. -/
def utf8Valid : Bytes → Bool
  | [] => true
  | b0 :: rest =>
    if b0 < 0x80 then utf8Valid rest
    else if 0xC2 ≤ b0 && b0 ≤ 0xDF then
      match rest with
      | b1 :: r => isCont b1 && utf8Valid r
      | [] => false
    else if 0xE0 ≤ b0 && b0 ≤ 0xEF then
      match rest with
      | b1 :: b2 :: r =>
        (if b0 == 0xE0 then 0xA0 ≤ b1 && b1 ≤ 0xBF
         else if b0 == 0xED then 0x80 ≤ b1 && b1 ≤ 0x9F
         else isCont b1) && isCont b2 && utf8Valid r
      | _ => false
    else if 0xF0 ≤ b0 && b0 ≤ 0xF4 then
      match rest with
      | b1 :: b2 :: b3 :: r =>
        (if b0 == 0xF0 then 0x90 ≤ b1 && b1 ≤ 0xBF
         else if b0 == 0xF4 then 0x80 ≤ b1 && b1 ≤ 0x8F
         else isCont b1) && isCont b2 && isCont b3 && utf8Valid r
      | _ => false
    else false

/-- `<[u8]>::is_ascii` (`src/base/read/mod.rs:281,311`). -/
def isAscii (b : Bytes) : Bool := b.all (· < 0x80)

/-- A Rust `String`: bytes that are UTF-8 by the type's invariant. -/
structure RString where
  bytes : Bytes
  valid : utf8Valid bytes = true

/-- `StringEncoding`, `src/string.rs:7-11`. -/
inductive StringEncoding where
  | utf8
  | raw
deriving DecidableEq, Repr

/-- `ZipString`, `src/string.rs:15-19`. -/
structure ZipString where
  encoding : StringEncoding
  raw : Bytes
  alternative : Option Bytes
deriving DecidableEq, Repr

namespace ZipString

/-- `ZipString::new`, `src/string.rs:27-35`. -/
def new (raw : Bytes) (encoding : StringEncoding) : ZipString :=
  let encoding := match encoding with
    | .utf8 => if utf8Valid raw then .utf8 else .raw
    | e => e
  { encoding, raw, alternative := none }

/-- `ZipString::new_with_alternative`, `src/string.rs:38-40`. -/
def newWithAlternative (utf8 : RString) (alternative : Bytes) : ZipString :=
  { encoding := .utf8, raw := utf8.bytes, alternative := some alternative }

/-- `From<String>` / `From<&str>`, `src/string.rs:102-112`. -/
def ofString (value : RString) : ZipString :=
  { encoding := .utf8, raw := value.bytes, alternative := none }

/-- `ZipString::as_bytes`, `src/string.rs:43-45`. -/
def asBytes (s : ZipString) : Bytes := s.raw

/-- `ZipString::as_str`, `src/string.rs:61-76`; the returned `&str` is represented by its bytes. The Rust code is
undefined behaviour if these are not UTF-8. -/
def asStr (s : ZipString) : Res Bytes :=
  match s.encoding with
  | .utf8 => .ok s.raw
  | .raw => .error (.err .stringNotUtf8)

/-- `ZipString::into_string`, `src/string.rs:82-89`. -/
def intoString (s : ZipString) : Res Bytes :=
  match s.encoding with
  | .utf8 => .ok s.raw
  | .raw => .error (.err .stringNotUtf8)

/-- `ZipString::into_alternative`, `src/string.rs:92-94`. -/
def intoAlternative (s : ZipString) : Option Bytes := s.alternative

/-- `ZipString::is_utf8_without_alternative`, `src/string.rs:97-99`. -/
def isUtf8WithoutAlternative (s : ZipString) : Bool :=
  (match s.encoding with | .utf8 => true | .raw => false) && s.alternative.isNone

/-- `x.alternative().unwrap_or_else(|| x.as_bytes())`: the bytes stored in the basic name/comment field of headers
(`src/base/write/mod.rs:193-195`, `src/base/write/entry_whole.rs:120,134,173,174`,
`src/base/write/entry_stream.rs:139,151,161,252`). -/
def basic (s : ZipString) : Bytes := s.alternative.getD s.raw

end ZipString
end AsyncZip
