import Verif.Spec.Openable
/-!
# What is reported about a file that cannot be opened, or a header that cannot be read from a stream

Which part is the first that is wrong is read off the bytes. Nothing here refers to the reader, only to the errors it can
report. `checks` says whether arithmetic overflow is checked (Cargo's `overflow-checks`).
-/

namespace AsyncZip.Spec

/-- The file ends too early. -/
def endOfFile : Fail := .err (.upstreamReadError .unexpectedEof)

/-- The first thing wrong with the extra field `x`. -/
inductive BadExtra (checks : Bool) : List UInt8 → Fail → Prop
  /-- The block is longer than what is left; computing the number to report overflows. -/
  | overlongPanic (x : List UInt8) (h : Overlong x) (hc : checks = true) : BadExtra checks x .panic
  | overlong (x : List UInt8) (h : Overlong x) (hc : checks = false) (size : UInt16) (remaining : Nat)
      (hs : size.toNat = fieldAt x 2 2) (hr : remaining + 8 + size.toNat = 2 ^ 64 + x.length) :
      BadExtra checks x (.err (.invalidExtraFieldHeader size remaining))
  | comment (x : List UInt8) (h4 : 4 < x.length) (hlen : 4 + fieldAt x 2 2 ≤ x.length) (hid : fieldAt x 0 2 = 0x6375)
      (h : ¬ CompleteField (0x6375, (x.drop 4).take (fieldAt x 2 2))) :
      BadExtra checks x (.err .infoZipUnicodeCommentFieldIncomplete)
  | path (x : List UInt8) (h4 : 4 < x.length) (hlen : 4 + fieldAt x 2 2 ≤ x.length) (hid : fieldAt x 0 2 = 0x7075)
      (h : ¬ CompleteField (0x7075, (x.drop 4).take (fieldAt x 2 2))) :
      BadExtra checks x (.err .infoZipUnicodePathFieldIncomplete)
  | later (x : List UInt8) (hlen : 4 + fieldAt x 2 2 ≤ x.length)
      (h : CompleteField (fieldAt x 0 2, (x.drop 4).take (fieldAt x 2 2))) (e : Fail)
      (hs : BadExtra checks (x.drop (4 + fieldAt x 2 2)) e) : BadExtra checks x e

/-- The first thing wrong with what should be a directory record at `off`. -/
inductive BadRecord (checks : Bool) (data : List UInt8) (off : Nat) : Fail → Prop
  | gone (h : data.length < off + 4) : BadRecord checks data off endOfFile
  | signature (h : off + 4 ≤ data.length) (hs : ¬ OccursAt data sigCentral off) (actual : UInt32)
      (ha : actual.toNat = fieldAt data off 4) :
      BadRecord checks data off (.err (.unexpectedHeaderError actual 0x02014b50))
  | cut (hs : OccursAt data sigCentral off) (h : data.length < off + 46) : BadRecord checks data off endOfFile
  | method (h : off + 46 ≤ data.length) (hs : OccursAt data sigCentral off) (id : UInt16)
      (hid : id.toNat = fieldAt data (off + 10) 2) (hm : ∀ c, (c, id.toNat) ∉ methodTable) :
      BadRecord checks data off (.err (.compressionNotSupported id))
  | extra (h : off + 46 ≤ data.length) (hs : OccursAt data sigCentral off)
      (hm : ∃ c, (c, fieldAt data (off + 10) 2) ∈ methodTable) (e : Fail)
      (hx : BadExtra checks (window data (off + 46 + fieldAt data (off + 28) 2) (fieldAt data (off + 30) 2)) e) :
      BadRecord checks data off e

/-- The first bad record among `n`, the first of them at `off`. -/
inductive FirstBad (checks : Bool) (data : List UInt8) : Nat → Nat → Fail → Prop
  | here (off n : Nat) (e : Fail) (h : BadRecord checks data off e) : FirstBad checks data off (n + 1) e
  | later (off n : Nat) (e : Fail) (h : GoodRecord data off)
      (hs : FirstBad checks data (off + recordLength data off) n e) : FirstBad checks data off (n + 1) e

/-- The first thing wrong with a file. -/
inductive Refused (checks : Bool) (most : Nat) (data : List UInt8) : Fail → Prop
  | noEnd (h : ∀ j, OccursAt data sigEnd j → j + reach < data.length) :
      Refused checks most data (.err .unableToLocateEOCDR)
  | endCut (j : Nat) (hl : LastEnd data j) (hn : data.length ≤ j + reach) (h : data.length < j + 22) :
      Refused checks most data endOfFile
  | zip64Cut (j : Nat) (hl : LastEnd data j) (hn : data.length ≤ j + reach) (hc : j + 22 ≤ data.length)
      (hz : HasLocator data j) (hf : zip64End data j + 4 < 2 ^ 64) (h : data.length < zip64End data j + 56) :
      Refused checks most data endOfFile
  /-- Computing where to seek to overflows. -/
  | zip64Far (j : Nat) (hl : LastEnd data j) (hn : data.length ≤ j + reach) (hc : j + 22 ≤ data.length)
      (hz : HasLocator data j) (hf : 2 ^ 64 ≤ zip64End data j + 4) (h : checks = true) : Refused checks most data .panic
  | split (j : Nat) (hl : LastEnd data j) (hn : data.length ≤ j + reach) (hc : j + 22 ≤ data.length)
      (hz : HasLocator data j → zip64End data j + 56 ≤ data.length)
      (h : declaredDisk data j ≠ declaredStartDisk data j ∨ declaredEntries data j ≠ declaredEntriesOnDisk data j) :
      Refused checks most data (.err (.featureNotSupported "Spanned/split files"))
  | tooMany (j : Nat) (hl : LastEnd data j) (hn : data.length ≤ j + reach) (hc : j + 22 ≤ data.length)
      (hz : HasLocator data j → zip64End data j + 56 ≤ data.length) (hd : declaredDisk data j = declaredStartDisk data j)
      (hw : declaredEntries data j = declaredEntriesOnDisk data j) (h : most < declaredEntries data j) :
      Refused checks most data .panic
  | record (j : Nat) (hl : LastEnd data j) (hn : data.length ≤ j + reach) (hc : j + 22 ≤ data.length)
      (hz : HasLocator data j → zip64End data j + 56 ≤ data.length) (hd : declaredDisk data j = declaredStartDisk data j)
      (hw : declaredEntries data j = declaredEntriesOnDisk data j) (hm : declaredEntries data j ≤ most) (e : Fail)
      (h : FirstBad checks data (declaredOffset data j) (declaredEntries data j) e) : Refused checks most data e

/-- The first thing wrong with what should be a local header, or a directory record, at `pos`. -/
inductive BadHeader (checks : Bool) (data : List UInt8) (pos : Nat) : Fail → Prop
  | gone (h : data.length < pos + 4) : BadHeader checks data pos endOfFile
  | signature (h : pos + 4 ≤ data.length) (hl : ¬ OccursAt data sigLocal pos) (hc : ¬ OccursAt data sigCentral pos)
      (actual : UInt32) (ha : actual.toNat = fieldAt data pos 4) :
      BadHeader checks data pos (.err (.unexpectedHeaderError actual 0x04034b50))
  | cut (hs : OccursAt data sigLocal pos) (h : data.length < pos + 30) : BadHeader checks data pos endOfFile
  | method (h : pos + 30 ≤ data.length) (hs : OccursAt data sigLocal pos) (id : UInt16)
      (hid : id.toNat = fieldAt data (pos + 8) 2) (hm : ∀ c, (c, id.toNat) ∉ methodTable) :
      BadHeader checks data pos (.err (.compressionNotSupported id))
  | extra (h : pos + 30 ≤ data.length) (hs : OccursAt data sigLocal pos)
      (hm : ∃ c, (c, fieldAt data (pos + 8) 2) ∈ methodTable) (e : Fail)
      (hx : BadExtra checks (window data (pos + 30 + fieldAt data (pos + 26) 2) (fieldAt data (pos + 28) 2)) e) :
      BadHeader checks data pos e
  | descriptor (h : pos + 30 ≤ data.length) (hs : OccursAt data sigLocal pos)
      (hx : GoodExtra (window data (pos + 30 + fieldAt data (pos + 26) 2) (fieldAt data (pos + 28) 2)))
      (hd : (fieldAt data (pos + 6) 2).testBit 3 = true) (hm : fieldAt data (pos + 8) 2 = 0) :
      BadHeader checks data pos (.err (.featureNotSupported
        "stream reading entries with data descriptors & Stored compression mode"))
  | encrypted (h : pos + 30 ≤ data.length) (hs : OccursAt data sigLocal pos)
      (hm : ∃ c, (c, fieldAt data (pos + 8) 2) ∈ methodTable)
      (hx : GoodExtra (window data (pos + 30 + fieldAt data (pos + 26) 2) (fieldAt data (pos + 28) 2)))
      (hd : ¬ ((fieldAt data (pos + 6) 2).testBit 3 = true ∧ fieldAt data (pos + 8) 2 = 0))
      (he : (fieldAt data (pos + 6) 2).testBit 0 = true) :
      BadHeader checks data pos (.err (.featureNotSupported "encryption"))

/-- The first thing wrong with what should be the local header at `off` of an entry of an open file; its fields other than
the lengths are not looked at. -/
inductive BadEntry (data : List UInt8) (off : Nat) : Fail → Prop
  | gone (h : data.length < off + 4) : BadEntry data off endOfFile
  | signature (h : off + 4 ≤ data.length) (hs : ¬ OccursAt data sigLocal off) (actual : UInt32)
      (ha : actual.toNat = fieldAt data off 4) : BadEntry data off (.err (.unexpectedHeaderError actual 0x04034b50))
  | cut (hs : OccursAt data sigLocal off) (h : data.length < off + 30) : BadEntry data off endOfFile

end AsyncZip.Spec
