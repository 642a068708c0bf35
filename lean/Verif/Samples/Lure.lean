import Verif.Samples.Streams
/-!
# An entry whose comment looks like a ZIP64 locator

The comment of the last entry is directly before the end record, where a reader looks for the locator.
-/

namespace AsyncZip.Samples

/-- A file whose comment is the text of a ZIP64 locator that points two gigabytes ahead. -/
def lureEntry : ZipEntry :=
  { storedEntry with comment := ⟨.utf8, [80, 75, 6, 7, 0, 0, 0, 0, 0, 0, 0, 127, 0, 0, 0, 0, 1, 0, 0, 0], none⟩ }

/-- Writing it. -/
def lure : List Op := [.whole lureEntry [104, 105] false eager]

/-- What comes of it. -/
def lureBytes : Bytes :=
  [80, 75, 3, 4, 10, 0, 0, 8, 0, 0, 131, 24, 34, 80, 172, 42, 147, 216, 2, 0, 0, 0, 2, 0, 0, 0, 3, 0, 0, 0, 97, 46, 116,
  104, 105, 80, 75, 1, 2, 63, 3, 10, 0, 0, 8, 0, 0, 131, 24, 34, 80, 172, 42, 147, 216, 2, 0, 0, 0, 2, 0, 0, 0, 3, 0, 0, 0,
  20, 0, 0, 0, 0, 0, 0, 0, 0, 0, 0, 0, 0, 0, 97, 46, 116, 80, 75, 6, 7, 0, 0, 0, 0, 0, 0, 0, 127, 0, 0, 0, 0, 1, 0, 0, 0,
  80, 75, 5, 6, 0, 0, 0, 0, 1, 0, 1, 0, 69, 0, 0, 0, 35, 0, 0, 0, 0, 0]

/-- A file whose comment, in a native encoding, is a ZIP64 locator that points at the last byte an offset can name. -/
def trapEntry : ZipEntry :=
  { storedEntry with comment :=
      ⟨.raw, [80, 75, 6, 7, 0, 0, 0, 0, 255, 255, 255, 255, 255, 255, 255, 255, 1, 0, 0, 0], none⟩ }

/-- Writing it. -/
def trap : List Op := [.whole trapEntry [104, 105] false eager]

/-- What comes of it. -/
def trapBytes : Bytes :=
  [80, 75, 3, 4, 10, 0, 0, 0, 0, 0, 131, 24, 34, 80, 172, 42, 147, 216, 2, 0, 0, 0, 2, 0, 0, 0, 3, 0, 12, 0, 97, 46, 116,
  117, 112, 8, 0, 1, 12, 196, 59, 234, 97, 46, 116, 104, 105, 80, 75, 1, 2, 63, 3, 10, 0, 0, 0, 0, 0, 131, 24, 34, 80,
  172, 42, 147, 216, 2, 0, 0, 0, 2, 0, 0, 0, 3, 0, 12, 0, 20, 0, 0, 0, 0, 0, 0, 0, 0, 0, 0, 0, 0, 0, 97, 46, 116, 117,
  112, 8, 0, 1, 12, 196, 59, 234, 97, 46, 116, 80, 75, 6, 7, 0, 0, 0, 0, 255, 255, 255, 255, 255, 255, 255, 255, 1, 0, 0,
  0, 80, 75, 5, 6, 0, 0, 0, 0, 1, 0, 1, 0, 81, 0, 0, 0, 47, 0, 0, 0, 0, 0]

end AsyncZip.Samples
