import Verif.Samples.Programs
/-!
# Archives for reading from front to back
-/

namespace AsyncZip.Samples

/-- Two files written whole. -/
def pair : List Op := [.whole storedEntry [104, 105] false slow, .whole deflatedEntry [5] false eager]

/-- What comes of it. -/
def pairBytes : Bytes :=
  [80, 75, 3, 4, 10, 0, 0, 8, 0, 0, 131, 24, 34, 80, 172, 42, 147, 216, 2, 0, 0, 0, 2, 0, 0, 0, 3, 0, 0, 0, 97, 46, 116, 104, 105,
   80, 75, 3, 4, 20, 0, 0, 8, 8, 0, 0, 0, 0, 0, 2, 27, 104, 162, 3, 0, 0, 0, 1, 0, 0, 0, 1, 0, 0, 0, 98, 1, 5, 0,
   80, 75, 1, 2, 63, 3, 10, 0, 0, 8, 0, 0, 131, 24, 34, 80, 172, 42, 147, 216, 2, 0, 0, 0, 2, 0, 0, 0, 3, 0, 0, 0, 0, 0, 0, 0, 0, 0,
   0, 0, 0, 0, 0, 0, 0, 0, 97, 46, 116,
   80, 75, 1, 2, 63, 3, 20, 0, 0, 8, 8, 0, 0, 0, 0, 0, 2, 27, 104, 162, 3, 0, 0, 0, 1, 0, 0, 0, 1, 0, 0, 0, 0, 0, 0, 0, 0, 0, 0, 0,
   164, 1, 35, 0, 0, 0, 98,
   80, 75, 5, 6, 0, 0, 0, 0, 2, 0, 2, 0, 96, 0, 0, 0, 69, 0, 0, 0, 0, 0]

/-- An archive of other origin: a compressed entry with a data descriptor, and a stored one. -/
def described : Bytes :=
  [80, 75, 3, 4, 20, 0, 8, 0, 8, 0, 131, 24, 34, 80, 0, 0, 0, 0, 0, 0, 0, 0, 0, 0, 0, 0, 1, 0, 0, 0, 98,
   1, 7, 1, 8, 1, 9, 0, 80, 75, 7, 8, 59, 253, 11, 75, 7, 0, 0, 0, 3, 0, 0, 0,
   80, 75, 3, 4, 20, 0, 0, 0, 0, 0, 131, 24, 34, 80, 172, 42, 147, 216, 2, 0, 0, 0, 2, 0, 0, 0, 3, 0, 0, 0, 97, 46, 116, 104, 105,
   80, 75, 1, 2, 20, 3, 20, 0, 8, 0, 8, 0, 131, 24, 34, 80, 59, 253, 11, 75, 7, 0, 0, 0, 3, 0, 0, 0, 1, 0, 0, 0, 0, 0, 0, 0, 0, 0,
   0, 0, 0, 0, 0, 0, 0, 0, 98,
   80, 75, 1, 2, 20, 3, 20, 0, 0, 0, 0, 0, 131, 24, 34, 80, 172, 42, 147, 216, 2, 0, 0, 0, 2, 0, 0, 0, 3, 0, 0, 0, 0, 0, 0, 0, 0, 0,
   0, 0, 0, 0, 54, 0, 0, 0, 97, 46, 116,
   80, 75, 5, 6, 0, 0, 0, 0, 2, 0, 2, 0, 96, 0, 0, 0, 89, 0, 0, 0, 0, 0]

/-- The same with a ZIP64 field in the first local header, and hence sizes of eight bytes in the data descriptor. -/
def wide : Bytes :=
  [80, 75, 3, 4, 20, 0, 8, 0, 8, 0, 131, 24, 34, 80, 0, 0, 0, 0, 255, 255, 255, 255, 255, 255, 255, 255, 1, 0, 20, 0, 98,
   1, 0, 16, 0, 0, 0, 0, 0, 0, 0, 0, 0, 0, 0, 0, 0, 0, 0, 0, 0,
   1, 7, 1, 8, 1, 9, 0, 80, 75, 7, 8, 59, 253, 11, 75, 7, 0, 0, 0, 0, 0, 0, 0, 3, 0, 0, 0, 0, 0, 0, 0,
   80, 75, 3, 4, 20, 0, 0, 0, 0, 0, 131, 24, 34, 80, 172, 42, 147, 216, 2, 0, 0, 0, 2, 0, 0, 0, 3, 0, 0, 0, 97, 46, 116, 104, 105,
   80, 75, 1, 2, 20, 3, 20, 0, 8, 0, 8, 0, 131, 24, 34, 80, 59, 253, 11, 75, 7, 0, 0, 0, 3, 0, 0, 0, 1, 0, 0, 0, 0, 0, 0, 0, 0, 0,
   0, 0, 0, 0, 0, 0, 0, 0, 98,
   80, 75, 1, 2, 20, 3, 20, 0, 0, 0, 0, 0, 131, 24, 34, 80, 172, 42, 147, 216, 2, 0, 0, 0, 2, 0, 0, 0, 3, 0, 0, 0, 0, 0, 0, 0, 0, 0,
   0, 0, 0, 0, 82, 0, 0, 0, 97, 46, 116,
   80, 75, 5, 6, 0, 0, 0, 0, 2, 0, 2, 0, 96, 0, 0, 0, 117, 0, 0, 0, 0, 0]

end AsyncZip.Samples
