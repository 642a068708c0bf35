import Verif.Samples.Programs
/-!
# One streamed entry, with and without ZIP64
-/

namespace AsyncZip.Samples

/-- Streaming three bytes, compressed. -/
def streamOne : List Op := [.stream deflatedEntry false eager [.write [7, 8, 9] eager] (.close eager)]

/-- What comes of it without ZIP64: seven bytes stand for the data. -/
def exchangedBytes : Bytes :=
  [80, 75, 3, 4, 20, 0, 8, 8, 8, 0, 0, 0, 0, 0, 0, 0, 0, 0, 0, 0, 0, 0, 0, 0, 0, 0, 1, 0, 0, 0, 98,
   1, 7, 1, 8, 1, 9, 0,
   80, 75, 7, 8, 59, 253, 11, 75, 3, 0, 0, 0, 7, 0, 0, 0,
   80, 75, 1, 2, 63, 3, 20, 0, 8, 8, 8, 0, 0, 0, 0, 0, 59, 253, 11, 75, 3, 0, 0, 0, 7, 0, 0, 0, 1, 0, 0, 0, 0, 0, 0, 0, 0, 0,
   0, 0, 164, 1, 0, 0, 0, 0, 98,
   80, 75, 5, 6, 0, 0, 0, 0, 1, 0, 1, 0, 47, 0, 0, 0, 54, 0, 0, 0, 0, 0]

/-- What comes of it otherwise. -/
def streamedBytes : Bytes :=
  [80, 75, 3, 4, 20, 0, 8, 8, 8, 0, 0, 0, 0, 0, 0, 0, 0, 0, 255, 255, 255, 255, 255, 255, 255, 255, 1, 0, 20, 0, 98,
   1, 0, 16, 0, 0, 0, 0, 0, 0, 0, 0, 0, 0, 0, 0, 0, 0, 0, 0, 0,
   1, 7, 1, 8, 1, 9, 0,
   80, 75, 7, 8, 59, 253, 11, 75, 255, 255, 255, 255, 255, 255, 255, 255,
   80, 75, 1, 2, 63, 3, 20, 0, 8, 8, 8, 0, 0, 0, 0, 0, 59, 253, 11, 75, 255, 255, 255, 255, 255, 255, 255, 255, 1, 0, 28, 0,
   0, 0, 0, 0, 0, 0, 0, 0, 164, 1, 255, 255, 255, 255, 98,
   1, 0, 24, 0, 3, 0, 0, 0, 0, 0, 0, 0, 7, 0, 0, 0, 0, 0, 0, 0, 0, 0, 0, 0, 0, 0, 0, 0,
   80, 75, 6, 6, 44, 0, 0, 0, 0, 0, 0, 0, 63, 3, 46, 0, 0, 0, 0, 0, 0, 0, 0, 0, 1, 0, 0, 0, 0, 0, 0, 0, 1, 0, 0, 0, 0, 0, 0, 0,
   75, 0, 0, 0, 0, 0, 0, 0, 74, 0, 0, 0, 0, 0, 0, 0,
   80, 75, 6, 7, 0, 0, 0, 0, 149, 0, 0, 0, 0, 0, 0, 0, 1, 0, 0, 0,
   80, 75, 5, 6, 0, 0, 0, 0, 1, 0, 1, 0, 75, 0, 0, 0, 74, 0, 0, 0, 0, 0]

/-- The same, flushed before the end: eight bytes stand for the data. -/
def flushedBytes : Bytes :=
  [80, 75, 3, 4, 20, 0, 8, 8, 8, 0, 0, 0, 0, 0, 0, 0, 0, 0, 255, 255, 255, 255, 255, 255, 255, 255, 1, 0, 20, 0, 98,
   1, 0, 16, 0, 0, 0, 0, 0, 0, 0, 0, 0, 0, 0, 0, 0, 0, 0, 0, 0,
   1, 7, 1, 8, 1, 9, 2, 0,
   80, 75, 7, 8, 59, 253, 11, 75, 255, 255, 255, 255, 255, 255, 255, 255,
   80, 75, 1, 2, 63, 3, 20, 0, 8, 8, 8, 0, 0, 0, 0, 0, 59, 253, 11, 75, 255, 255, 255, 255, 255, 255, 255, 255, 1, 0, 28, 0,
   0, 0, 0, 0, 0, 0, 0, 0, 164, 1, 255, 255, 255, 255, 98,
   1, 0, 24, 0, 3, 0, 0, 0, 0, 0, 0, 0, 8, 0, 0, 0, 0, 0, 0, 0, 0, 0, 0, 0, 0, 0, 0, 0,
   80, 75, 6, 6, 44, 0, 0, 0, 0, 0, 0, 0, 63, 3, 46, 0, 0, 0, 0, 0, 0, 0, 0, 0, 1, 0, 0, 0, 0, 0, 0, 0, 1, 0, 0, 0, 0, 0, 0, 0,
   75, 0, 0, 0, 0, 0, 0, 0, 75, 0, 0, 0, 0, 0, 0, 0,
   80, 75, 6, 7, 0, 0, 0, 0, 150, 0, 0, 0, 0, 0, 0, 0, 1, 0, 0, 0,
   80, 75, 5, 6, 0, 0, 0, 0, 1, 0, 1, 0, 75, 0, 0, 0, 75, 0, 0, 0, 0, 0]

/-- The same data written as a whole. -/
def wholeBytes : Bytes :=
  [80, 75, 3, 4, 20, 0, 0, 8, 8, 0, 0, 0, 0, 0, 59, 253, 11, 75, 7, 0, 0, 0, 3, 0, 0, 0, 1, 0, 0, 0, 98,
   1, 7, 1, 8, 1, 9, 0,
   80, 75, 1, 2, 63, 3, 20, 0, 0, 8, 8, 0, 0, 0, 0, 0, 59, 253, 11, 75, 7, 0, 0, 0, 3, 0, 0, 0, 1, 0, 0, 0, 0, 0, 0, 0, 0, 0,
   0, 0, 164, 1, 0, 0, 0, 0, 98,
   80, 75, 5, 6, 0, 0, 0, 0, 1, 0, 1, 0, 47, 0, 0, 0, 38, 0, 0, 0, 0, 0]

/-- Three files: stored, streamed, compressed as a whole. -/
def tour : List Op :=
  [.whole storedEntry [104, 105] false slow,
   .comment ⟨[99], by decide⟩,
   .stream deflatedEntry false eager [.write [7, 8, 9] eager, .flush eager] (.close eager),
   .whole deflatedEntry [5] false eager]

/-- What comes of it. -/
def tourBytes : Bytes :=
  [80, 75, 3, 4, 10, 0, 0, 8, 0, 0, 131, 24, 34, 80, 172, 42, 147, 216, 2, 0, 0, 0, 2, 0, 0, 0, 3, 0, 0, 0, 97, 46,
  116, 104, 105, 80, 75, 3, 4, 20, 0, 8, 8, 8, 0, 0, 0, 0, 0, 0, 0, 0, 0, 255, 255, 255, 255, 255, 255, 255, 255, 1,
  0, 20, 0, 98, 1, 0, 16, 0, 0, 0, 0, 0, 0, 0, 0, 0, 0, 0, 0, 0, 0, 0, 0, 0, 1, 7, 1, 8, 1, 9, 2, 0, 80, 75, 7, 8, 59,
  253, 11, 75, 255, 255, 255, 255, 255, 255, 255, 255, 80, 75, 3, 4, 20, 0, 0, 8, 8, 0, 0, 0, 0, 0, 2, 27, 104, 162,
  3, 0, 0, 0, 1, 0, 0, 0, 1, 0, 0, 0, 98, 1, 5, 0, 80, 75, 1, 2, 63, 3, 10, 0, 0, 8, 0, 0, 131, 24, 34, 80, 172, 42,
  147, 216, 2, 0, 0, 0, 2, 0, 0, 0, 3, 0, 0, 0, 0, 0, 0, 0, 0, 0, 0, 0, 0, 0, 0, 0, 0, 0, 97, 46, 116, 80, 75, 1, 2,
  63, 3, 20, 0, 8, 8, 8, 0, 0, 0, 0, 0, 59, 253, 11, 75, 255, 255, 255, 255, 255, 255, 255, 255, 1, 0, 28, 0, 0, 0, 0,
  0, 0, 0, 0, 0, 164, 1, 255, 255, 255, 255, 98, 1, 0, 24, 0, 3, 0, 0, 0, 0, 0, 0, 0, 8, 0, 0, 0, 0, 0, 0, 0, 35, 0,
  0, 0, 0, 0, 0, 0, 80, 75, 1, 2, 63, 3, 20, 0, 0, 8, 8, 0, 0, 0, 0, 0, 2, 27, 104, 162, 3, 0, 0, 0, 1, 0, 0, 0, 1, 0,
  0, 0, 0, 0, 0, 0, 0, 0, 0, 0, 164, 1, 110, 0, 0, 0, 98, 80, 75, 6, 6, 44, 0, 0, 0, 0, 0, 0, 0, 63, 3, 46, 0, 0, 0,
  0, 0, 0, 0, 0, 0, 3, 0, 0, 0, 0, 0, 0, 0, 3, 0, 0, 0, 0, 0, 0, 0, 171, 0, 0, 0, 0, 0, 0, 0, 144, 0, 0, 0, 0, 0, 0,
  0, 80, 75, 6, 7, 0, 0, 0, 0, 59, 1, 0, 0, 0, 0, 0, 0, 1, 0, 0, 0, 80, 75, 5, 6, 0, 0, 0, 0, 3, 0, 3, 0, 171, 0, 0,
  0, 144, 0, 0, 0, 1, 0, 99]

/-- An entry for precompressed data, with the checksum and size of `[7, 8, 9]`. -/
def readyEntry : ZipEntry := { deflatedEntry with crc32 := 1259076923, uncompressedSize := 3 }

/-- Precompressed data, as a whole and as a stream, and a stored file. -/
def readyMade : List Op :=
  [.whole readyEntry [1, 7, 1, 8, 1, 9, 0] true eager,
   .stream readyEntry true eager [.write [1, 7, 1, 8, 1, 9, 0] eager] (.close eager),
   .whole storedEntry [5] false eager]

/-- What comes of it. -/
def readyBytes : Bytes :=
  [80, 75, 3, 4, 20, 0, 0, 8, 8, 0, 0, 0, 0, 0, 59, 253, 11, 75, 7, 0, 0, 0, 3, 0, 0, 0, 1, 0, 0, 0, 98, 1, 7, 1, 8, 1, 9,
  0, 80, 75, 3, 4, 20, 0, 8, 8, 8, 0, 0, 0, 0, 0, 59, 253, 11, 75, 255, 255, 255, 255, 255, 255, 255, 255, 1, 0, 20, 0, 98,
  1, 0, 16, 0, 3, 0, 0, 0, 0, 0, 0, 0, 0, 0, 0, 0, 0, 0, 0, 0, 1, 7, 1, 8, 1, 9, 0, 80, 75, 7, 8, 59, 253, 11, 75, 255, 255,
  255, 255, 255, 255, 255, 255, 80, 75, 3, 4, 10, 0, 0, 8, 0, 0, 131, 24, 34, 80, 2, 27, 104, 162, 1, 0, 0, 0, 1, 0, 0, 0,
  3, 0, 0, 0, 97, 46, 116, 5, 80, 75, 1, 2, 63, 3, 20, 0, 0, 8, 8, 0, 0, 0, 0, 0, 59, 253, 11, 75, 7, 0, 0, 0, 3, 0, 0, 0,
  1, 0, 0, 0, 0, 0, 0, 0, 0, 0, 0, 0, 164, 1, 0, 0, 0, 0, 98, 80, 75, 1, 2, 63, 3, 20, 0, 8, 8, 8, 0, 0, 0, 0, 0, 59, 253,
  11, 75, 255, 255, 255, 255, 255, 255, 255, 255, 1, 0, 28, 0, 0, 0, 0, 0, 0, 0, 0, 0, 164, 1, 255, 255, 255, 255, 98, 1, 0,
  24, 0, 3, 0, 0, 0, 0, 0, 0, 0, 7, 0, 0, 0, 0, 0, 0, 0, 38, 0, 0, 0, 0, 0, 0, 0, 80, 75, 1, 2, 63, 3, 10, 0, 0, 8, 0, 0,
  131, 24, 34, 80, 2, 27, 104, 162, 1, 0, 0, 0, 1, 0, 0, 0, 3, 0, 0, 0, 0, 0, 0, 0, 0, 0, 0, 0, 0, 0, 112, 0, 0, 0, 97, 46,
  116, 80, 75, 6, 6, 44, 0, 0, 0, 0, 0, 0, 0, 63, 3, 46, 0, 0, 0, 0, 0, 0, 0, 0, 0, 3, 0, 0, 0, 0, 0, 0, 0, 3, 0, 0, 0, 0,
  0, 0, 0, 171, 0, 0, 0, 0, 0, 0, 0, 146, 0, 0, 0, 0, 0, 0, 0, 80, 75, 6, 7, 0, 0, 0, 0, 61, 1, 0, 0, 0, 0, 0, 0, 1, 0, 0,
  0, 80, 75, 5, 6, 0, 0, 0, 0, 3, 0, 3, 0, 171, 0, 0, 0, 146, 0, 0, 0, 0, 0]

/-- Streaming three bytes without compression. -/
def streamPlain : List Op := [.stream storedEntry false eager [.write [7, 8, 9] eager] (.close eager)]

/-- What comes of it. -/
def plainBytes : Bytes :=
  [80, 75, 3, 4, 10, 0, 8, 8, 0, 0, 131, 24, 34, 80, 0, 0, 0, 0, 255, 255, 255, 255, 255, 255, 255, 255, 3, 0, 20, 0,
  97, 46, 116, 1, 0, 16, 0, 0, 0, 0, 0, 0, 0, 0, 0, 0, 0, 0, 0, 0, 0, 0, 0, 7, 8, 9, 80, 75, 7, 8, 59, 253, 11, 75,
  255, 255, 255, 255, 255, 255, 255, 255, 80, 75, 1, 2, 63, 3, 10, 0, 8, 8, 0, 0, 131, 24, 34, 80, 59, 253, 11, 75,
  255, 255, 255, 255, 255, 255, 255, 255, 3, 0, 28, 0, 0, 0, 0, 0, 0, 0, 0, 0, 0, 0, 255, 255, 255, 255, 97, 46, 116,
  1, 0, 24, 0, 3, 0, 0, 0, 0, 0, 0, 0, 3, 0, 0, 0, 0, 0, 0, 0, 0, 0, 0, 0, 0, 0, 0, 0, 80, 75, 6, 6, 44, 0, 0, 0, 0,
  0, 0, 0, 63, 3, 46, 0, 0, 0, 0, 0, 0, 0, 0, 0, 1, 0, 0, 0, 0, 0, 0, 0, 1, 0, 0, 0, 0, 0, 0, 0, 77, 0, 0, 0, 0, 0, 0,
  0, 72, 0, 0, 0, 0, 0, 0, 0, 80, 75, 6, 7, 0, 0, 0, 0, 149, 0, 0, 0, 0, 0, 0, 0, 1, 0, 0, 0, 80, 75, 5, 6, 0, 0, 0,
  0, 1, 0, 1, 0, 77, 0, 0, 0, 72, 0, 0, 0, 0, 0]

end AsyncZip.Samples
