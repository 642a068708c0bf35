import Verif.Samples.Streams
import Verif.Samples.Names
/-!
# Archives whose entries are copied, and the copies
-/

namespace AsyncZip.Samples

/-- A build with overflow checks. -/
def checkedBuild : Build := ⟨true, 1000⟩

/-- A source that answers at once and in full. -/
def prompt (bytes : Bytes) : RState := ⟨bytes, 0, none, []⟩

/-- An archive of two entries; the second is compressed, has a name with an alternative, a comment, and a foreign field. -/
def foreignBytes : Bytes :=
  [80, 75, 3, 4, 10, 0, 0, 8, 0, 0, 131, 24, 34, 80, 27, 223, 5, 165, 1, 0, 0, 0, 1, 0, 0, 0, 3, 0, 0, 0, 97, 46, 116, 1,
   80, 75, 3, 4, 20, 0, 0, 0, 8, 0, 131, 24, 34, 80, 172, 42, 147, 216, 5, 0, 0, 0, 2, 0, 0, 0, 1, 0, 29, 0, 233, 1, 153, 3,
   0, 7, 8, 9, 117, 112, 7, 0, 1, 81, 181, 212, 11, 195, 169, 117, 99, 7, 0, 1, 62, 141, 4, 14, 195, 169, 1, 104, 1, 105, 0,
   80, 75, 1, 2, 63, 3, 10, 0, 0, 8, 0, 0, 131, 24, 34, 80, 27, 223, 5, 165, 1, 0, 0, 0, 1, 0, 0, 0, 3, 0, 0, 0, 0, 0, 0, 0,
   0, 0, 0, 0, 0, 0, 0, 0, 0, 0, 97, 46, 116,
   80, 75, 1, 2, 63, 3, 20, 0, 0, 0, 8, 0, 131, 24, 34, 80, 172, 42, 147, 216, 5, 0, 0, 0, 2, 0, 0, 0, 1, 0, 29, 0, 2, 0, 0,
   0, 0, 0, 0, 0, 164, 1, 34, 0, 0, 0, 233, 1, 153, 3, 0, 7, 8, 9, 117, 112, 7, 0, 1, 81, 181, 212, 11, 195, 169, 117, 99, 7,
   0, 1, 62, 141, 4, 14, 195, 169, 195, 169, 80, 75, 5, 6, 0, 0, 0, 0, 2, 0, 2, 0, 127, 0, 0, 0, 99, 0, 0, 0, 0, 0]

/-- Its second entry. -/
def foreignEntry : StoredZipEntry :=
  { entry :=
      { filename := { encoding := .utf8, raw := [195, 169], alternative := some [233] }
        compression := .deflate
        compressionLevel := .default
        crc32 := 3633523372
        uncompressedSize := 2
        compressedSize := 5
        attributeCompatibility := .unix
        lastModificationDate := { date := 20514, time := 6275 }
        internalFileAttribute := 0
        externalFileAttribute := 27525120
        extraFields :=
          [.unknown { headerId := 39169, dataSize := 3, content := [7, 8, 9] }, .unicodePath (.v1 198489425 [195, 169]),
           .unicodeComment (.v1 235179326 [195, 169])]
        comment := { encoding := .utf8, raw := [195, 169], alternative := some [195, 169] }
        dataDescriptor := false }
    fileOffset := 34
    headerSize := 60 }

/-- The archive, opened. -/
def foreignFile : ZipFile :=
  { entries :=
      [{ entry :=
           { filename := { encoding := .utf8, raw := [97, 46, 116], alternative := none }
             compression := .stored
             compressionLevel := .default
             crc32 := 2768625435
             uncompressedSize := 1
             compressedSize := 1
             attributeCompatibility := .unix
             lastModificationDate := { date := 20514, time := 6275 }
             internalFileAttribute := 0
             externalFileAttribute := 0
             extraFields := []
             comment := { encoding := .utf8, raw := [], alternative := none }
             dataDescriptor := false }
         fileOffset := 0
         headerSize := 33 },
       foreignEntry]
    zip64 := false
    comment := { encoding := .utf8, raw := [], alternative := none } }

/-- Copying the second entry, to a slow sink, and setting a comment. -/
def copyOps : List Op := [.whole foreignEntry.entry [104, 105] false slow, .comment ⟨[99], by decide⟩]

/-- What comes of it. -/
def copyBytes : Bytes :=
  [80, 75, 3, 4, 20, 0, 0, 0, 8, 0, 131, 24, 34, 80, 172, 42, 147, 216, 5, 0, 0, 0, 2, 0, 0, 0, 1, 0, 29, 0, 233, 1, 153, 3,
   0, 7, 8, 9, 117, 112, 7, 0, 1, 81, 181, 212, 11, 195, 169, 117, 99, 7, 0, 1, 62, 141, 4, 14, 195, 169, 1, 104, 1, 105, 0,
   80, 75, 1, 2, 63, 3, 20, 0, 0, 0, 8, 0, 131, 24, 34, 80, 172, 42, 147, 216, 5, 0, 0, 0, 2, 0, 0, 0, 1, 0, 29, 0, 2, 0, 0,
   0, 0, 0, 0, 0, 164, 1, 0, 0, 0, 0, 233, 1, 153, 3, 0, 7, 8, 9, 117, 112, 7, 0, 1, 81, 181, 212, 11, 195, 169, 117, 99, 7,
   0, 1, 62, 141, 4, 14, 195, 169, 195, 169, 80, 75, 5, 6, 0, 0, 0, 0, 1, 0, 1, 0, 78, 0, 0, 0, 65, 0, 0, 0, 1, 0, 99]

/-- What comes of copying both entries of the foreign archive. -/
def copiedBytes : Bytes :=
  [80, 75, 3, 4, 10, 0, 0, 8, 0, 0, 131, 24, 34, 80, 27, 223, 5, 165, 1, 0, 0, 0, 1, 0, 0, 0, 3, 0, 0, 0, 97, 46, 116, 1,
  80, 75, 3, 4, 20, 0, 0, 0, 8, 0, 131, 24, 34, 80, 172, 42, 147, 216, 5, 0, 0, 0, 2, 0, 0, 0, 1, 0, 29, 0, 233, 1, 153, 3,
  0, 7, 8, 9, 117, 112, 7, 0, 1, 81, 181, 212, 11, 195, 169, 117, 99, 7, 0, 1, 62, 141, 4, 14, 195, 169, 1, 104, 1, 105, 0,
  80, 75, 1, 2, 63, 3, 10, 0, 0, 8, 0, 0, 131, 24, 34, 80, 27, 223, 5, 165, 1, 0, 0, 0, 1, 0, 0, 0, 3, 0, 0, 0, 0, 0, 0, 0,
  0, 0, 0, 0, 0, 0, 0, 0, 0, 0, 97, 46, 116, 80, 75, 1, 2, 63, 3, 20, 0, 0, 0, 8, 0, 131, 24, 34, 80, 172, 42, 147, 216, 5,
  0, 0, 0, 2, 0, 0, 0, 1, 0, 29, 0, 2, 0, 0, 0, 0, 0, 0, 0, 164, 1, 34, 0, 0, 0, 233, 1, 153, 3, 0, 7, 8, 9, 117, 112, 7, 0,
  1, 81, 181, 212, 11, 195, 169, 117, 99, 7, 0, 1, 62, 141, 4, 14, 195, 169, 195, 169, 80, 75, 5, 6, 0, 0, 0, 0, 2, 0, 2, 0,
  127, 0, 0, 0, 99, 0, 0, 0, 0, 0]

/-- `deflatedEntry` as it is read from an archive it was streamed to (`streamedBytes`), and from a copy of that
(`secondBytes`), with its ZIP64 field. -/
def zip64Read (z : Zip64Field) (descriptor : Bool) : StoredZipEntry :=
  { entry :=
      { filename := { encoding := .utf8, raw := [98], alternative := none }
        compression := .deflate
        compressionLevel := .default
        crc32 := 1259076923
        uncompressedSize := 3
        compressedSize := 7
        attributeCompatibility := .unix
        lastModificationDate := { date := 0, time := 0 }
        internalFileAttribute := 0
        externalFileAttribute := 27525120
        extraFields := [.zip64 z]
        comment := { encoding := .utf8, raw := [], alternative := none }
        dataDescriptor := descriptor }
    fileOffset := 0
    headerSize := 59 }

/-- The streamed entry, read. -/
def firstRead : StoredZipEntry := zip64Read ⟨1, some 3, some 7, some 0, none⟩ true

/-- The copy of the streamed entry. -/
def secondBytes : Bytes :=
  [80, 75, 3, 4, 20, 0, 0, 8, 8, 0, 0, 0, 0, 0, 59, 253, 11, 75, 7, 0, 0, 0, 3, 0, 0, 0, 1, 0, 28, 0, 98, 1, 0, 24, 0, 3, 0,
   0, 0, 0, 0, 0, 0, 7, 0, 0, 0, 0, 0, 0, 0, 0, 0, 0, 0, 0, 0, 0, 0, 1, 7, 1, 8, 1, 9, 0,
   80, 75, 1, 2, 63, 3, 20, 0, 0, 8, 8, 0, 0, 0, 0, 0, 59, 253, 11, 75, 7, 0, 0, 0, 3, 0, 0, 0, 1, 0, 28, 0, 0, 0, 0, 0, 0, 0,
   0, 0, 164, 1, 0, 0, 0, 0, 98, 1, 0, 24, 0, 3, 0, 0, 0, 0, 0, 0, 0, 7, 0, 0, 0, 0, 0, 0, 0, 0, 0, 0, 0, 0, 0, 0, 0,
   80, 75, 5, 6, 0, 0, 0, 0, 1, 0, 1, 0, 75, 0, 0, 0, 66, 0, 0, 0, 0, 0]

/-- The copy, read: the sizes in the ZIP64 field are taken for an offset and a disk number. -/
def secondRead : StoredZipEntry := zip64Read ⟨1, none, none, some 3, some 7⟩ false

/-- The copy of the copy. -/
def thirdBytes : Bytes :=
  [80, 75, 3, 4, 20, 0, 0, 8, 8, 0, 0, 0, 0, 0, 59, 253, 11, 75, 7, 0, 0, 0, 3, 0, 0, 0, 1, 0, 20, 0, 98, 1, 0, 16, 0, 3, 0,
   0, 0, 0, 0, 0, 0, 7, 0, 0, 0, 1, 7, 1, 8, 1, 9, 0,
   80, 75, 1, 2, 63, 3, 20, 0, 0, 8, 8, 0, 0, 0, 0, 0, 59, 253, 11, 75, 7, 0, 0, 0, 3, 0, 0, 0, 1, 0, 20, 0, 0, 0, 0, 0, 0, 0,
   0, 0, 164, 1, 0, 0, 0, 0, 98, 1, 0, 16, 0, 3, 0, 0, 0, 0, 0, 0, 0, 7, 0, 0, 0,
   80, 75, 5, 6, 0, 0, 0, 0, 1, 0, 1, 0, 63, 0, 0, 0, 54, 0, 0, 0, 0, 0]

/-- An entry with the name `n`, no data, and a unicode path field. -/
def pathRead (n : ZipString) : StoredZipEntry :=
  { entry := { ZipEntry.new n .stored with extraFields := [.unicodePath (.v1 198489425 [195, 169])] }
    fileOffset := 0
    headerSize := 42 }

/-- An archive that says the name is UTF-8, which it is not, and has a unicode path field. -/
def misflaggedBytes : Bytes :=
  [80, 75, 3, 4, 10, 0, 0, 8, 0, 0, 0, 0, 0, 0, 0, 0, 0, 0, 0, 0, 0, 0, 0, 0, 0, 0, 1, 0, 11, 0, 233, 117, 112, 7, 0, 1, 81,
   181, 212, 11, 195, 169, 80, 75, 1, 2, 63, 3, 10, 0, 0, 8, 0, 0, 0, 0, 0, 0, 0, 0, 0, 0, 0, 0, 0, 0, 0, 0, 0, 0, 1, 0, 11,
   0, 0, 0, 0, 0, 0, 0, 0, 0, 0, 0, 0, 0, 0, 0, 233, 117, 112, 7, 0, 1, 81, 181, 212, 11, 195, 169, 80, 75, 5, 6, 0, 0, 0, 0,
   1, 0, 1, 0, 58, 0, 0, 0, 42, 0, 0, 0, 0, 0]

/-- The copy of its entry. -/
def renamedBytes : Bytes :=
  [80, 75, 3, 4, 10, 0, 0, 0, 0, 0, 0, 0, 0, 0, 0, 0, 0, 0, 0, 0, 0, 0, 0, 0, 0, 0, 1, 0, 11, 0, 233, 117, 112, 7, 0, 1, 81,
   181, 212, 11, 195, 169, 80, 75, 1, 2, 63, 3, 10, 0, 0, 0, 0, 0, 0, 0, 0, 0, 0, 0, 0, 0, 0, 0, 0, 0, 0, 0, 0, 0, 1, 0, 11,
   0, 0, 0, 0, 0, 0, 0, 0, 0, 0, 0, 0, 0, 0, 0, 233, 117, 112, 7, 0, 1, 81, 181, 212, 11, 195, 169, 80, 75, 5, 6, 0, 0, 0, 0,
   1, 0, 1, 0, 58, 0, 0, 0, 42, 0, 0, 0, 0, 0]

/-- An archive of this one entry. -/
def single (e : StoredZipEntry) (zip64 : Bool) : ZipFile :=
  { entries := [e], zip64, comment := { encoding := .utf8, raw := [], alternative := none } }

end AsyncZip.Samples
