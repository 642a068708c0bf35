import Verif.Samples.Programs
/-!
# Entries with names that are not plain UTF-8, and the archives they make
-/

namespace AsyncZip.Samples

/-- A name in UTF-8 with an alternative in Latin-1, and a comment in UTF-8. -/
def nativeEntry : ZipEntry :=
  { ZipEntry.new (ZipString.newWithAlternative ⟨[195, 169], rfl⟩ [233]) .stored with
    comment := ZipString.ofString ⟨[195, 169], rfl⟩ }

/-- `nativeEntry`, without data. -/
def nativeBytes : Bytes :=
  [80, 75, 3, 4, 10, 0, 0, 0, 0, 0, 0, 0, 0, 0, 0, 0, 0, 0, 0, 0, 0, 0, 0, 0, 0, 0, 1, 0, 22, 0, 233, 117, 112, 7,
  0, 1, 81, 181, 212, 11, 195, 169, 117, 99, 7, 0, 1, 62, 141, 4, 14, 195, 169, 80, 75, 1, 2, 63, 3, 10, 0, 0, 0, 0,
  0, 0, 0, 0, 0, 0, 0, 0, 0, 0, 0, 0, 0, 0, 0, 0, 0, 1, 0, 22, 0, 2, 0, 0, 0, 0, 0, 0, 0, 0, 0, 0, 0, 0, 0, 233,
  117, 112, 7, 0, 1, 81, 181, 212, 11, 195, 169, 117, 99, 7, 0, 1, 62, 141, 4, 14, 195, 169, 195, 169, 80, 75, 5, 6,
  0, 0, 0, 0, 1, 0, 1, 0, 71, 0, 0, 0, 53, 0, 0, 0, 0, 0]

/-- An empty name with an alternative that is not empty. -/
def lostEntry : ZipEntry := ZipEntry.new (ZipString.newWithAlternative ⟨[], rfl⟩ [65]) .stored

/-- `lostEntry`, without data. -/
def lostBytes : Bytes :=
  [80, 75, 3, 4, 10, 0, 0, 0, 0, 0, 0, 0, 0, 0, 0, 0, 0, 0, 0, 0, 0, 0, 0, 0, 0, 0, 1, 0, 0, 0, 65, 80, 75, 1, 2,
  63, 3, 10, 0, 0, 0, 0, 0, 0, 0, 0, 0, 0, 0, 0, 0, 0, 0, 0, 0, 0, 0, 0, 0, 1, 0, 0, 0, 0, 0, 0, 0, 0, 0, 0, 0, 0,
  0, 0, 0, 0, 0, 65, 80, 75, 5, 6, 0, 0, 0, 0, 1, 0, 1, 0, 47, 0, 0, 0, 31, 0, 0, 0, 0, 0]

/-- A name with an alternative, and an Info-ZIP unicode path field of an unknown version. -/
def blockedEntry : ZipEntry :=
  { ZipEntry.new (ZipString.newWithAlternative ⟨[195, 169], rfl⟩ [233]) .stored with
    extraFields := [.unicodePath (.unknown 2 [0])] }

/-- `blockedEntry`, without data. -/
def blockedBytes : Bytes :=
  [80, 75, 3, 4, 10, 0, 0, 0, 0, 0, 0, 0, 0, 0, 0, 0, 0, 0, 0, 0, 0, 0, 0, 0, 0, 0, 1, 0, 6, 0, 233, 117, 112, 2, 0,
  2, 0, 80, 75, 1, 2, 63, 3, 10, 0, 0, 0, 0, 0, 0, 0, 0, 0, 0, 0, 0, 0, 0, 0, 0, 0, 0, 0, 0, 0, 1, 0, 6, 0, 0, 0, 0,
  0, 0, 0, 0, 0, 0, 0, 0, 0, 0, 0, 233, 117, 112, 2, 0, 2, 0, 80, 75, 5, 6, 0, 0, 0, 0, 1, 0, 1, 0, 53, 0, 0, 0, 37,
  0, 0, 0, 0, 0]

end AsyncZip.Samples
