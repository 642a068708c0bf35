import Verif.Samples.Streams
/-!
# An entry with custom extra fields
-/

namespace AsyncZip.Samples

/-- A file with two custom fields, the second without content. -/
def fieldedEntry : ZipEntry := { storedEntry with extraFields := [.unknown ⟨0x9901, 2, [1, 2]⟩, .unknown ⟨0x9902, 0, []⟩] }

/-- Writing it. -/
def fielded : List Op := [.whole fieldedEntry [104, 105] false eager]

/-- What comes of it. -/
def fieldedBytes : Bytes :=
  [80, 75, 3, 4, 10, 0, 0, 8, 0, 0, 131, 24, 34, 80, 172, 42, 147, 216, 2, 0, 0, 0, 2, 0, 0, 0, 3, 0, 10, 0, 97, 46, 116,
  1, 153, 2, 0, 1, 2, 2, 153, 0, 0, 104, 105, 80, 75, 1, 2, 63, 3, 10, 0, 0, 8, 0, 0, 131, 24, 34, 80, 172, 42, 147, 216,
  2, 0, 0, 0, 2, 0, 0, 0, 3, 0, 10, 0, 0, 0, 0, 0, 0, 0, 0, 0, 0, 0, 0, 0, 0, 0, 97, 46, 116, 1, 153, 2, 0, 1, 2, 2, 153,
  0, 0, 80, 75, 5, 6, 0, 0, 0, 0, 1, 0, 1, 0, 59, 0, 0, 0, 45, 0, 0, 0, 0, 0]

end AsyncZip.Samples
