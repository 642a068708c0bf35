import Verif.Model.Types
/-!
# Making a listing (`src/file/builder.rs`)

A listing, for `from_raw_parts` of the readers (`src/base/read/seek.rs:63-65`, `mem.rs:104-106`, `src/tokio/read/fs.rs:108-113`, which
keep it next to the source as `seekSession` and `sharedRun` take it), comes from a reader or from this builder.
-/

namespace AsyncZip

/-- `ZipFileBuilder`, `src/file/builder.rs:7`. -/
structure ZipFileBuilder where
  file : ZipFile

namespace ZipFileBuilder

/-- `new` and `default`, `src/file/builder.rs:15-24`. -/
def new : ZipFileBuilder := ⟨{ entries := [], zip64 := false, comment := ZipString.ofString ⟨[], rfl⟩ }⟩

/-- `From<ZipFile>`, `src/file/builder.rs:9-13`. -/
def ofFile (f : ZipFile) : ZipFileBuilder := ⟨f⟩

/-- `comment`, `src/file/builder.rs:27-30`. -/
def comment (b : ZipFileBuilder) (c : ZipString) : ZipFileBuilder := ⟨{ b.file with comment := c }⟩

/-- `build`, `src/file/builder.rs:41-43`, and `From<ZipFileBuilder> for ZipFile`, `src/file/mod.rs:17-21`. -/
def build (b : ZipFileBuilder) : ZipFile := b.file

end ZipFileBuilder

end AsyncZip
