import Verif.Model.TocDat
import Verif.Model.ApidbReader
/-!
# The directory of a dump (`src/osm/apidb_dump/write/writer.rs`, `src/osm/apidb_dump/read/reader.rs`)
-/
namespace OsmIo.Apidb
open OsmIo.Text

/-- A directory: the contents of the files in it.
(file system, as used in `src/osm/apidb_dump/write/table_data_writer.rs:16-24`, `src/osm/apidb_dump/write/toc.rs:9-13`) -/
abbrev Directory := Text → Option Bytes

/-- Creates or replaces a file.
(file system, as used in `src/osm/apidb_dump/write/table_data_writer.rs:16-24`, `src/osm/apidb_dump/write/toc.rs:9-13`) -/
def Directory.write (d : Directory) (name : Text) (bytes : Bytes) : Directory :=
  fun n => if n = name then some bytes else d n

/-- The file of a table: `template_mapping[..].to_string()`, `src/osm/apidb_dump/write/table_data_writers.rs:79-131`
(a missing entry gives the text `null`). -/
def dataFile (t : Table) : Text :=
  ((templateMapping.find? fun p => p.1 = writerName t).map (·.2)).getD "null".toList

/-- `create_result_dir` and the `File::create` of each `TableDataWriter::new`,
`src/osm/apidb_dump/write/writer.rs:43-44,550-555`, `src/osm/apidb_dump/write/toc.rs:9-13`,
`src/osm/apidb_dump/write/table_data_writer.rs:16-19`. `d` is what was in the directory before. The tables
are in the order in which they are created (which is also the order in which they are closed). -/
def Directory.create (d : Directory) : Directory :=
  closeOrder.foldl (fun d t => d.write (dataFile t) []) (d.write "toc.dat".toList tocDat)

/-- The directory when all that was written to the tables is in their files (after the `flush` of
`TableDataWriter::close`, `src/osm/apidb_dump/write/table_data_writer.rs:26-30`). -/
def Directory.flush (d : Directory) (files : Table → Text) : Directory :=
  closeOrder.foldl (fun d t => d.write (dataFile t) (Wire.strBytes (String.ofList (files t)))) d

/-- `Reader::new`, `src/osm/apidb_dump/read/reader.rs:31-86`, as a relation between a directory and a
possible result: the tables and the texts of their sorted files. A missing `toc.dat` or data file is an
error; sorting is assumed to work as in `Sorted`. Nothing is said about data files that are not
UTF-8. -/
inductive OpenDirectory (le : Text → Text → Prop) (d : Directory) : Out (Tables × (Table → Text)) → Prop where
  | noToc : d "toc.dat".toList = none → OpenDirectory le d .err
  | badToc {toc} : d "toc.dat".toList = some toc → readTables toc = .err → OpenDirectory le d .err
  | panicToc {toc} : d "toc.dat".toList = some toc → readTables toc = .panic → OpenDirectory le d .panic
  | noData {toc tables t t' file} : d "toc.dat".toList = some toc → readTables toc = .ok tables →
      tables t = some (t', file) → d file = none → OpenDirectory le d .err
  | ok {toc tables sorted} : d "toc.dat".toList = some toc → readTables toc = .ok tables →
      (∀ t t' file, tables t = some (t', file) →
        ∃ data, d file = some (Wire.strBytes (String.ofList data)) ∧ Sorted le t'.key data (sorted t)) →
      OpenDirectory le d (.ok (tables, sorted))

end OsmIo.Apidb
