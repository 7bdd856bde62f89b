import Verif.Model.FailingDisk
import Verif.Model.ApidbWriter
/-!
# Buffered table files on a device whose writes may fail (`src/osm/apidb_dump/write/table_data_writer.rs`)

`std::io::BufWriter` is not part of the repository; it is modelled after its documentation and source, with the default capacity of
8192 bytes.
-/
namespace OsmIo.Apidb

/-- `BufWriter<File>`: the file and the bytes not yet handed to it. `disk.faults` is the fate of the successive attempts to write to the
file. (`src/osm/apidb_dump/write/table_data_writer.rs:10-14`) -/
structure BufFile where
  disk : Disk
  buf : Bytes := []

/-- Capacity of a `BufWriter`. (`BufWriter::new`, used in `src/osm/apidb_dump/write/table_data_writer.rs:19`) -/
def bufCapacity : Nat := 8192

/-- `BufWriter::flush_buf`: the bytes the file took are removed from the buffer, also when there is an error. An empty buffer needs no
write. (used in `src/osm/apidb_dump/write/table_data_writer.rs:28` and by `write_all`) -/
def BufFile.flushBuf (f : BufFile) : Bool × BufFile :=
  if f.buf = [] then (true, f)
  else match f.disk.faults f.disk.count with
    | none => (true, ⟨{ f.disk with file := f.disk.file ++ f.buf, count := f.disk.count + 1 }, []⟩)
    | some k => (false, ⟨{ f.disk with file := f.disk.file ++ f.buf.take k, count := f.disk.count + 1 }, f.buf.drop k⟩)

/-- `BufWriter::write_all`: flushes when the bytes do not fit in what is free of the buffer; as many bytes as the capacity or more go to
the file directly. (used in `src/osm/apidb_dump/write/writer.rs:62-463` and `src/osm/apidb_dump/write/table_data_writer.rs:27`) -/
def BufFile.writeAll (f : BufFile) (b : Bytes) : Bool × BufFile :=
  if f.buf.length + b.length < bufCapacity then (true, { f with buf := f.buf ++ b })
  else
    let (ok, f) := if bufCapacity < f.buf.length + b.length then f.flushBuf else (true, f)
    if ok then
      if bufCapacity ≤ b.length then
        let (ok, d) := f.disk.writeAll b
        (ok, { f with disk := d })
      else (true, { f with buf := f.buf ++ b })
    else (false, f)

/-- An operation on the files of a dump: `write_all` of a row or an end marker, or `flush`.
(`src/osm/apidb_dump/write/writer.rs:62-543`, `src/osm/apidb_dump/write/table_data_writer.rs:26-30`) -/
inductive TableOp where
  | write (t : Table) (b : Bytes)
  | flush (t : Table)

/-- One operation. (`src/osm/apidb_dump/write/table_data_writer.rs:26-34`) -/
def tableOp (fs : Table → BufFile) : TableOp → Bool × (Table → BufFile)
  | .write t b => let (ok, f) := (fs t).writeAll b; (ok, fun t' => if t' = t then f else fs t')
  | .flush t => let (ok, f) := (fs t).flushBuf; (ok, fun t' => if t' = t then f else fs t')

/-- The operations of a writer up to the first error: every one is followed by `?` and so are the calls in the programs.
(`src/osm/apidb_dump/write/writer.rs:62-543`, `examples/pbf-to-apidb.rs`) -/
def tableOps (fs : Table → BufFile) : List TableOp → Bool × (Table → BufFile)
  | [] => (true, fs)
  | op :: ops =>
    let (ok, fs) := tableOp fs op
    if ok then tableOps fs ops else (false, fs)

/-- `TableDataWriters::close`: each table gets its end marker and is flushed. (`src/osm/apidb_dump/write/table_data_writers.rs:153-208`,
`src/osm/apidb_dump/write/table_data_writer.rs:26-30`) -/
def closeOps : List TableOp := closeOrder.flatMap fun t => [.write t (Wire.strBytes "\\.\n"), .flush t]

/-- `Drop for BufWriter`: one more attempt to flush, whose error nobody sees. (`src/osm/apidb_dump/write/table_data_writer.rs:10-14`) -/
def BufFile.drop (f : BufFile) : Bytes := f.flushBuf.2.disk.file

end OsmIo.Apidb
