import Verif.Model.WriterCalls
/-!
# The sequential writer on a device whose writes may fail (`src/osm/pbf/writer.rs`)
-/
namespace OsmIo

/-- The output file and the fate of the calls of `write_all` on it, from the first on: `none`, all bytes are
written; `some k`, an I/O error after at most `k` of the bytes. `File::flush` does nothing and does not fail.
(`src/osm/pbf/writer.rs:64,151-158`) -/
structure Disk where
  faults : Nat → Option Nat
  file : Bytes := []
  count : Nat := 0

/-- `File::write_all`: success and the disk after it. (used in `src/osm/pbf/writer.rs:153-155`) -/
def Disk.writeAll (d : Disk) (b : Bytes) : Bool × Disk :=
  match d.faults d.count with
  | none => (true, { d with file := d.file ++ b, count := d.count + 1 })
  | some k => (false, { d with file := d.file ++ b.take k, count := d.count + 1 })

/-- What a call returns. (`src/osm/pbf/writer.rs:131-200`) -/
inductive CallResult where
  | ok
  | err
  | panic
  deriving DecidableEq, Repr

/-- `Writer`, `src/osm/pbf/writer.rs:60-66`, with its file on a disk. -/
structure DiskWriter where
  file_info : FileInfo
  compression : CompressionType
  disk : Disk
  acc : Accumulator

namespace DiskWriter

/-- `Writer::from_file_info`, `src/osm/pbf/writer.rs:70-86`, when the file can be created. -/
def fromFileInfo (info : FileInfo) (c : CompressionType) (faults : Nat → Option Nat) : DiskWriter :=
  ⟨info, c, { faults }, Accumulator.new⟩

/-- `Writer::write_blob`, `src/osm/pbf/writer.rs:151-158`: three writes, each followed by `?`. -/
def writeBlob (w : DiskWriter) (header body : Bytes) : CallResult × DiskWriter :=
  match w.disk.writeAll (beBytes (Int32.ofNat header.length)) with
  | (false, d) => (.err, { w with disk := d })
  | (true, d) => match d.writeAll header with
    | (false, d) => (.err, { w with disk := d })
    | (true, d) => match d.writeAll body with
      | (false, d) => (.err, { w with disk := d })
      | (true, d) => (.ok, { w with disk := d })

/-- `Writer::write_file_block`, `src/osm/pbf/writer.rs:145-148`. -/
def writeFileBlock (z : Zlib) (w : DiskWriter) (b : FileBlock) : CallResult × DiskWriter :=
  let (h, body) := b.serialize z w.compression
  w.writeBlob h body

/-- `Writer::write_header`, `src/osm/pbf/writer.rs:136-142`. -/
def writeHeader (z : Zlib) (w : DiskWriter) : CallResult × DiskWriter := w.writeFileBlock z (.header w.file_info)

/-- `Writer::write_elements`, `src/osm/pbf/writer.rs:178-189`. -/
def writeElements (z : Zlib) (w : DiskWriter) (es : List Element) : CallResult × DiskWriter := w.writeFileBlock z (.data es)

/-- `Writer::write_element`, `src/osm/pbf/writer.rs:164-173`: the accumulator has handed out its elements before they are
written. It panics before it changes. -/
def writeElement (z : Zlib) (w : DiskWriter) (e : Element) : CallResult × DiskWriter :=
  match w.acc.add e with
  | .ok (none, acc) => (.ok, { w with acc })
  | .ok (some es, acc) => writeElements z { w with acc } es
  | _ => (.panic, w)

/-- `Writer::close`, `src/osm/pbf/writer.rs:194-200`. -/
def close (z : Zlib) (w : DiskWriter) : CallResult × DiskWriter :=
  let (es, acc) := w.acc.take
  if es.isEmpty then (.ok, { w with acc }) else writeElements z { w with acc } es

/-- One call. (`src/osm/pbf/writer.rs:131-200`) -/
def call (z : Zlib) (w : DiskWriter) : WriterCall → CallResult × DiskWriter
  | .header => w.writeHeader z
  | .block b => w.writeFileBlock z b
  | .element e => w.writeElement z e
  | .elements es => w.writeElements z es
  | .close => w.close z

/-- The calls in turn, whatever they return: the results and the writer after them. (`src/osm/pbf/writer.rs:131-200`) -/
def calls (z : Zlib) (w : DiskWriter) : List WriterCall → List CallResult × DiskWriter
  | [] => ([], w)
  | c :: cs =>
    let (r, w) := w.call z c
    let (rs, w) := w.calls z cs
    (r :: rs, w)

end DiskWriter
end OsmIo
