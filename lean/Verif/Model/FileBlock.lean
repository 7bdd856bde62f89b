import Verif.Model.OsmData
import Verif.Model.Header
/-!
# File blocks and framing (`src/osm/pbf/file_block.rs`, `blob_iterator.rs`, `blob_desc.rs`)

Files are byte lists. `zlib` (crate `flate2`) is a parameter.
-/
namespace OsmIo
open Wire

/-- `CompressionType`, `compression_type.rs:2-5`. -/
inductive CompressionType where
  | uncompressed
  | zlib
  deriving DecidableEq, Repr

/-- The zlib library. `deflate` is `ZlibEncoder` at a level (`true`: `Compression::default()`, `false`:
`Compression::none()`); `stream` gives the bytes a `ZlibDecoder` delivers before it ends or fails.
(flate2 crate, as used in `src/osm/pbf/file_block.rs:98-110`) -/
structure Zlib where
  deflate : Bool → Bytes → Bytes
  stream : Bytes → Bytes

/-- The contract assumed of zlib: decompressing what was compressed delivers the original bytes.
(flate2 crate, as used in `src/osm/pbf/file_block.rs:98-110`) -/
def Zlib.Lossless (z : Zlib) : Prop := ∀ level b, z.stream (z.deflate level b) = b

/-- `FileBlock`, `file_block.rs:22-32`. `FileBlockMetadata` (type and index) is not observable in what follows and
dropped. -/
inductive FileBlock where
  | header (info : FileInfo)
  | data (elements : List Element)
  deriving DecidableEq, Repr

/-- `FileBlock::new`, `file_block.rs:35-57`. -/
def FileBlock.new (blob_type : String) (data : Bytes) : Out FileBlock :=
  if blob_type = "OSMHeader" then do
    let i ← parseHeader data
    .ok (.header i)
  else if blob_type = "OSMData" then do
    let es ← parseData data
    .ok (.data es)
  else .err

/-- `FileBlock::zlib_decode`, `file_block.rs:98-103`: `vec![0; raw_size]` panics with a capacity overflow when the size
was negative, `read_exact` fails when the stream delivers fewer bytes. -/
def zlibDecode (z : Zlib) (data : Bytes) (raw_size : Int32) : Out Bytes :=
  if raw_size < 0 then .panic
  else if (z.stream data).length < raw_size.toInt.toNat then .err
  else .ok ((z.stream data).take raw_size.toInt.toNat)

/-- `FileBlock::read_blob_data`, `file_block.rs:113-155`. -/
def readBlobData (z : Zlib) (blob : Pb.Blob) : Out Bytes :=
  match blob.data with
  | none => .err
  | some (.raw b) => .ok b
  | some (.zlib b) => do
    let raw_size ← Out.unwrap blob.raw_size
    zlibDecode z b raw_size
  | some (.lzma _) => .err
  | some (.bzip2 _) => .err
  | some (.lz4 _) => .err
  | some (.zstd _) => .err

/-- The `(type, level, block data)` triple of `FileBlock::serialize`, `file_block.rs:172-179`. -/
def FileBlock.payload : FileBlock → String × Bool × Bytes
  | .header i => ("OSMHeader", false, serializeHeader i)
  | .data es => ("OSMData", true, serializeData es)

/-- The blob built by `FileBlock::serialize`, `file_block.rs:181-199`. `len() as i32` wraps. -/
def FileBlock.blob (z : Zlib) (c : CompressionType) (level : Bool) (block_data : Bytes) : Pb.Blob :=
  if block_data.isEmpty then { raw_size := none, data := none }
  else
    { raw_size := some (Int32.ofNat block_data.length)
      data := some (match c with
        | .uncompressed => .raw block_data
        | .zlib => .zlib (z.deflate level block_data)) }

/-- `FileBlock::serialize`, `file_block.rs:171-212`: encoded blob header and blob body. -/
def FileBlock.serialize (z : Zlib) (c : CompressionType) (b : FileBlock) : Bytes × Bytes :=
  let (blob_type, level, block_data) := b.payload
  let body := (FileBlock.blob z c level block_data).encode
  let header : Pb.BlobHeader := { type := blob_type, indexdata := none, datasize := Int32.ofNat body.length }
  (header.encode, body)

/-- `i32::to_be_bytes`. (used in `src/osm/pbf/writer.rs:153`) -/
def beBytes (i : Int32) : Bytes :=
  [(i.toUInt32 >>> 24).toUInt8, (i.toUInt32 >>> 16).toUInt8, (i.toUInt32 >>> 8).toUInt8, i.toUInt32.toUInt8]

/-- `i32::from_be_bytes`. (used in `src/osm/pbf/blob_iterator.rs:38-44`, `src/osm/pbf/file_block.rs:165`) -/
def ofBeBytes (a b c d : UInt8) : Int32 :=
  ((a.toUInt32 <<< 24) ||| (b.toUInt32 <<< 16) ||| (c.toUInt32 <<< 8) ||| d.toUInt32).toInt32

/-- The bytes `Writer::write_blob` appends to the file, `writer.rs:151-158`. -/
def blobBytes (header body : Bytes) : Bytes := beBytes (Int32.ofNat header.length) ++ header ++ body

/-- `BlobDesc`, `blob_desc.rs:4-10`, without the path. `length` is `datasize as u64`. -/
structure BlobDesc where
  index : Nat
  start : Nat
  length : Nat
  t : String
  deriving DecidableEq, Repr

/-- `BlobIterator`, `blob_iterator.rs:12-17`: the file cursor, the pending relative seek (`jump as i64`), the index. -/
structure BlobIter where
  pos : Nat := 0
  jump : Int := 0
  index : Nat := 0
  deriving DecidableEq, Repr

/-- `file.read_exact` of `n` bytes at offset `pos`: `none` when the file is too short.
(used in `src/osm/pbf/blob_iterator.rs:38-44`, `src/osm/pbf/file_block.rs:165`) -/
def readAt (file : Bytes) (pos n : Nat) : Option Bytes :=
  if file.length < pos + n then none else some ((file.drop pos).take n)

/-- `BlobIterator::next`, `blob_iterator.rs:37-53`. `none` ends the iteration; every I/O or decode error is
turned into `none` by `.ok()?`. A negative header length makes `vec![0; len as usize]` panic. -/
def BlobIter.next (file : Bytes) (it : BlobIter) : Out (Option (BlobDesc × BlobIter)) :=
  let p : Int := it.pos + it.jump
  if p < 0 then .ok none
  else
    match readAt file p.toNat 4 with
    | some [a, b, c, d] =>
      let header_len := ofBeBytes a b c d
      if header_len < 0 then .panic
      else
        let n := header_len.toInt.toNat
        match readAt file (p.toNat + 4) n with
        | none => .ok none
        | some hdr =>
          match Pb.BlobHeader.decode hdr with
          | none => .ok none
          | some h =>
            let offset := p.toNat + 4 + n
            .ok (some (⟨it.index, offset, h.datasize.toInt64.toUInt64.toNat, h.type⟩,
              ⟨offset, h.datasize.toInt, it.index + 1⟩))
    | _ => .ok none

/-- `FileBlock::deserialize`, `file_block.rs:214-221`. -/
def FileBlock.deserialize (z : Zlib) (t : String) (buf : Bytes) : Out FileBlock :=
  match Pb.Blob.decode buf with
  | none => .err
  | some blob => do
    let data ← readBlobData z blob
    FileBlock.new t data

/-- `FileBlock::from_blob_desc`, `file_block.rs:157-169`. `vec![0; length as usize]` panics when the length was negative. -/
def FileBlock.fromBlobDesc (z : Zlib) (file : Bytes) (d : BlobDesc) : Out FileBlock :=
  if 2 ^ 63 ≤ d.length then .panic
  else
    match readAt file d.start d.length with
    | none => .err
    | some buf => FileBlock.deserialize z d.t buf

end OsmIo
