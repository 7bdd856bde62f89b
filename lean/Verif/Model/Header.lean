import Verif.Model.Proto
import Verif.Model.BoundingBox
/-! # File header (`src/osm/pbf/osm_header.rs`, `src/osm/pbf/file_info.rs`) -/
namespace OsmIo
open Wire

/-- `FileInfo`, `file_info.rs:4-15`. -/
structure FileInfo where
  bounding_box : Option BoundingBox
  required_features : List String
  optional_features : List String
  writingprogram : Option String
  source : Option String
  osmosis_replication_timestamp : Option Int64
  osmosis_replication_sequence_number : Option Int64
  osmosis_replication_base_url : Option String
  deriving DecidableEq, Repr

/-- `impl Default for FileInfo`, `file_info.rs:150-163`. -/
def FileInfo.default : FileInfo :=
  { bounding_box := none
    required_features := ["OsmSchema-V0.6", "DenseNodes"]
    optional_features := ["Sort.Type_then_ID"]
    writingprogram := none, source := none, osmosis_replication_timestamp := none
    osmosis_replication_sequence_number := none, osmosis_replication_base_url := none }

/-- `FileInfo::merge_bounding_box`, `file_info.rs:49-56`. -/
def FileInfo.mergeBoundingBox (i : FileInfo) (b : Option BoundingBox) : FileInfo :=
  match i.bounding_box with
  | none => { i with bounding_box := b }
  | some own =>
    match b with
    | some o => { i with bounding_box := some (own.mergeBox o) }
    | none => i

/-- `n as f64 / NANODEG`, `osm_header.rs:23-26`. -/
def fromNanodeg (n : Int64) : F64 := F64.div (F64.ofI64 n) 1000000000

/-- `(x * NANODEG) as i64`, `osm_header.rs:65-68`. -/
def toNanodeg (x : F64) : Int64 := F64.toI64 (F64.mul x 1000000000)

/-- `OsmHeader::header_bbox`, `osm_header.rs:63-70`. -/
def headerBBox (b : BoundingBox) : Pb.HeaderBBox :=
  { left := toNanodeg b.left, right := toNanodeg b.right, top := toNanodeg b.top, bottom := toNanodeg b.bottom }

/-- The message built by `OsmHeader::serialize`, `osm_header.rs:72-82`. -/
def toHeaderBlock (i : FileInfo) : Pb.HeaderBlock :=
  { bbox := i.bounding_box.map headerBBox
    required_features := i.required_features
    optional_features := i.optional_features
    writingprogram := i.writingprogram
    source := i.source
    osmosis_replication_timestamp := i.osmosis_replication_timestamp
    osmosis_replication_sequence_number := i.osmosis_replication_sequence_number
    osmosis_replication_base_url := i.osmosis_replication_base_url }

/-- `OsmHeader::serialize`, `osm_header.rs:72-87`. -/
def serializeHeader (i : FileInfo) : Bytes := (toHeaderBlock i).encode

/-- The `FileInfo` built by `OsmHeader::from_bytes`, `osm_header.rs:19-54`. -/
def fromHeaderBlock (h : Pb.HeaderBlock) : FileInfo :=
  { bounding_box := h.bbox.map fun b =>
      ⟨fromNanodeg b.left, fromNanodeg b.bottom, fromNanodeg b.right, fromNanodeg b.top⟩
    required_features := h.required_features
    optional_features := h.optional_features
    writingprogram := h.writingprogram
    source := h.source
    osmosis_replication_timestamp := h.osmosis_replication_timestamp
    osmosis_replication_sequence_number := h.osmosis_replication_sequence_number
    osmosis_replication_base_url := h.osmosis_replication_base_url }

/-- `OsmHeader::from_bytes`, `osm_header.rs:17-55`. -/
def parseHeader (data : Bytes) : Out FileInfo :=
  match Pb.HeaderBlock.decode data with
  | none => .err
  | some h => .ok (fromHeaderBlock h)

end OsmIo
