import Verif.Model.Header
/-!
# Calls on a `FileInfo` (`src/osm/pbf/file_info.rs`)
-/
namespace OsmIo

/-- A call of one of the setters, `src/osm/pbf/file_info.rs:63-140`. -/
inductive InfoCall where
  | boundingBox (v : Option BoundingBox)
  | requiredFeatures (v : List String)
  | optionalFeatures (v : List String)
  | writingprogram (v : Option String)
  | writingprogramStr (v : String)
  | source (v : Option String)
  | replicationTimestamp (v : Option Int64)
  | replicationSequenceNumber (v : Option Int64)
  | replicationBaseUrl (v : Option String)
  deriving DecidableEq, Repr

/-- What the call does, each as in the lines given, all in `src/osm/pbf/file_info.rs`. -/
def FileInfo.call (i : FileInfo) : InfoCall → FileInfo
  /- `with_bounding_box`, 63-65 -/
  | .boundingBox v => { i with bounding_box := v }
  /- `with_required_features`, 73-75 -/
  | .requiredFeatures v => { i with required_features := v }
  /- `with_optional_features`, 83-85 -/
  | .optionalFeatures v => { i with optional_features := v }
  /- `with_writingprogram`, 93-95 -/
  | .writingprogram v => { i with writingprogram := v }
  /- `with_writingprogram_str`, 98-100 -/
  | .writingprogramStr v => { i with writingprogram := some v }
  /- `with_source`, 108-110 -/
  | .source v => { i with source := v }
  /- `with_osmosis_replication_timestamp`, 118-120 -/
  | .replicationTimestamp v => { i with osmosis_replication_timestamp := v }
  /- `with_osmosis_replication_sequence_number`, 128-130 -/
  | .replicationSequenceNumber v => { i with osmosis_replication_sequence_number := v }
  /- `with_osmosis_replication_base_url`, 138-140 -/
  | .replicationBaseUrl v => { i with osmosis_replication_base_url := v }

/-- Calls one after the other. (`src/osm/pbf/file_info.rs:63-140`) -/
def FileInfo.calls (i : FileInfo) (cs : List InfoCall) : FileInfo := cs.foldl FileInfo.call i

end OsmIo
