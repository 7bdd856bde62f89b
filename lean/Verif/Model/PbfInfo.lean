import Verif.Model.Reader
import Verif.Model.Converters
import Verif.Model.Checked
/-!
# The program `examples/pbf-info.rs`
-/
namespace OsmIo
open Text

/-- `FileInfo::required`, `src/osm/pbf/file_info.rs:142-144`. -/
def FileInfo.required (i : FileInfo) (feature : String) : Bool := i.required_features.contains feature

/-- `FileInfo::optional`, `src/osm/pbf/file_info.rs:146-148`. -/
def FileInfo.optional (i : FileInfo) (feature : String) : Bool := i.optional_features.contains feature

/-- `Display` of a bounding box, `src/osm/model/bounding_box.rs:83-87`; `num` is `Display` of `f64`. -/
def BoundingBox.display (num : F64 → Text) (b : BoundingBox) : Text :=
  "left: ".toList ++ num b.left ++ ", bottom: ".toList ++ num b.bottom ++ ", right: ".toList ++ num b.right ++ ", top: ".toList ++ num b.top

/-- `Display` of `bool`. (used in `examples/pbf-info.rs:69-71`) -/
def showBool (b : Bool) : Text := if b then "true".toList else "false".toList

/-- The line for the bounding box, `examples/pbf-info.rs:14-21`. -/
def boxLine (num : F64 → Text) : Option BoundingBox → Text
  | none => "Bounding box: None".toList
  | some b => "Bounding box: ".toList ++ b.display num

/-- The calls of `println!` before the replication timestamp, `examples/pbf-info.rs:12-42`. -/
def infoBefore (num : F64 → Text) (path : Text) (i : FileInfo) : List Text :=
  ["PBF file: ".toList ++ path] ++
  [boxLine num i.bounding_box] ++
  i.required_features.map (fun f => "Required feature: ".toList ++ f.toList) ++
  i.optional_features.map (fun f => "Optional feature: ".toList ++ f.toList) ++
  (match i.writingprogram with
    | none => []
    | some p => ["Writing program: ".toList ++ p.toList]) ++
  (match i.source with
    | none => []
    | some s => ["Source: ".toList ++ s.toList])

/-- The calls of `println!` after it, `examples/pbf-info.rs:54-71`. -/
def infoAfter (i : FileInfo) : List Text :=
  (match i.osmosis_replication_sequence_number with
    | none => []
    | some n => ["osmosis_replication_sequence_number: ".toList ++ showInt n.toInt]) ++
  (match i.osmosis_replication_base_url with
    | none => []
    | some u => ["osmosis_replication_base_url: ".toList ++ u.toList]) ++
  ["Feature queries".toList,
   "Required 'HistoricalInformation': ".toList ++ showBool (i.required "HistoricalInformation"),
   "Required 'DenseNodes': ".toList ++ showBool (i.required "DenseNodes"),
   "Optional 'Sort.Type_then_ID': ".toList ++ showBool (i.optional "Sort.Type_then_ID")]

/-- The assertions, `examples/pbf-info.rs:73-77`. -/
def infoAsserts (i : FileInfo) : Out Unit :=
  if i.required "HistoricalInformation" && i.required "DenseNodes" && i.optional "Sort.Type_then_ID" then .ok () else .panic

/-- `examples/pbf-info.rs:7-78` on a file: the texts given to `println!`, one by one, and how the program ends. -/
def pbfInfo (z : Zlib) (num : F64 → Text) (path : Text) (file : Bytes) : List Text × Out Unit :=
  match openReader z file with
  | .err => ([], .err)
  | .panic => ([], .panic)
  | .ok i =>
    match i.osmosis_replication_timestamp with
    | none => (infoBefore num path i ++ infoAfter i, infoAsserts i)
    | some t =>
      match replicationTime t with
      | .ok x => (infoBefore num path i ++ ["osmosis_replication_timestamp: ".toList ++ x] ++ infoAfter i, infoAsserts i)
      | .err => (infoBefore num path i, .err)
      | .panic => (infoBefore num path i, .panic)

/-- The argument and the call of `examples/pbf-info.rs:48-51` as compiled with overflow checks. -/
def replicationTimeChecked (t : Int64) : Out Text := do
  let micros ← mul64 t 1000000
  timestampToIso8601Seconds micros

/-- `examples/pbf-info.rs:7-78` as `pbfInfo`, compiled with overflow checks. -/
def pbfInfoChecked (z : Zlib) (num : F64 → Text) (path : Text) (file : Bytes) : List Text × Out Unit :=
  match openReader z file with
  | .err => ([], .err)
  | .panic => ([], .panic)
  | .ok i =>
    match i.osmosis_replication_timestamp with
    | none => (infoBefore num path i ++ infoAfter i, infoAsserts i)
    | some t =>
      match replicationTimeChecked t with
      | .ok x => (infoBefore num path i ++ ["osmosis_replication_timestamp: ".toList ++ x] ++ infoAfter i, infoAsserts i)
      | .err => (infoBefore num path i, .err)
      | .panic => (infoBefore num path i, .panic)

end OsmIo
