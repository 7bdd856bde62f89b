import Verif.Model.Wire
/-!
# Messages (`src/osm/pbf/generated/prost-osmpbf.rs`)

For each message: the structure, its fields in encoding order (prost emits fields sorted by tag), the
interpretation of one field (`step`: unknown tags are skipped, a wrong wire type is an error, singular
scalars are overwritten, singular messages are merged, repeated fields are appended), and
`merge`/`decode`/`encode`.
-/
set_option linter.unusedVariables false
namespace OsmIo.Pb
open OsmIo.Wire

/-- `prost-osmpbf.rs:39-46` -/
structure BlobHeader where
  type : String := ""
  indexdata : Option Bytes := none
  datasize : Int32 := 0
  deriving DecidableEq, Repr

/-- Fields of an encoded `BlobHeader`, `prost-osmpbf.rs:39-46`. -/
def BlobHeader.fields (m : BlobHeader) : List Field :=
  [⟨1, .len (strBytes m.type)⟩] ++
  optF 2 (fun x => .len x) m.indexdata ++
  [⟨3, .varint (ofInt32 m.datasize)⟩]

/-- Merge one field into a `BlobHeader`, `prost-osmpbf.rs:39-46`. -/
def BlobHeader.step (m : BlobHeader) (f : Field) : Option BlobHeader :=
  match f.tag with
  | 1 => (getStr f.val).map fun x => { m with type := x }
  | 2 => (getBytes f.val).map fun x => { m with indexdata := some x }
  | 3 => (getVarint toInt32 f.val).map fun x => { m with datasize := x }
  | _ => some m

/-- `Message::merge` for `BlobHeader`. (derived by `prost` for `src/osm/pbf/generated/prost-osmpbf.rs:38-46`) -/
def BlobHeader.merge (m : BlobHeader) (bs : Bytes) : Option BlobHeader :=
  (parse 100 bs).bind fun fs => fs.foldlM BlobHeader.step m

/-- `Message::decode` for `BlobHeader`. (derived by `prost` for `src/osm/pbf/generated/prost-osmpbf.rs:38-46`) -/
def BlobHeader.decode (bs : Bytes) : Option BlobHeader := BlobHeader.merge {} bs

/-- `Message::encode` for `BlobHeader`. (derived by `prost` for `src/osm/pbf/generated/prost-osmpbf.rs:38-46`) -/
def BlobHeader.encode (m : BlobHeader) : Bytes := encFields m.fields

/-- `prost-osmpbf.rs:78-87` -/
structure HeaderBBox where
  left : Int64 := 0
  right : Int64 := 0
  top : Int64 := 0
  bottom : Int64 := 0
  deriving DecidableEq, Repr

/-- Fields of an encoded `HeaderBBox`, `prost-osmpbf.rs:78-87`. -/
def HeaderBBox.fields (m : HeaderBBox) : List Field :=
  [⟨1, .varint (ofSInt64 m.left)⟩] ++
  [⟨2, .varint (ofSInt64 m.right)⟩] ++
  [⟨3, .varint (ofSInt64 m.top)⟩] ++
  [⟨4, .varint (ofSInt64 m.bottom)⟩]

/-- Merge one field into a `HeaderBBox`, `prost-osmpbf.rs:78-87`. -/
def HeaderBBox.step (m : HeaderBBox) (f : Field) : Option HeaderBBox :=
  match f.tag with
  | 1 => (getVarint toSInt64 f.val).map fun x => { m with left := x }
  | 2 => (getVarint toSInt64 f.val).map fun x => { m with right := x }
  | 3 => (getVarint toSInt64 f.val).map fun x => { m with top := x }
  | 4 => (getVarint toSInt64 f.val).map fun x => { m with bottom := x }
  | _ => some m

/-- `Message::merge` for `HeaderBBox`. (derived by `prost` for `src/osm/pbf/generated/prost-osmpbf.rs:77-87`) -/
def HeaderBBox.merge (m : HeaderBBox) (bs : Bytes) : Option HeaderBBox :=
  (parse 99 bs).bind fun fs => fs.foldlM HeaderBBox.step m

/-- `Message::decode` for `HeaderBBox`. (derived by `prost` for `src/osm/pbf/generated/prost-osmpbf.rs:77-87`) -/
def HeaderBBox.decode (bs : Bytes) : Option HeaderBBox := HeaderBBox.merge {} bs

/-- `Message::encode` for `HeaderBBox`. (derived by `prost` for `src/osm/pbf/generated/prost-osmpbf.rs:77-87`) -/
def HeaderBBox.encode (m : HeaderBBox) : Bytes := encFields m.fields

/-- `prost-osmpbf.rs:49-73` -/
structure HeaderBlock where
  bbox : Option HeaderBBox := none
  required_features : List String := []
  optional_features : List String := []
  writingprogram : Option String := none
  source : Option String := none
  osmosis_replication_timestamp : Option Int64 := none
  osmosis_replication_sequence_number : Option Int64 := none
  osmosis_replication_base_url : Option String := none
  deriving DecidableEq, Repr

/-- Fields of an encoded `HeaderBlock`, `prost-osmpbf.rs:49-73`. -/
def HeaderBlock.fields (m : HeaderBlock) : List Field :=
  optF 1 (fun x => .len (encFields (HeaderBBox.fields x))) m.bbox ++
  repF 4 (fun x => .len (strBytes x)) m.required_features ++
  repF 5 (fun x => .len (strBytes x)) m.optional_features ++
  optF 16 (fun x => .len (strBytes x)) m.writingprogram ++
  optF 17 (fun x => .len (strBytes x)) m.source ++
  optF 32 (fun x => .varint (ofInt64 x)) m.osmosis_replication_timestamp ++
  optF 33 (fun x => .varint (ofInt64 x)) m.osmosis_replication_sequence_number ++
  optF 34 (fun x => .len (strBytes x)) m.osmosis_replication_base_url

/-- Merge one field into a `HeaderBlock`, `prost-osmpbf.rs:49-73`. -/
def HeaderBlock.step (m : HeaderBlock) (f : Field) : Option HeaderBlock :=
  match f.tag with
  | 1 => (getBytes f.val).bind fun b => (HeaderBBox.merge (m.bbox.getD {}) b).map fun x => { m with bbox := some x }
  | 4 => (getStr f.val).map fun x => { m with required_features := m.required_features ++ [x] }
  | 5 => (getStr f.val).map fun x => { m with optional_features := m.optional_features ++ [x] }
  | 16 => (getStr f.val).map fun x => { m with writingprogram := some x }
  | 17 => (getStr f.val).map fun x => { m with source := some x }
  | 32 => (getVarint toInt64 f.val).map fun x => { m with osmosis_replication_timestamp := some x }
  | 33 => (getVarint toInt64 f.val).map fun x => { m with osmosis_replication_sequence_number := some x }
  | 34 => (getStr f.val).map fun x => { m with osmosis_replication_base_url := some x }
  | _ => some m

/-- `Message::merge` for `HeaderBlock`. (derived by `prost` for `src/osm/pbf/generated/prost-osmpbf.rs:48-75`) -/
def HeaderBlock.merge (m : HeaderBlock) (bs : Bytes) : Option HeaderBlock :=
  (parse 100 bs).bind fun fs => fs.foldlM HeaderBlock.step m

/-- `Message::decode` for `HeaderBlock`. (derived by `prost` for `src/osm/pbf/generated/prost-osmpbf.rs:48-75`) -/
def HeaderBlock.decode (bs : Bytes) : Option HeaderBlock := HeaderBlock.merge {} bs

/-- `Message::encode` for `HeaderBlock`. (derived by `prost` for `src/osm/pbf/generated/prost-osmpbf.rs:48-75`) -/
def HeaderBlock.encode (m : HeaderBlock) : Bytes := encFields m.fields

/-- `prost-osmpbf.rs:129-132` -/
structure StringTable where
  s : List Bytes := []
  deriving DecidableEq, Repr

/-- Fields of an encoded `StringTable`, `prost-osmpbf.rs:129-132`. -/
def StringTable.fields (m : StringTable) : List Field :=
  repF 1 (fun x => .len x) m.s

/-- Merge one field into a `StringTable`, `prost-osmpbf.rs:129-132`. -/
def StringTable.step (m : StringTable) (f : Field) : Option StringTable :=
  match f.tag with
  | 1 => (getBytes f.val).map fun x => { m with s := m.s ++ [x] }
  | _ => some m

/-- `Message::merge` for `StringTable`. (derived by `prost` for `src/osm/pbf/generated/prost-osmpbf.rs:128-132`) -/
def StringTable.merge (m : StringTable) (bs : Bytes) : Option StringTable :=
  (parse 99 bs).bind fun fs => fs.foldlM StringTable.step m

/-- `Message::decode` for `StringTable`. (derived by `prost` for `src/osm/pbf/generated/prost-osmpbf.rs:128-132`) -/
def StringTable.decode (bs : Bytes) : Option StringTable := StringTable.merge {} bs

/-- `Message::encode` for `StringTable`. (derived by `prost` for `src/osm/pbf/generated/prost-osmpbf.rs:128-132`) -/
def StringTable.encode (m : StringTable) : Bytes := encFields m.fields

/-- `prost-osmpbf.rs:136-158` -/
structure Info where
  version : Option Int32 := none
  timestamp : Option Int64 := none
  changeset : Option Int64 := none
  uid : Option Int32 := none
  user_sid : Option UInt32 := none
  visible : Option Bool := none
  deriving DecidableEq, Repr

/-- Fields of an encoded `Info`, `prost-osmpbf.rs:136-158`. -/
def Info.fields (m : Info) : List Field :=
  optF 1 (fun x => .varint (ofInt32 x)) m.version ++
  optF 2 (fun x => .varint (ofInt64 x)) m.timestamp ++
  optF 3 (fun x => .varint (ofInt64 x)) m.changeset ++
  optF 4 (fun x => .varint (ofInt32 x)) m.uid ++
  optF 5 (fun x => .varint (ofUInt32 x)) m.user_sid ++
  optF 6 (fun x => .varint (ofBool x)) m.visible

/-- Merge one field into a `Info`, `prost-osmpbf.rs:136-158`. -/
def Info.step (m : Info) (f : Field) : Option Info :=
  match f.tag with
  | 1 => (getVarint toInt32 f.val).map fun x => { m with version := some x }
  | 2 => (getVarint toInt64 f.val).map fun x => { m with timestamp := some x }
  | 3 => (getVarint toInt64 f.val).map fun x => { m with changeset := some x }
  | 4 => (getVarint toInt32 f.val).map fun x => { m with uid := some x }
  | 5 => (getVarint toUInt32 f.val).map fun x => { m with user_sid := some x }
  | 6 => (getVarint toBool f.val).map fun x => { m with visible := some x }
  | _ => some m

/-- `Message::merge` for `Info`. (derived by `prost` for `src/osm/pbf/generated/prost-osmpbf.rs:135-158`) -/
def Info.merge (m : Info) (bs : Bytes) : Option Info :=
  (parse 97 bs).bind fun fs => fs.foldlM Info.step m

/-- `Message::decode` for `Info`. (derived by `prost` for `src/osm/pbf/generated/prost-osmpbf.rs:135-158`) -/
def Info.decode (bs : Bytes) : Option Info := Info.merge {} bs

/-- `Message::encode` for `Info`. (derived by `prost` for `src/osm/pbf/generated/prost-osmpbf.rs:135-158`) -/
def Info.encode (m : Info) : Bytes := encFields m.fields

/-- `prost-osmpbf.rs:162-187` -/
structure DenseInfo where
  version : List Int32 := []
  timestamp : List Int64 := []
  changeset : List Int64 := []
  uid : List Int32 := []
  user_sid : List Int32 := []
  visible : List Bool := []
  deriving DecidableEq, Repr

/-- Fields of an encoded `DenseInfo`, `prost-osmpbf.rs:162-187`. -/
def DenseInfo.fields (m : DenseInfo) : List Field :=
  packF 1 ofInt32 m.version ++
  packF 2 ofSInt64 m.timestamp ++
  packF 3 ofSInt64 m.changeset ++
  packF 4 ofSInt32 m.uid ++
  packF 5 ofSInt32 m.user_sid ++
  packF 6 ofBool m.visible

/-- Merge one field into a `DenseInfo`, `prost-osmpbf.rs:162-187`. -/
def DenseInfo.step (m : DenseInfo) (f : Field) : Option DenseInfo :=
  match f.tag with
  | 1 => (getRep toInt32 f.val).map fun x => { m with version := m.version ++ x }
  | 2 => (getRep toSInt64 f.val).map fun x => { m with timestamp := m.timestamp ++ x }
  | 3 => (getRep toSInt64 f.val).map fun x => { m with changeset := m.changeset ++ x }
  | 4 => (getRep toSInt32 f.val).map fun x => { m with uid := m.uid ++ x }
  | 5 => (getRep toSInt32 f.val).map fun x => { m with user_sid := m.user_sid ++ x }
  | 6 => (getRep toBool f.val).map fun x => { m with visible := m.visible ++ x }
  | _ => some m

/-- `Message::merge` for `DenseInfo`. (derived by `prost` for `src/osm/pbf/generated/prost-osmpbf.rs:161-187`) -/
def DenseInfo.merge (m : DenseInfo) (bs : Bytes) : Option DenseInfo :=
  (parse 97 bs).bind fun fs => fs.foldlM DenseInfo.step m

/-- `Message::decode` for `DenseInfo`. (derived by `prost` for `src/osm/pbf/generated/prost-osmpbf.rs:161-187`) -/
def DenseInfo.decode (bs : Bytes) : Option DenseInfo := DenseInfo.merge {} bs

/-- `Message::encode` for `DenseInfo`. (derived by `prost` for `src/osm/pbf/generated/prost-osmpbf.rs:161-187`) -/
def DenseInfo.encode (m : DenseInfo) : Bytes := encFields m.fields

/-- `prost-osmpbf.rs:191-194` -/
structure ChangeSet where
  id : Int64 := 0
  deriving DecidableEq, Repr

/-- Fields of an encoded `ChangeSet`, `prost-osmpbf.rs:191-194`. -/
def ChangeSet.fields (m : ChangeSet) : List Field :=
  [⟨1, .varint (ofInt64 m.id)⟩]

/-- Merge one field into a `ChangeSet`, `prost-osmpbf.rs:191-194`. -/
def ChangeSet.step (m : ChangeSet) (f : Field) : Option ChangeSet :=
  match f.tag with
  | 1 => (getVarint toInt64 f.val).map fun x => { m with id := x }
  | _ => some m

/-- `Message::merge` for `ChangeSet`. (derived by `prost` for `src/osm/pbf/generated/prost-osmpbf.rs:190-194`) -/
def ChangeSet.merge (m : ChangeSet) (bs : Bytes) : Option ChangeSet :=
  (parse 98 bs).bind fun fs => fs.foldlM ChangeSet.step m

/-- `Message::decode` for `ChangeSet`. (derived by `prost` for `src/osm/pbf/generated/prost-osmpbf.rs:190-194`) -/
def ChangeSet.decode (bs : Bytes) : Option ChangeSet := ChangeSet.merge {} bs

/-- `Message::encode` for `ChangeSet`. (derived by `prost` for `src/osm/pbf/generated/prost-osmpbf.rs:190-194`) -/
def ChangeSet.encode (m : ChangeSet) : Bytes := encFields m.fields

/-- `prost-osmpbf.rs:197-215` -/
structure Node where
  id : Int64 := 0
  keys : List UInt32 := []
  vals : List UInt32 := []
  info : Option Info := none
  lat : Int64 := 0
  lon : Int64 := 0
  deriving DecidableEq, Repr

/-- Fields of an encoded `Node`, `prost-osmpbf.rs:197-215`. -/
def Node.fields (m : Node) : List Field :=
  [⟨1, .varint (ofSInt64 m.id)⟩] ++
  packF 2 ofUInt32 m.keys ++
  packF 3 ofUInt32 m.vals ++
  optF 4 (fun x => .len (encFields (Info.fields x))) m.info ++
  [⟨8, .varint (ofSInt64 m.lat)⟩] ++
  [⟨9, .varint (ofSInt64 m.lon)⟩]

/-- Merge one field into a `Node`, `prost-osmpbf.rs:197-215`. -/
def Node.step (m : Node) (f : Field) : Option Node :=
  match f.tag with
  | 1 => (getVarint toSInt64 f.val).map fun x => { m with id := x }
  | 2 => (getRep toUInt32 f.val).map fun x => { m with keys := m.keys ++ x }
  | 3 => (getRep toUInt32 f.val).map fun x => { m with vals := m.vals ++ x }
  | 4 => (getBytes f.val).bind fun b => (Info.merge (m.info.getD {}) b).map fun x => { m with info := some x }
  | 8 => (getVarint toSInt64 f.val).map fun x => { m with lat := x }
  | 9 => (getVarint toSInt64 f.val).map fun x => { m with lon := x }
  | _ => some m

/-- `Message::merge` for `Node`. (derived by `prost` for `src/osm/pbf/generated/prost-osmpbf.rs:196-215`) -/
def Node.merge (m : Node) (bs : Bytes) : Option Node :=
  (parse 98 bs).bind fun fs => fs.foldlM Node.step m

/-- `Message::decode` for `Node`. (derived by `prost` for `src/osm/pbf/generated/prost-osmpbf.rs:196-215`) -/
def Node.decode (bs : Bytes) : Option Node := Node.merge {} bs

/-- `Message::encode` for `Node`. (derived by `prost` for `src/osm/pbf/generated/prost-osmpbf.rs:196-215`) -/
def Node.encode (m : Node) : Bytes := encFields m.fields

/-- `prost-osmpbf.rs:218-233` -/
structure DenseNodes where
  id : List Int64 := []
  denseinfo : Option DenseInfo := none
  lat : List Int64 := []
  lon : List Int64 := []
  keys_vals : List Int32 := []
  deriving DecidableEq, Repr

/-- Fields of an encoded `DenseNodes`, `prost-osmpbf.rs:218-233`. -/
def DenseNodes.fields (m : DenseNodes) : List Field :=
  packF 1 ofSInt64 m.id ++
  optF 5 (fun x => .len (encFields (DenseInfo.fields x))) m.denseinfo ++
  packF 8 ofSInt64 m.lat ++
  packF 9 ofSInt64 m.lon ++
  packF 10 ofInt32 m.keys_vals

/-- Merge one field into a `DenseNodes`, `prost-osmpbf.rs:218-233`. -/
def DenseNodes.step (m : DenseNodes) (f : Field) : Option DenseNodes :=
  match f.tag with
  | 1 => (getRep toSInt64 f.val).map fun x => { m with id := m.id ++ x }
  | 5 => (getBytes f.val).bind fun b => (DenseInfo.merge (m.denseinfo.getD {}) b).map fun x => { m with denseinfo := some x }
  | 8 => (getRep toSInt64 f.val).map fun x => { m with lat := m.lat ++ x }
  | 9 => (getRep toSInt64 f.val).map fun x => { m with lon := m.lon ++ x }
  | 10 => (getRep toInt32 f.val).map fun x => { m with keys_vals := m.keys_vals ++ x }
  | _ => some m

/-- `Message::merge` for `DenseNodes`. (derived by `prost` for `src/osm/pbf/generated/prost-osmpbf.rs:217-233`) -/
def DenseNodes.merge (m : DenseNodes) (bs : Bytes) : Option DenseNodes :=
  (parse 98 bs).bind fun fs => fs.foldlM DenseNodes.step m

/-- `Message::decode` for `DenseNodes`. (derived by `prost` for `src/osm/pbf/generated/prost-osmpbf.rs:217-233`) -/
def DenseNodes.decode (bs : Bytes) : Option DenseNodes := DenseNodes.merge {} bs

/-- `Message::encode` for `DenseNodes`. (derived by `prost` for `src/osm/pbf/generated/prost-osmpbf.rs:217-233`) -/
def DenseNodes.encode (m : DenseNodes) : Bytes := encFields m.fields

/-- `prost-osmpbf.rs:236-262` -/
structure Way where
  id : Int64 := 0
  keys : List UInt32 := []
  vals : List UInt32 := []
  info : Option Info := none
  refs : List Int64 := []
  lat : List Int64 := []
  lon : List Int64 := []
  deriving DecidableEq, Repr

/-- Fields of an encoded `Way`, `prost-osmpbf.rs:236-262`. -/
def Way.fields (m : Way) : List Field :=
  [⟨1, .varint (ofInt64 m.id)⟩] ++
  packF 2 ofUInt32 m.keys ++
  packF 3 ofUInt32 m.vals ++
  optF 4 (fun x => .len (encFields (Info.fields x))) m.info ++
  packF 8 ofSInt64 m.refs ++
  packF 9 ofSInt64 m.lat ++
  packF 10 ofSInt64 m.lon

/-- Merge one field into a `Way`, `prost-osmpbf.rs:236-262`. -/
def Way.step (m : Way) (f : Field) : Option Way :=
  match f.tag with
  | 1 => (getVarint toInt64 f.val).map fun x => { m with id := x }
  | 2 => (getRep toUInt32 f.val).map fun x => { m with keys := m.keys ++ x }
  | 3 => (getRep toUInt32 f.val).map fun x => { m with vals := m.vals ++ x }
  | 4 => (getBytes f.val).bind fun b => (Info.merge (m.info.getD {}) b).map fun x => { m with info := some x }
  | 8 => (getRep toSInt64 f.val).map fun x => { m with refs := m.refs ++ x }
  | 9 => (getRep toSInt64 f.val).map fun x => { m with lat := m.lat ++ x }
  | 10 => (getRep toSInt64 f.val).map fun x => { m with lon := m.lon ++ x }
  | _ => some m

/-- `Message::merge` for `Way`. (derived by `prost` for `src/osm/pbf/generated/prost-osmpbf.rs:235-262`) -/
def Way.merge (m : Way) (bs : Bytes) : Option Way :=
  (parse 98 bs).bind fun fs => fs.foldlM Way.step m

/-- `Message::decode` for `Way`. (derived by `prost` for `src/osm/pbf/generated/prost-osmpbf.rs:235-262`) -/
def Way.decode (bs : Bytes) : Option Way := Way.merge {} bs

/-- `Message::encode` for `Way`. (derived by `prost` for `src/osm/pbf/generated/prost-osmpbf.rs:235-262`) -/
def Way.encode (m : Way) : Bytes := encFields m.fields

/-- `prost-osmpbf.rs:265-285` -/
structure Relation where
  id : Int64 := 0
  keys : List UInt32 := []
  vals : List UInt32 := []
  info : Option Info := none
  roles_sid : List Int32 := []
  memids : List Int64 := []
  types : List Int32 := []
  deriving DecidableEq, Repr

/-- Fields of an encoded `Relation`, `prost-osmpbf.rs:265-285`. -/
def Relation.fields (m : Relation) : List Field :=
  [⟨1, .varint (ofInt64 m.id)⟩] ++
  packF 2 ofUInt32 m.keys ++
  packF 3 ofUInt32 m.vals ++
  optF 4 (fun x => .len (encFields (Info.fields x))) m.info ++
  packF 8 ofInt32 m.roles_sid ++
  packF 9 ofSInt64 m.memids ++
  packF 10 ofInt32 m.types

/-- Merge one field into a `Relation`, `prost-osmpbf.rs:265-285`. -/
def Relation.step (m : Relation) (f : Field) : Option Relation :=
  match f.tag with
  | 1 => (getVarint toInt64 f.val).map fun x => { m with id := x }
  | 2 => (getRep toUInt32 f.val).map fun x => { m with keys := m.keys ++ x }
  | 3 => (getRep toUInt32 f.val).map fun x => { m with vals := m.vals ++ x }
  | 4 => (getBytes f.val).bind fun b => (Info.merge (m.info.getD {}) b).map fun x => { m with info := some x }
  | 8 => (getRep toInt32 f.val).map fun x => { m with roles_sid := m.roles_sid ++ x }
  | 9 => (getRep toSInt64 f.val).map fun x => { m with memids := m.memids ++ x }
  | 10 => (getRep toInt32 f.val).map fun x => { m with types := m.types ++ x }
  | _ => some m

/-- `Message::merge` for `Relation`. (derived by `prost` for `src/osm/pbf/generated/prost-osmpbf.rs:264-285`) -/
def Relation.merge (m : Relation) (bs : Bytes) : Option Relation :=
  (parse 98 bs).bind fun fs => fs.foldlM Relation.step m

/-- `Message::decode` for `Relation`. (derived by `prost` for `src/osm/pbf/generated/prost-osmpbf.rs:264-285`) -/
def Relation.decode (bs : Bytes) : Option Relation := Relation.merge {} bs

/-- `Message::encode` for `Relation`. (derived by `prost` for `src/osm/pbf/generated/prost-osmpbf.rs:264-285`) -/
def Relation.encode (m : Relation) : Bytes := encFields m.fields

/-- `prost-osmpbf.rs:110-121` -/
structure PrimitiveGroup where
  nodes : List Node := []
  dense : Option DenseNodes := none
  ways : List Way := []
  relations : List Relation := []
  changesets : List ChangeSet := []
  deriving DecidableEq, Repr

/-- Fields of an encoded `PrimitiveGroup`, `prost-osmpbf.rs:110-121`. -/
def PrimitiveGroup.fields (m : PrimitiveGroup) : List Field :=
  repF 1 (fun x => .len (encFields (Node.fields x))) m.nodes ++
  optF 2 (fun x => .len (encFields (DenseNodes.fields x))) m.dense ++
  repF 3 (fun x => .len (encFields (Way.fields x))) m.ways ++
  repF 4 (fun x => .len (encFields (Relation.fields x))) m.relations ++
  repF 5 (fun x => .len (encFields (ChangeSet.fields x))) m.changesets

/-- Merge one field into a `PrimitiveGroup`, `prost-osmpbf.rs:110-121`. -/
def PrimitiveGroup.step (m : PrimitiveGroup) (f : Field) : Option PrimitiveGroup :=
  match f.tag with
  | 1 => (getBytes f.val).bind fun b => (Node.merge {} b).map fun x => { m with nodes := m.nodes ++ [x] }
  | 2 => (getBytes f.val).bind fun b => (DenseNodes.merge (m.dense.getD {}) b).map fun x => { m with dense := some x }
  | 3 => (getBytes f.val).bind fun b => (Way.merge {} b).map fun x => { m with ways := m.ways ++ [x] }
  | 4 => (getBytes f.val).bind fun b => (Relation.merge {} b).map fun x => { m with relations := m.relations ++ [x] }
  | 5 => (getBytes f.val).bind fun b => (ChangeSet.merge {} b).map fun x => { m with changesets := m.changesets ++ [x] }
  | _ => some m

/-- `Message::merge` for `PrimitiveGroup`. (derived by `prost` for `src/osm/pbf/generated/prost-osmpbf.rs:109-121`) -/
def PrimitiveGroup.merge (m : PrimitiveGroup) (bs : Bytes) : Option PrimitiveGroup :=
  (parse 99 bs).bind fun fs => fs.foldlM PrimitiveGroup.step m

/-- `Message::decode` for `PrimitiveGroup`.
(derived by `prost` for `src/osm/pbf/generated/prost-osmpbf.rs:109-121`) -/
def PrimitiveGroup.decode (bs : Bytes) : Option PrimitiveGroup := PrimitiveGroup.merge {} bs

/-- `Message::encode` for `PrimitiveGroup`.
(derived by `prost` for `src/osm/pbf/generated/prost-osmpbf.rs:109-121`) -/
def PrimitiveGroup.encode (m : PrimitiveGroup) : Bytes := encFields m.fields

/-- `prost-osmpbf.rs:90-107` -/
structure PrimitiveBlock where
  stringtable : StringTable := {}
  primitivegroup : List PrimitiveGroup := []
  granularity : Option Int32 := none
  date_granularity : Option Int32 := none
  lat_offset : Option Int64 := none
  lon_offset : Option Int64 := none
  deriving DecidableEq, Repr

/-- Fields of an encoded `PrimitiveBlock`, `prost-osmpbf.rs:90-107`. -/
def PrimitiveBlock.fields (m : PrimitiveBlock) : List Field :=
  [⟨1, .len (encFields (StringTable.fields m.stringtable))⟩] ++
  repF 2 (fun x => .len (encFields (PrimitiveGroup.fields x))) m.primitivegroup ++
  optF 17 (fun x => .varint (ofInt32 x)) m.granularity ++
  optF 18 (fun x => .varint (ofInt32 x)) m.date_granularity ++
  optF 19 (fun x => .varint (ofInt64 x)) m.lat_offset ++
  optF 20 (fun x => .varint (ofInt64 x)) m.lon_offset

/-- Merge one field into a `PrimitiveBlock`, `prost-osmpbf.rs:90-107`. -/
def PrimitiveBlock.step (m : PrimitiveBlock) (f : Field) : Option PrimitiveBlock :=
  match f.tag with
  | 1 => (getBytes f.val).bind fun b => (StringTable.merge m.stringtable b).map fun x => { m with stringtable := x }
  | 2 => (getBytes f.val).bind fun b => (PrimitiveGroup.merge {} b).map fun x => { m with primitivegroup := m.primitivegroup ++ [x] }
  | 17 => (getVarint toInt32 f.val).map fun x => { m with granularity := some x }
  | 18 => (getVarint toInt32 f.val).map fun x => { m with date_granularity := some x }
  | 19 => (getVarint toInt64 f.val).map fun x => { m with lat_offset := some x }
  | 20 => (getVarint toInt64 f.val).map fun x => { m with lon_offset := some x }
  | _ => some m

/-- `Message::merge` for `PrimitiveBlock`. (derived by `prost` for `src/osm/pbf/generated/prost-osmpbf.rs:89-106`) -/
def PrimitiveBlock.merge (m : PrimitiveBlock) (bs : Bytes) : Option PrimitiveBlock :=
  (parse 100 bs).bind fun fs => fs.foldlM PrimitiveBlock.step m

/-- `Message::decode` for `PrimitiveBlock`. (derived by `prost` for `src/osm/pbf/generated/prost-osmpbf.rs:89-106`) -/
def PrimitiveBlock.decode (bs : Bytes) : Option PrimitiveBlock := PrimitiveBlock.merge {} bs

/-- `Message::encode` for `PrimitiveBlock`. (derived by `prost` for `src/osm/pbf/generated/prost-osmpbf.rs:89-106`) -/
def PrimitiveBlock.encode (m : PrimitiveBlock) : Bytes := encFields m.fields

/-- `blob::Data`, `prost-osmpbf.rs:10-36` -/
inductive BlobData where
  | raw (b : Bytes)
  | zlib (b : Bytes)
  | lzma (b : Bytes)
  | bzip2 (b : Bytes)
  | lz4 (b : Bytes)
  | zstd (b : Bytes)
  deriving DecidableEq, Repr

/-- `prost-osmpbf.rs:3-9` -/
structure Blob where
  raw_size : Option Int32 := none
  data : Option BlobData := none
  deriving DecidableEq, Repr

/-- The field of the `oneof`, `prost-osmpbf.rs:10-36`. -/
def BlobData.field : BlobData → Field
  | .raw b => ⟨1, .len b⟩
  | .zlib b => ⟨3, .len b⟩
  | .lzma b => ⟨4, .len b⟩
  | .bzip2 b => ⟨5, .len b⟩
  | .lz4 b => ⟨6, .len b⟩
  | .zstd b => ⟨7, .len b⟩

/-- Fields of an encoded `Blob` (the oneof sorts by its smallest tag 1, before `raw_size`), `prost-osmpbf.rs:3-9`. -/
def Blob.fields (m : Blob) : List Field :=
  (match m.data with
   | none => []
   | some d => [d.field]) ++
  optF 2 (fun x => .varint (ofInt32 x)) m.raw_size

/-- Merge one field into a `Blob`, `prost-osmpbf.rs:3-36`. -/
def Blob.step (m : Blob) (f : Field) : Option Blob :=
  match f.tag with
  | 1 => (getBytes f.val).map fun x => { m with data := some (.raw x) }
  | 2 => (getVarint toInt32 f.val).map fun x => { m with raw_size := some x }
  | 3 => (getBytes f.val).map fun x => { m with data := some (.zlib x) }
  | 4 => (getBytes f.val).map fun x => { m with data := some (.lzma x) }
  | 5 => (getBytes f.val).map fun x => { m with data := some (.bzip2 x) }
  | 6 => (getBytes f.val).map fun x => { m with data := some (.lz4 x) }
  | 7 => (getBytes f.val).map fun x => { m with data := some (.zstd x) }
  | _ => some m

/-- `Message::decode` for `Blob`. (derived by `prost` for `src/osm/pbf/generated/prost-osmpbf.rs:2-9`) -/
def Blob.decode (bs : Bytes) : Option Blob :=
  (parse 100 bs).bind fun fs => fs.foldlM Blob.step {}

/-- `Message::encode_to_vec` for `Blob`. (derived by `prost` for `src/osm/pbf/generated/prost-osmpbf.rs:2-9`) -/
def Blob.encode (m : Blob) : Bytes := encFields m.fields

end OsmIo.Pb
