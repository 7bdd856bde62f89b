import Verif.Model.Proto
import Verif.Model.BoundingBox
/-!
# Data blocks (`src/osm/pbf/osm_data.rs`, `string_table_builder.rs`, `dense_group_builder.rs`,
`ways_group_builder.rs`, `relations_group_builder.rs`)
-/
namespace OsmIo
open Wire

/-! ## Encoding -/

/-- `StringTableBuilder`, `string_table_builder.rs:5-8`. The `HashMap` is an association list; the
`Option` around the table (only used to move it out) is dropped. -/
structure StringTableBuilder where
  table : List Bytes
  index : List (String × Int32)
  deriving Repr

namespace StringTableBuilder

/-- `StringTableBuilder::new`, `string_table_builder.rs:11-18`: the table starts with `""`, the index is empty. -/
def new : StringTableBuilder := ⟨[strBytes ""], []⟩

/-- `StringTableBuilder::add`, `string_table_builder.rs:20-31`. -/
def add (b : StringTableBuilder) (s : String) : Int32 × StringTableBuilder :=
  match b.index.lookup s with
  | some i => (i, b)
  | none =>
    let table := b.table ++ [strBytes s]
    let i := Int32.ofNat table.length - 1
    (i, ⟨table, (s, i) :: b.index⟩)

/-- `StringTableBuilder::build`, `string_table_builder.rs:33-38`: the table is handed out (the builder is not
used afterwards by `OsmData::serialize`). -/
def build (b : StringTableBuilder) : Pb.StringTable := { s := b.table }

/-- The loop adding the keys and values of a tag list, e.g. `dense_group_builder.rs:64-69`; the pushed
index pairs are collected in order. -/
def addTags (b : StringTableBuilder) : List Tag → List (Int32 × Int32) × StringTableBuilder
  | [] => ([], b)
  | t :: ts =>
    let (k, b) := b.add t.k
    let (v, b) := b.add t.v
    let (rest, b) := b.addTags ts
    ((k, v) :: rest, b)

end StringTableBuilder

/-- `(coordinate * 1E9 / granularity as f64 - offset as f64).round() as i64`,
`dense_group_builder.rs:42,44,93,96`. -/
def encodeCoord (granularity : Int32) (offset : Int64) (c : F64) : Int64 :=
  F64.toI64 (F64.round (F64.sub (F64.div (F64.mul c 1000000000) (F64.ofI32 granularity)) (F64.ofI64 offset)))

/-- The `keys_vals` entries of one node, `dense_group_builder.rs:64-70,120-126`. -/
def keysVals (kvs : List (Int32 × Int32)) : List Int32 := (kvs.flatMap fun (k, v) => [k, v]) ++ [0]

/-- `DenseGroupBuilder`, `dense_group_builder.rs:5-18`. -/
structure DenseGroupBuilder where
  granularity : Int32
  date_granularity : Int32
  lat_offset : Int64
  lon_offset : Int64
  dense : Pb.DenseNodes
  info : Pb.DenseInfo
  last_id : Int64
  last_lon : Int64
  last_lat : Int64
  last_timestamp : Int64
  last_uid : Int32
  last_changeset : Int64
  last_sid : Int32

namespace DenseGroupBuilder

/-- `DenseGroupBuilder::new`, `dense_group_builder.rs:22-86`. `info` is `dense.denseinfo.unwrap()`. -/
def new (granularity date_granularity : Int32) (lat_offset lon_offset : Int64) (node : Node)
    (st : StringTableBuilder) : DenseGroupBuilder × StringTableBuilder :=
  let last_id := node.id
  let last_lon := encodeCoord granularity lon_offset node.coordinate.lon
  let last_lat := encodeCoord granularity lat_offset node.coordinate.lat
  let last_timestamp := node.timestamp / date_granularity.toInt64
  let last_uid := node.uid
  let last_changeset := node.changeset
  let (last_sid, st) := st.add node.user
  let (kvs, st) := st.addTags node.tags
  ({ granularity, date_granularity, lat_offset, lon_offset
     dense := { id := [last_id], lat := [last_lat], lon := [last_lon], keys_vals := keysVals kvs }
     info := { version := [node.version], timestamp := [last_timestamp], changeset := [last_changeset],
               uid := [last_uid], user_sid := [last_sid], visible := [node.visible] }
     last_id, last_lon, last_lat, last_timestamp, last_uid, last_changeset, last_sid }, st)

/-- `DenseGroupBuilder::add`, `dense_group_builder.rs:88-127`. -/
def add (b : DenseGroupBuilder) (node : Node) (st : StringTableBuilder) :
    DenseGroupBuilder × StringTableBuilder :=
  let current_id := node.id
  let current_lon := encodeCoord b.granularity b.lon_offset node.coordinate.lon
  let current_lat := encodeCoord b.granularity b.lat_offset node.coordinate.lat
  let current_timestamp := node.timestamp / b.date_granularity.toInt64
  let current_uid := node.uid
  let current_changeset := node.changeset
  let (current_sid, st) := st.add node.user
  let (kvs, st) := st.addTags node.tags
  ({ b with
     dense := { b.dense with
       id := b.dense.id ++ [current_id - b.last_id]
       lat := b.dense.lat ++ [current_lat - b.last_lat]
       lon := b.dense.lon ++ [current_lon - b.last_lon]
       keys_vals := b.dense.keys_vals ++ keysVals kvs }
     info := { b.info with
       version := b.info.version ++ [node.version]
       timestamp := b.info.timestamp ++ [current_timestamp - b.last_timestamp]
       changeset := b.info.changeset ++ [current_changeset - b.last_changeset]
       uid := b.info.uid ++ [current_uid - b.last_uid]
       user_sid := b.info.user_sid ++ [current_sid - b.last_sid]
       visible := b.info.visible ++ [node.visible] }
     last_id := current_id
     last_lon := current_lon
     last_lat := current_lat
     last_timestamp := current_timestamp
     last_uid := current_uid
     last_changeset := current_changeset
     last_sid := current_sid }, st)

/-- `DenseGroupBuilder::build`, `dense_group_builder.rs:129-134`. -/
def build (b : DenseGroupBuilder) : Pb.PrimitiveGroup :=
  { dense := some { b.dense with denseinfo := some b.info } }

end DenseGroupBuilder

/-- Delta coding of a list starting from `last`, `ways_group_builder.rs:30-34`,
`relations_group_builder.rs:31-53` (`memids`). -/
def deltas (last : Int64) : List Int64 → List Int64
  | [] => []
  | r :: rs => (r - last) :: deltas r rs

/-- `WaysGroupBuilder::convert`, `ways_group_builder.rs:27-50`. -/
def convertWay (date_granularity : Int32) (way : Way) (st : StringTableBuilder) :
    Pb.Way × StringTableBuilder :=
  let refs := deltas 0 way.refs
  let (kvs, st) := st.addTags way.tags
  let (sid, st) := st.add way.user
  ({ id := way.id
     refs := refs
     keys := kvs.map fun kv => kv.1.toUInt32
     vals := kvs.map fun kv => kv.2.toUInt32
     info := some
       { visible := some way.visible
         uid := some way.uid
         changeset := some way.changeset
         timestamp := some (way.timestamp / date_granularity.toInt64)
         version := some way.version
         user_sid := some sid.toUInt32 } }, st)

/-- id of a member, `relations_group_builder.rs:35,40,45` -/
def Member.id : Member → Int64
  | .node m => m.id
  | .way m => m.id
  | .relation m => m.id

/-- role of a member, `relations_group_builder.rs:37,42,47` -/
def Member.role : Member → String
  | .node m => m.role
  | .way m => m.role
  | .relation m => m.role

/-- `MemberType::_ as i32`, `relations_group_builder.rs:36,41,46`, `prost-osmpbf.rs` `MemberType` -/
def Member.typeCode : Member → Int32
  | .node _ => 0
  | .way _ => 1
  | .relation _ => 2

/-- Adding the roles of all members, `relations_group_builder.rs:32-53` (`roles_sid`). -/
def addRoles (st : StringTableBuilder) : List Member → List Int32 × StringTableBuilder
  | [] => ([], st)
  | m :: ms =>
    let (i, st) := st.add m.role
    let (rest, st) := addRoles st ms
    (i :: rest, st)

/-- `RelationsGroupBuilder::convert`, `relations_group_builder.rs:27-70`. The single loop over the members
pushing `types`, `roles_sid` and `memids` is written as three. -/
def convertRelation (date_granularity : Int32) (relation : Relation) (st : StringTableBuilder) :
    Pb.Relation × StringTableBuilder :=
  let (roles, st) := addRoles st relation.members
  let (kvs, st) := st.addTags relation.tags
  let (sid, st) := st.add relation.user
  ({ id := relation.id
     types := relation.members.map Member.typeCode
     roles_sid := roles
     memids := deltas 0 (relation.members.map Member.id)
     keys := kvs.map fun kv => kv.1.toUInt32
     vals := kvs.map fun kv => kv.2.toUInt32
     info := some
       { visible := some relation.visible
         uid := some relation.uid
         changeset := some relation.changeset
         timestamp := some (relation.timestamp / date_granularity.toInt64)
         version := some relation.version
         user_sid := some sid.toUInt32 } }, st)

/-- Local state of `OsmData::serialize`, `osm_data.rs:318-326`. The ways and relations builders are the
vectors they hold (`WaysGroupBuilder`/`RelationsGroupBuilder`, their `new` and `add` both push a converted element,
`ways_group_builder.rs:12-25`, `relations_group_builder.rs:12-25`). -/
structure SerState where
  st : StringTableBuilder
  dense : Option DenseGroupBuilder
  ways : Option (List Pb.Way)
  relations : Option (List Pb.Relation)

/-- Body of the loop of `OsmData::serialize`, `osm_data.rs:327-358`. -/
def SerState.step (s : SerState) (e : Element) : SerState :=
  match e with
  | .node node =>
    match s.dense with
    | none =>
      let (d, st) := DenseGroupBuilder.new 100 1000 0 0 node s.st
      { s with st, dense := some d }
    | some d =>
      let (d, st) := d.add node s.st
      { s with st, dense := some d }
  | .way way =>
    let (w, st) := convertWay 1000 way s.st
    { s with st, ways := some (s.ways.getD [] ++ [w]) }
  | .relation relation =>
    let (r, st) := convertRelation 1000 relation s.st
    { s with st, relations := some (s.relations.getD [] ++ [r]) }
  | .sentinel => s

/-- `OsmData::serialize` up to the protobuf encoding, `osm_data.rs:317-377`: a single group, of dense
nodes if there is any node, else of ways, else of relations. -/
def toPrimitiveBlock (elements : List Element) : Pb.PrimitiveBlock :=
  let s := elements.foldl SerState.step ⟨StringTableBuilder.new, none, none, none⟩
  let group : Pb.PrimitiveGroup :=
    match s.dense with
    | some d => d.build
    | none =>
      match s.ways with
      | some ws => { ways := ws }
      | none =>
        match s.relations with
        | some rs => { relations := rs }
        | none => {}
  { stringtable := s.st.build
    primitivegroup := [group]
    granularity := some 100
    lat_offset := some 0
    lon_offset := some 0
    date_granularity := some 1000 }

/-- `OsmData::serialize`, `osm_data.rs:317-382` (encoding into a growable buffer cannot fail). -/
def serializeData (elements : List Element) : Bytes := (toPrimitiveBlock elements).encode

/-! ## Decoding -/

/-- `i as usize` of an `i32` (sign extending). (used in `src/osm/pbf/osm_data.rs:88-308`) -/
def i32AsUsize (i : Int32) : Nat := i.toInt64.toUInt64.toNat

/-- `string_table[i]`: panics out of bounds. (used in `src/osm/pbf/osm_data.rs:88-308`) -/
def strAt (tbl : List String) (i : Nat) : Out String := Out.unwrap tbl[i]?

/-- `(offset + granularity * v) as f64 / 1000000000f64`, `osm_data.rs:148-151,172-175`. -/
def decodeCoord (granularity offset v : Int64) : F64 :=
  F64.div (F64.ofI64 (offset + granularity * v)) 1000000000

/-- Reading the tags of one dense node, `osm_data.rs:132-146`: remaining `keys_vals` in, tags and rest out. -/
def readKeyVals (tbl : List String) : List Int32 → Out (List Tag × List Int32)
  | [] => .ok ([], [])
  | k :: rest =>
    if k = 0 then .ok ([], rest)
    else
      match rest with
      | [] => .panic
      | v :: rest' => do
        let key ← strAt tbl (i32AsUsize k)
        let val ← strAt tbl (i32AsUsize v)
        let (tags, r) ← readKeyVals tbl rest'
        .ok (⟨key, val⟩ :: tags, r)

/-- Loop variables of `OsmData::read_dense`, `osm_data.rs:90-108`. -/
structure DenseState where
  last_id : Int64
  last_lat : Int64
  last_lon : Int64
  last_timestamp : Int64
  timestamp : Int64
  last_changeset : Int64
  uid : Int32
  last_user_sid : Int32
  visible : Bool
  keyVals : List Int32

/-- Initial loop variables, `osm_data.rs:90-108`. -/
def DenseState.init (dense : Pb.DenseNodes) : DenseState :=
  { last_id := 0, last_lat := 0, last_lon := 0, last_timestamp := 0, timestamp := 0
    last_changeset := if dense.denseinfo.isSome then 0 else -1
    uid := if dense.denseinfo.isSome then 0 else -1
    last_user_sid := 0
    visible := true
    keyVals := dense.keys_vals }

/-- One iteration's metadata part, `osm_data.rs:114-130`: new state, version and user. -/
def readDenseInfo (tbl : List String) (date_granularity : Int32) (info : Option Pb.DenseInfo) (i : Nat)
    (s : DenseState) : Out (DenseState × Int32 × String) :=
  match info with
  | none => .ok (s, 0, "")
  | some info => do
    let dts ← Out.unwrap info.timestamp[i]?
    let last_timestamp := s.last_timestamp + dts
    let timestamp := last_timestamp * date_granularity.toInt64
    let dcs ← Out.unwrap info.changeset[i]?
    let duid ← Out.unwrap info.uid[i]?
    let dsid ← Out.unwrap info.user_sid[i]?
    let last_user_sid := s.last_user_sid + dsid
    let visible := (info.visible[i]?).getD true
    let version ← Out.unwrap info.version[i]?
    let user ← strAt tbl (i32AsUsize last_user_sid)
    .ok ({ s with
      last_timestamp, timestamp
      last_changeset := s.last_changeset + dcs
      uid := s.uid + duid
      last_user_sid, visible }, version, user)

/-- The loop of `OsmData::read_dense` from index `i`, `osm_data.rs:109-165`. -/
def readDenseGo (tbl : List String) (granularity : Int64) (date_granularity : Int32)
    (lat_offset lon_offset : Int64) (dense : Pb.DenseNodes) :
    Nat → List Int64 → DenseState → Out (List Element)
  | _, [], _ => .ok []
  | i, id :: ids, s => do
    let dlat ← Out.unwrap dense.lat[i]?
    let dlon ← Out.unwrap dense.lon[i]?
    let s := { s with
      last_id := s.last_id + id
      last_lat := s.last_lat + dlat
      last_lon := s.last_lon + dlon }
    let (s, version, user) ← readDenseInfo tbl date_granularity dense.denseinfo i s
    let (tags, kv) ← readKeyVals tbl s.keyVals
    let s := { s with keyVals := kv }
    let node : Node :=
      { id := s.last_id, version
        coordinate := ⟨decodeCoord granularity lat_offset s.last_lat, decodeCoord granularity lon_offset s.last_lon⟩
        timestamp := s.timestamp, changeset := s.last_changeset, uid := s.uid, user
        visible := s.visible, tags }
    let rest ← readDenseGo tbl granularity date_granularity lat_offset lon_offset dense (i + 1) ids s
    .ok (.node node :: rest)

/-- `OsmData::read_dense`, `osm_data.rs:88-167`. -/
def readDense (tbl : List String) (granularity : Int64) (date_granularity : Int32)
    (lat_offset lon_offset : Int64) (dense : Option Pb.DenseNodes) : Out (List Element) :=
  match dense with
  | none => .ok []
  | some d => readDenseGo tbl granularity date_granularity lat_offset lon_offset d 0 d.id (DenseState.init d)

/-- Metadata of a node, way or relation: the tuple returned by `read_info`. (`src/osm/pbf/osm_data.rs:202-222`) -/
structure Meta where
  timestamp : Int64
  changeset : Int64
  uid : Int32
  user : String
  visible : Bool
  version : Int32
  deriving DecidableEq, Repr

/-- `OsmData::read_info`, `osm_data.rs:202-221` (`info.version()` is the accessor with default -1). -/
def readInfo (tbl : List String) (date_granularity : Int32) (info : Option Pb.Info) : Out Meta :=
  match info with
  | none => .ok ⟨-1, -1, -1, "", true, 0⟩
  | some info => do
    let user ← strAt tbl (info.user_sid.getD 0).toNat
    .ok { timestamp := info.timestamp.getD 0 * date_granularity.toInt64
          changeset := info.changeset.getD (-1)
          uid := info.uid.getD (-1)
          user
          visible := info.visible.getD true
          version := info.version.getD (-1) }

/-- The loop reading `keys`/`vals`, `osm_data.rs:180-185,237-242,288-293`: `vals[i]` panics when too short. -/
def readTags (tbl : List String) : List UInt32 → List UInt32 → Out (List Tag)
  | [], _ => .ok []
  | k :: ks, vs => do
    let key ← strAt tbl k.toNat
    match vs with
    | [] => .panic
    | v :: vs' =>
      let val ← strAt tbl v.toNat
      let rest ← readTags tbl ks vs'
      .ok (⟨key, val⟩ :: rest)

/-- `OsmData::read_nodes` for one node, `osm_data.rs:170-198`. -/
def readNode (tbl : List String) (granularity : Int64) (date_granularity : Int32)
    (lat_offset lon_offset : Int64) (n : Pb.Node) : Out Element := do
  let m ← readInfo tbl date_granularity n.info
  let tags ← readTags tbl n.keys n.vals
  .ok (.node
    { id := n.id, version := m.version
      coordinate := ⟨decodeCoord granularity lat_offset n.lat, decodeCoord granularity lon_offset n.lon⟩
      timestamp := m.timestamp, changeset := m.changeset, uid := m.uid, user := m.user
      visible := m.visible, tags })

/-- Undoing the delta coding, `osm_data.rs:230-235`. -/
def undelta (last : Int64) : List Int64 → List Int64
  | [] => []
  | d :: ds => (last + d) :: undelta (last + d) ds

/-- `OsmData::read_ways` for one way, `osm_data.rs:225-255`. -/
def readWay (tbl : List String) (date_granularity : Int32) (w : Pb.Way) : Out Element := do
  let m ← readInfo tbl date_granularity w.info
  let tags ← readTags tbl w.keys w.vals
  .ok (.way
    { id := w.id, version := m.version, timestamp := m.timestamp, changeset := m.changeset
      uid := m.uid, user := m.user, visible := m.visible, refs := undelta 0 w.refs, tags })

/-- `MemberType::try_from` and the construction of the member, `osm_data.rs:270-285`: panics on other codes. -/
def mkMember (t : Int32) (d : MemberData) : Out Member :=
  if t = 0 then .ok (.node d)
  else if t = 1 then .ok (.way d)
  else if t = 2 then .ok (.relation d)
  else .panic

/-- The member loop, `osm_data.rs:265-286`: `roles_sid[i]` and `types[i]` panic when too short. -/
def readMembers (tbl : List String) (last : Int64) : List Int64 → List Int32 → List Int32 → Out (List Member)
  | [], _, _ => .ok []
  | d :: ds, roles, types => do
    let last := last + d
    match roles with
    | [] => .panic
    | r :: rs =>
      let role ← strAt tbl (i32AsUsize r)
      match types with
      | [] => .panic
      | t :: ts =>
        let m ← mkMember t ⟨last, role⟩
        let rest ← readMembers tbl last ds rs ts
        .ok (m :: rest)

/-- `OsmData::read_relations` for one relation, `osm_data.rs:260-306`. -/
def readRelation (tbl : List String) (date_granularity : Int32) (r : Pb.Relation) : Out Element := do
  let m ← readInfo tbl date_granularity r.info
  let members ← readMembers tbl 0 r.memids r.roles_sid r.types
  let tags ← readTags tbl r.keys r.vals
  .ok (.relation
    { id := r.id, version := m.version, timestamp := m.timestamp, changeset := m.changeset
      uid := m.uid, user := m.user, visible := m.visible, members, tags })

/-- One primitive group, `osm_data.rs:37-43`; `read_changesets` panics on any changeset, `osm_data.rs:310-314`. -/
def readGroup (tbl : List String) (granularity : Int64) (date_granularity : Int32)
    (lat_offset lon_offset : Int64) (g : Pb.PrimitiveGroup) : Out (List Element) := do
  let a ← readDense tbl granularity date_granularity lat_offset lon_offset g.dense
  let b ← g.nodes.mapM (readNode tbl granularity date_granularity lat_offset lon_offset)
  let c ← g.ways.mapM (readWay tbl date_granularity)
  let d ← g.relations.mapM (readRelation tbl date_granularity)
  if g.changesets.isEmpty then .ok (a ++ b ++ c ++ d) else .panic

/-- `OsmData::new` after the protobuf decoding, `osm_data.rs:25-46`. Defaults of absent fields as declared in
`prost-osmpbf.rs:96-106`. -/
def fromPrimitiveBlock (p : Pb.PrimitiveBlock) : Out (List Element) := do
  let tbl ← p.stringtable.s.mapM fun b => Out.unwrap (strOf b)
  let granularity := (p.granularity.getD 100).toInt64
  let date_granularity := p.date_granularity.getD 1000
  let lat_offset := p.lat_offset.getD 0
  let lon_offset := p.lon_offset.getD 0
  let groups ← p.primitivegroup.mapM (readGroup tbl granularity date_granularity lat_offset lon_offset)
  .ok groups.flatten

/-- `OsmData::new`, `osm_data.rs:23-47`. -/
def parseData (data : Bytes) : Out (List Element) :=
  match Pb.PrimitiveBlock.decode data with
  | none => .err
  | some p => fromPrimitiveBlock p

/-- `OsmData::recompute_bounding_box`, `osm_data.rs:62-86`, from the box computed so far. -/
def bboxOfElements (acc : Option BoundingBox) : List Element → Option BoundingBox
  | .node n :: es =>
    bboxOfElements (some (match acc with
      | none => ⟨n.coordinate.lon, n.coordinate.lat, n.coordinate.lon, n.coordinate.lat⟩
      | some b => b.mergePoint n.coordinate)) es
  | _ => acc

end OsmIo
