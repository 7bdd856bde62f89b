import Verif.Model.OsmData
/-!
# Data blocks in a debug build

`src/osm/pbf/dense_group_builder.rs`, `ways_group_builder.rs`, `relations_group_builder.rs` and `osm_data.rs` once more, as compiled
with overflow checks (the `dev` and `test` profiles of cargo): `+`, `-`, `*` and their assignment forms panic when the result does not fit.
`Model/OsmData.lean` is the release build, where they wrap. Casts (`as`) and floating point do not panic in either. The subtraction in
`StringTableBuilder::add` (`string_table_builder.rs:27`) is left as it is: it overflows only for a table of exactly 2^31 strings.
-/
namespace OsmIo
open Wire

/-- The value `n` fits `i64`. (used in `src/osm/pbf/osm_data.rs:88-308`) -/
def fits64 (n : ℤ) : Bool := decide (-2 ^ 63 ≤ n) && decide (n < 2 ^ 63)
/-- The value `n` fits `i32`. (used in `src/osm/pbf/osm_data.rs:88-308`) -/
def fits32 (n : ℤ) : Bool := decide (-2 ^ 31 ≤ n) && decide (n < 2 ^ 31)

/-- `a + b` of `i64` with overflow checks. (used in `src/osm/pbf/osm_data.rs:110-120,148-151`) -/
def add64 (a b : Int64) : Out Int64 := if fits64 (a.toInt + b.toInt) then .ok (a + b) else .panic
/-- `a - b` of `i64` with overflow checks. (used in `src/osm/pbf/dense_group_builder.rs:90-117`) -/
def sub64 (a b : Int64) : Out Int64 := if fits64 (a.toInt - b.toInt) then .ok (a - b) else .panic
/-- `a * b` of `i64` with overflow checks. (used in `src/osm/pbf/osm_data.rs:116,149,150`) -/
def mul64 (a b : Int64) : Out Int64 := if fits64 (a.toInt * b.toInt) then .ok (a * b) else .panic
/-- `a + b` of `i32` with overflow checks. (used in `src/osm/pbf/osm_data.rs:118,119`) -/
def add32 (a b : Int32) : Out Int32 := if fits32 (a.toInt + b.toInt) then .ok (a + b) else .panic
/-- `a - b` of `i32` with overflow checks. (used in `src/osm/pbf/dense_group_builder.rs:109,117`) -/
def sub32 (a b : Int32) : Out Int32 := if fits32 (a.toInt - b.toInt) then .ok (a - b) else .panic

/-! ## Encoding -/

/-- `DenseGroupBuilder::add`, `dense_group_builder.rs:88-127`, with overflow checks. -/
def DenseGroupBuilder.addChecked (b : DenseGroupBuilder) (node : Node) (st : StringTableBuilder) :
    Out (DenseGroupBuilder × StringTableBuilder) := do
  let current_id := node.id
  let did ← sub64 current_id b.last_id
  let current_lon := encodeCoord b.granularity b.lon_offset node.coordinate.lon
  let dlon ← sub64 current_lon b.last_lon
  let current_lat := encodeCoord b.granularity b.lat_offset node.coordinate.lat
  let dlat ← sub64 current_lat b.last_lat
  let current_timestamp := node.timestamp / b.date_granularity.toInt64
  let dtimestamp ← sub64 current_timestamp b.last_timestamp
  let current_uid := node.uid
  let duid ← sub32 current_uid b.last_uid
  let current_changeset := node.changeset
  let dchangeset ← sub64 current_changeset b.last_changeset
  let (current_sid, st) := st.add node.user
  let dsid ← sub32 current_sid b.last_sid
  let (kvs, st) := st.addTags node.tags
  .ok ({ b with
     dense := { b.dense with
       id := b.dense.id ++ [did]
       lat := b.dense.lat ++ [dlat]
       lon := b.dense.lon ++ [dlon]
       keys_vals := b.dense.keys_vals ++ keysVals kvs }
     info := { b.info with
       version := b.info.version ++ [node.version]
       timestamp := b.info.timestamp ++ [dtimestamp]
       changeset := b.info.changeset ++ [dchangeset]
       uid := b.info.uid ++ [duid]
       user_sid := b.info.user_sid ++ [dsid]
       visible := b.info.visible ++ [node.visible] }
     last_id := current_id
     last_lon := current_lon
     last_lat := current_lat
     last_timestamp := current_timestamp
     last_uid := current_uid
     last_changeset := current_changeset
     last_sid := current_sid }, st)

/-- Delta coding, `ways_group_builder.rs:30-34`, `relations_group_builder.rs:31-53` (`memids`), with overflow checks. -/
def deltasChecked (last : Int64) : List Int64 → Out (List Int64)
  | [] => .ok []
  | r :: rs => do
    let d ← sub64 r last
    let ds ← deltasChecked r rs
    .ok (d :: ds)

/-- `WaysGroupBuilder::convert`, `ways_group_builder.rs:27-50`, with overflow checks. -/
def convertWayChecked (date_granularity : Int32) (way : Way) (st : StringTableBuilder) : Out (Pb.Way × StringTableBuilder) := do
  let refs ← deltasChecked 0 way.refs
  let (w, st) := convertWay date_granularity way st
  .ok ({ w with refs }, st)

/-- `RelationsGroupBuilder::convert`, `relations_group_builder.rs:27-70`, with overflow checks. -/
def convertRelationChecked (date_granularity : Int32) (relation : Relation) (st : StringTableBuilder) :
    Out (Pb.Relation × StringTableBuilder) := do
  let memids ← deltasChecked 0 (relation.members.map Member.id)
  let (r, st) := convertRelation date_granularity relation st
  .ok ({ r with memids }, st)

/-- Body of the loop of `OsmData::serialize`, `osm_data.rs:327-358`, with overflow checks. The first node of a block is stored as it is. -/
def SerState.stepChecked (s : SerState) (e : Element) : Out SerState :=
  match e with
  | .node node =>
    match s.dense with
    | none => .ok (s.step (.node node))
    | some d => do
      let (d, st) ← d.addChecked node s.st
      .ok { s with st, dense := some d }
  | .way way => do
    let (w, st) ← convertWayChecked 1000 way s.st
    .ok { s with st, ways := some (s.ways.getD [] ++ [w]) }
  | .relation relation => do
    let (r, st) ← convertRelationChecked 1000 relation s.st
    .ok { s with st, relations := some (s.relations.getD [] ++ [r]) }
  | .sentinel => .ok s

/-- The message built at the end of `OsmData::serialize`, `osm_data.rs:359-377`. -/
def SerState.block (s : SerState) : Pb.PrimitiveBlock :=
  { stringtable := s.st.build
    primitivegroup := [match s.dense with
      | some d => d.build
      | none =>
        match s.ways with
        | some ws => { ways := ws }
        | none =>
          match s.relations with
          | some rs => { relations := rs }
          | none => {}]
    granularity := some 100
    lat_offset := some 0
    lon_offset := some 0
    date_granularity := some 1000 }

/-- `OsmData::serialize`, `osm_data.rs:317-382`, with overflow checks. -/
def serializeDataChecked (elements : List Element) : Out Bytes := do
  let s ← elements.foldlM SerState.stepChecked ⟨StringTableBuilder.new, none, none, none⟩
  .ok s.block.encode

/-! ## Decoding -/

/-- `(offset + granularity * v) as f64 / 1000000000f64`, `osm_data.rs:148-151,172-175`, with overflow checks. -/
def decodeCoordChecked (granularity offset v : Int64) : Out F64 := do
  let m ← mul64 granularity v
  let n ← add64 offset m
  .ok (F64.div (F64.ofI64 n) 1000000000)

/-- One iteration's metadata part, `osm_data.rs:114-130`, with overflow checks. -/
def readDenseInfoChecked (tbl : List String) (date_granularity : Int32) (info : Option Pb.DenseInfo) (i : Nat)
    (s : DenseState) : Out (DenseState × Int32 × String) :=
  match info with
  | none => .ok (s, 0, "")
  | some info => do
    let dts ← Out.unwrap info.timestamp[i]?
    let last_timestamp ← add64 s.last_timestamp dts
    let timestamp ← mul64 last_timestamp date_granularity.toInt64
    let dcs ← Out.unwrap info.changeset[i]?
    let last_changeset ← add64 s.last_changeset dcs
    let duid ← Out.unwrap info.uid[i]?
    let uid ← add32 s.uid duid
    let dsid ← Out.unwrap info.user_sid[i]?
    let last_user_sid ← add32 s.last_user_sid dsid
    let visible := (info.visible[i]?).getD true
    let version ← Out.unwrap info.version[i]?
    let user ← strAt tbl (i32AsUsize last_user_sid)
    .ok ({ s with last_timestamp, timestamp, last_changeset, uid, last_user_sid, visible }, version, user)

/-- The loop of `OsmData::read_dense` from index `i`, `osm_data.rs:109-165`, with overflow checks. -/
def readDenseGoChecked (tbl : List String) (granularity : Int64) (date_granularity : Int32)
    (lat_offset lon_offset : Int64) (dense : Pb.DenseNodes) :
    Nat → List Int64 → DenseState → Out (List Element)
  | _, [], _ => .ok []
  | i, id :: ids, s => do
    let last_id ← add64 s.last_id id
    let dlat ← Out.unwrap dense.lat[i]?
    let last_lat ← add64 s.last_lat dlat
    let dlon ← Out.unwrap dense.lon[i]?
    let last_lon ← add64 s.last_lon dlon
    let s := { s with last_id, last_lat, last_lon }
    let (s, version, user) ← readDenseInfoChecked tbl date_granularity dense.denseinfo i s
    let (tags, kv) ← readKeyVals tbl s.keyVals
    let s := { s with keyVals := kv }
    let lat ← decodeCoordChecked granularity lat_offset s.last_lat
    let lon ← decodeCoordChecked granularity lon_offset s.last_lon
    let node : Node :=
      { id := s.last_id, version, coordinate := ⟨lat, lon⟩
        timestamp := s.timestamp, changeset := s.last_changeset, uid := s.uid, user
        visible := s.visible, tags }
    let rest ← readDenseGoChecked tbl granularity date_granularity lat_offset lon_offset dense (i + 1) ids s
    .ok (.node node :: rest)

/-- `OsmData::read_dense`, `osm_data.rs:88-167`, with overflow checks. -/
def readDenseChecked (tbl : List String) (granularity : Int64) (date_granularity : Int32)
    (lat_offset lon_offset : Int64) (dense : Option Pb.DenseNodes) : Out (List Element) :=
  match dense with
  | none => .ok []
  | some d => readDenseGoChecked tbl granularity date_granularity lat_offset lon_offset d 0 d.id (DenseState.init d)

/-- `OsmData::read_info`, `osm_data.rs:202-221`, with overflow checks. -/
def readInfoChecked (tbl : List String) (date_granularity : Int32) (info : Option Pb.Info) : Out Meta :=
  match info with
  | none => .ok ⟨-1, -1, -1, "", true, 0⟩
  | some info => do
    let timestamp ← mul64 (info.timestamp.getD 0) date_granularity.toInt64
    let user ← strAt tbl (info.user_sid.getD 0).toNat
    .ok { timestamp
          changeset := info.changeset.getD (-1)
          uid := info.uid.getD (-1)
          user
          visible := info.visible.getD true
          version := info.version.getD (-1) }

/-- `OsmData::read_nodes` for one node, `osm_data.rs:170-198`, with overflow checks. -/
def readNodeChecked (tbl : List String) (granularity : Int64) (date_granularity : Int32)
    (lat_offset lon_offset : Int64) (n : Pb.Node) : Out Element := do
  let lat ← decodeCoordChecked granularity lat_offset n.lat
  let lon ← decodeCoordChecked granularity lon_offset n.lon
  let m ← readInfoChecked tbl date_granularity n.info
  let tags ← readTags tbl n.keys n.vals
  .ok (.node
    { id := n.id, version := m.version, coordinate := ⟨lat, lon⟩
      timestamp := m.timestamp, changeset := m.changeset, uid := m.uid, user := m.user
      visible := m.visible, tags })

/-- Undoing the delta coding, `osm_data.rs:230-235`, with overflow checks. -/
def undeltaChecked (last : Int64) : List Int64 → Out (List Int64)
  | [] => .ok []
  | d :: ds => do
    let r ← add64 last d
    let rs ← undeltaChecked r ds
    .ok (r :: rs)

/-- `OsmData::read_ways` for one way, `osm_data.rs:225-255`, with overflow checks. -/
def readWayChecked (tbl : List String) (date_granularity : Int32) (w : Pb.Way) : Out Element := do
  let m ← readInfoChecked tbl date_granularity w.info
  let refs ← undeltaChecked 0 w.refs
  let tags ← readTags tbl w.keys w.vals
  .ok (.way
    { id := w.id, version := m.version, timestamp := m.timestamp, changeset := m.changeset
      uid := m.uid, user := m.user, visible := m.visible, refs, tags })

/-- The member loop, `osm_data.rs:265-286`, with overflow checks. -/
def readMembersChecked (tbl : List String) (last : Int64) : List Int64 → List Int32 → List Int32 → Out (List Member)
  | [], _, _ => .ok []
  | d :: ds, roles, types => do
    let last ← add64 last d
    match roles with
    | [] => .panic
    | r :: rs =>
      let role ← strAt tbl (i32AsUsize r)
      match types with
      | [] => .panic
      | t :: ts =>
        let m ← mkMember t ⟨last, role⟩
        let rest ← readMembersChecked tbl last ds rs ts
        .ok (m :: rest)

/-- `OsmData::read_relations` for one relation, `osm_data.rs:260-306`, with overflow checks. -/
def readRelationChecked (tbl : List String) (date_granularity : Int32) (r : Pb.Relation) : Out Element := do
  let m ← readInfoChecked tbl date_granularity r.info
  let members ← readMembersChecked tbl 0 r.memids r.roles_sid r.types
  let tags ← readTags tbl r.keys r.vals
  .ok (.relation
    { id := r.id, version := m.version, timestamp := m.timestamp, changeset := m.changeset
      uid := m.uid, user := m.user, visible := m.visible, members, tags })

/-- One primitive group, `osm_data.rs:37-43`, with overflow checks. -/
def readGroupChecked (tbl : List String) (granularity : Int64) (date_granularity : Int32)
    (lat_offset lon_offset : Int64) (g : Pb.PrimitiveGroup) : Out (List Element) := do
  let a ← readDenseChecked tbl granularity date_granularity lat_offset lon_offset g.dense
  let b ← g.nodes.mapM (readNodeChecked tbl granularity date_granularity lat_offset lon_offset)
  let c ← g.ways.mapM (readWayChecked tbl date_granularity)
  let d ← g.relations.mapM (readRelationChecked tbl date_granularity)
  if g.changesets.isEmpty then .ok (a ++ b ++ c ++ d) else .panic

/-- `OsmData::new`, `osm_data.rs:23-47`, with overflow checks. -/
def parseDataChecked (data : Bytes) : Out (List Element) :=
  match Pb.PrimitiveBlock.decode data with
  | none => .err
  | some p => do
    let tbl ← p.stringtable.s.mapM fun b => Out.unwrap (strOf b)
    let groups ← p.primitivegroup.mapM (readGroupChecked tbl (p.granularity.getD 100).toInt64 (p.date_granularity.getD 1000)
      (p.lat_offset.getD 0) (p.lon_offset.getD 0))
    .ok groups.flatten

end OsmIo
