import Verif.Model.Sql
import Verif.Model.Element
/-!
# Writing an apidb dump (`src/osm/apidb_dump/write/*.rs`)

I/O errors are not modelled. A panic discards the state (what had been written before it is not
observable in the model). Text of a table file is what was written to it; buffering is not modelled.
-/
namespace OsmIo.Apidb
open OsmIo.Text OsmIo.Sql

/-- The tables of a dump, `src/osm/apidb_dump/write/table_data_writers.rs:9-62`. -/
inductive Table where
  | acls
  | activeStorageAttachments
  | activeStorageBlobs
  | activeStorageVariantRecords
  | arInternalMetadata
  | changesetComments
  | changesetTags
  | changesets
  | changesetsSubscribers
  | clientApplications
  | currentNodeTags
  | currentNodes
  | currentRelationMembers
  | currentRelationTags
  | currentRelations
  | currentWayNodes
  | currentWayTags
  | currentWays
  | delayedJobs
  | diaryComments
  | diaryEntries
  | diaryEntrySubscriptions
  | friends
  | gpsPoints
  | gpxFileTags
  | gpxFiles
  | issueComments
  | issues
  | languages
  | messages
  | nodeTags
  | nodes
  | noteComments
  | notes
  | oauthAccessGrants
  | oauthAccessTokens
  | oauthApplications
  | oauthNonces
  | oauthTokens
  | redactions
  | relationMembers
  | relationTags
  | relations
  | reports
  | schemaMigrations
  | userBlocks
  | userPreferences
  | userRoles
  | userTokens
  | users
  | wayNodes
  | wayTags
  | ways
  deriving DecidableEq, Repr

/-- `escape_string::escape` and `unescape::unescape`: crates outside the repository, parameters of the
model.
(used in `src/osm/apidb_dump/write/writer.rs:124-125,199-200,280,317-318`, `src/osm/apidb_dump/read/table_reader.rs:185-186`) -/
structure Codec where
  escape : String → Text
  unescape : Text → Option String

/-- `CurrentObjectLine` and `CurrentObjectLines`, `src/osm/apidb_dump/write/current_object.rs:1-4,38-41`.
Simplification: one type for both; the single line of a `CurrentObjectLine` is a list of one line. -/
structure CurrentObject where
  lastId : Int64 := 0
  last : Option (List Text) := none

/-- `set_last_line` / `set_last_lines`, `src/osm/apidb_dump/write/current_object.rs:18-31,55-68`. -/
def CurrentObject.setLast (c : CurrentObject) (lines : List Text) (id : Int64) (visible : Bool) :
    Option (List Text) × CurrentObject :=
  let linesOpt := c.last
  let c' := if visible then { c with last := some lines } else { c with last := none }
  if id > c.lastId then (linesOpt, c') else (none, c')

/-- `set_last_id`, `src/osm/apidb_dump/write/current_object.rs:14-16,51-53`. -/
def CurrentObject.setLastId (c : CurrentObject) (id : Int64) : CurrentObject := { c with lastId := id }

/-- `HashMap::insert` and `BtreeIndex::insert`.
(used in `src/osm/apidb_dump/write/writer.rs:80-81,158-159,262-263`, `table_data_writers.rs:142,147`) -/
def insertKey {β : Type} (k : Int64) (v : β) (m : List (Int64 × β)) : List (Int64 × β) :=
  (k, v) :: m.filter (fun p => p.1 ≠ k)

/-- `BtreeIndex::range(..)`: all entries in ascending key order.
(used in `src/osm/apidb_dump/write/writer.rs:381,423`) -/
def entries {β : Type} (m : List (Int64 × β)) : List (Int64 × β) := m.mergeSort (fun a b => a.1 ≤ b.1)

/-- `Writer`, `src/osm/apidb_dump/write/writer.rs:20-34`, with the indexes of `TableDataWriters`.
`current` is indexed by the `current_*` table the object lines go to. -/
structure Writer where
  files : Table → Text := fun _ => []
  current : Table → CurrentObject := fun _ => {}
  userBuffer : List (Int64 × String) := []
  changesetBuffer : List (Int64 × Int64) := []
  userIndex : List (Int64 × String) := []
  changesetIndex : List (Int64 × Int64) := []

/-- `write_all` on the file of a table. (`src/osm/apidb_dump/write/table_data_writer.rs:32-34`) -/
def Writer.put (w : Writer) (t : Table) (s : Text) : Writer :=
  { w with files := fun t' => if t' = t then w.files t' ++ s else w.files t' }

/-- The pattern `match self.current_x.set_last_lines(..) { .. write_all .. }; set_last_id`,
`src/osm/apidb_dump/write/writer.rs:97-103,146-154,190-198,222-230,242-248,307-315,341-349,363-369`. -/
def Writer.putCurrent (w : Writer) (t : Table) (lines : List Text) (id : Int64) (visible : Bool) : Writer :=
  let (out, c) := (w.current t).setLast lines id visible
  let w := match out with
    | some ls => w.put t ls.flatten
    | none => w
  { w with current := fun t' => if t' = t then c.setLastId id else w.current t' }

/-- The two index inserts at the start of `write_node`, `write_way` and `write_relation`,
`src/osm/apidb_dump/write/writer.rs:80-81,158-159,262-263`. -/
def Writer.index (w : Writer) (uid : Int32) (user : String) (changeset : Int64) : Writer :=
  { w with
    userBuffer := insertKey uid.toInt64 user w.userBuffer
    changesetBuffer := insertKey changeset uid.toInt64 w.changesetBuffer }

/-- `Writer::write_node`, `src/osm/apidb_dump/write/writer.rs:79-155`. -/
def Writer.writeNode (z : Codec) (w : Writer) (n : Node) : Out Writer := do
  let w := w.index n.uid n.user n.changeset
  let time ← toSqlTimeMillis n.timestamp
  let currentLine := row [showInt n.id.toInt, showInt n.coordinate.lat7.toInt, showInt n.coordinate.lon7.toInt,
    showInt n.changeset.toInt, toSqlBool n.visible, time,
    showNat (calculateTile n.coordinate.lat n.coordinate.lon), showInt n.version.toInt]
  let w := w.putCurrent .currentNodes [currentLine] n.id n.visible
  let w := w.put .nodes (row [showInt n.id.toInt, showInt n.coordinate.lat7.toInt,
    showInt n.coordinate.lon7.toInt, showInt n.changeset.toInt, toSqlBool n.visible, time,
    showNat (calculateTile n.coordinate.lat n.coordinate.lon), showInt n.version.toInt, "\\N".toList])
  let w := w.put .nodeTags (n.tags.flatMap fun tag =>
    row [showInt n.id.toInt, showInt n.version.toInt, z.escape tag.k, z.escape tag.v])
  let w := w.putCurrent .currentNodeTags
    (n.tags.map fun tag => row [showInt n.id.toInt, z.escape tag.k, z.escape tag.v]) n.id n.visible
  return w

/-- `Writer::write_way`, `src/osm/apidb_dump/write/writer.rs:157-259`. -/
def Writer.writeWay (z : Codec) (w : Writer) (y : Way) : Out Writer := do
  let w := w.index y.uid y.user y.changeset
  let w := w.put .wayNodes (y.refs.zipIdx.flatMap fun (node, seq) =>
    row [showInt y.id.toInt, showInt node.toInt, showInt y.version.toInt, showNat (seq + 1)])
  let w := w.putCurrent .currentWayNodes (y.refs.zipIdx.map fun (node, seq) =>
    row [showInt y.id.toInt, showInt node.toInt, showNat (seq + 1)]) y.id y.visible
  let w := w.put .wayTags (y.tags.flatMap fun tag =>
    row [showInt y.id.toInt, z.escape tag.k, z.escape tag.v, showInt y.version.toInt])
  let w := w.putCurrent .currentWayTags
    (y.tags.map fun tag => row [showInt y.id.toInt, z.escape tag.k, z.escape tag.v]) y.id y.visible
  let time ← toSqlTimeMillis y.timestamp
  let w := w.putCurrent .currentWays [row [showInt y.id.toInt, showInt y.changeset.toInt, time,
    toSqlBool y.visible, showInt y.version.toInt]] y.id y.visible
  let w := w.put .ways (row [showInt y.id.toInt, showInt y.changeset.toInt, time,
    showInt y.version.toInt, toSqlBool y.visible, "\\N".toList])
  return w

/-- Id, role and type text of a member, `src/osm/apidb_dump/write/writer.rs:266-276`. -/
def memberParts : Member → Int64 × String × Text
  | .node m => (m.id, m.role, "Node".toList)
  | .way m => (m.id, m.role, "Way".toList)
  | .relation m => (m.id, m.role, "Relation".toList)

/-- `Writer::write_relation`, `src/osm/apidb_dump/write/writer.rs:261-378`. -/
def Writer.writeRelation (z : Codec) (w : Writer) (r : Relation) : Out Writer := do
  let w := w.index r.uid r.user r.changeset
  let w := w.put .relationMembers (r.members.zipIdx.flatMap fun (m, seq) =>
    let (id, role, type) := memberParts m
    row [showInt r.id.toInt, type, showInt id.toInt, z.escape role, showInt r.version.toInt, showNat (seq + 1)])
  let w := w.putCurrent .currentRelationMembers (r.members.zipIdx.map fun (m, seq) =>
    let (id, role, type) := memberParts m
    row [showInt r.id.toInt, type, showInt id.toInt, z.escape role, showNat (seq + 1)]) r.id r.visible
  let w := w.put .relationTags (r.tags.flatMap fun tag =>
    row [showInt r.id.toInt, z.escape tag.k, z.escape tag.v, showInt r.version.toInt])
  let w := w.putCurrent .currentRelationTags
    (r.tags.map fun tag => row [showInt r.id.toInt, z.escape tag.k, z.escape tag.v]) r.id r.visible
  let time ← toSqlTimeMillis r.timestamp
  let w := w.putCurrent .currentRelations [row [showInt r.id.toInt, showInt r.changeset.toInt, time,
    toSqlBool r.visible, showInt r.version.toInt]] r.id r.visible
  let w := w.put .relations (row [showInt r.id.toInt, showInt r.changeset.toInt, time,
    showInt r.version.toInt, toSqlBool r.visible, "\\N".toList])
  return w

/-- `Writer::write_element`, `src/osm/apidb_dump/write/writer.rs:63-77`. -/
def Writer.writeElement (z : Codec) (w : Writer) : Element → Out Writer
  | .node n => w.writeNode z n
  | .way y => w.writeWay z y
  | .relation r => w.writeRelation z r
  | .sentinel => .ok w

/-- A sequence of `write_element` calls. (`src/osm/apidb_dump/write/writer.rs:63-77`) -/
def Writer.writeAll (z : Codec) (w : Writer) : List Element → Out Writer
  | [] => .ok w
  | e :: es => do (← w.writeElement z e).writeAll z es

/-- One `match self.current_x.take() { .. }` of `flush_current_object_lines`.
(`src/osm/apidb_dump/write/writer.rs:465-534`) -/
def Writer.flushOne (w : Writer) (t : Table) : Writer :=
  let w' := match (w.current t).last with
    | some ls => w.put t ls.flatten
    | none => w
  { w' with current := fun t' => if t' = t then { w.current t with last := none } else w.current t' }

/-- `flush_current_object_lines`, `src/osm/apidb_dump/write/writer.rs:465-533`. -/
def Writer.flushCurrent (w : Writer) : Writer :=
  ((((((((w.flushOne .currentNodes).flushOne .currentNodeTags).flushOne .currentWays).flushOne
    .currentWayTags).flushOne .currentWayNodes).flushOne .currentRelations).flushOne
    .currentRelationTags).flushOne .currentRelationMembers)

/-- `TableDataWriters::flush_buffers`, `src/osm/apidb_dump/write/table_data_writers.rs:137-148`. -/
def Writer.flushBuffers (w : Writer) : Writer :=
  { w with
    userIndex := w.userBuffer.foldr (fun p m => insertKey p.1 p.2 m) w.userIndex
    userBuffer := []
    changesetIndex := w.changesetBuffer.foldr (fun p m => insertKey p.1 p.2 m) w.changesetIndex
    changesetBuffer := [] }

/-- The columns of a row of `users`, `src/osm/apidb_dump/write/writer.rs:427-458`. -/
def userRow (id : Int64) (name : String) (time : Text) : Text :=
  row ["osm-admin-user-".toList ++ showInt id.toInt ++ "@example.com".toList, showInt id.toInt,
    "00000000000000000000000000000000".toList, time, name.toList, toSqlBool true, name.toList,
    showInt 0, showInt 0, showInt 3, "00000000".toList, toSqlBool false, "\\N".toList, "\\N".toList,
    "\\N".toList, "pending".toList, "\\N".toList, toSqlBool false, "\\N".toList, "\\N".toList, toSqlBool false,
    "markdown".toList, showInt 0, showInt 0, showInt 0, toSqlBool false, "\\N".toList, "\\N".toList, "\\N".toList]

/-- `write_users`, `src/osm/apidb_dump/write/writer.rs:420-463`. `clock` gives the current time in
microseconds when the row of a user is written. -/
def Writer.writeUsers (clock : Int64 → Int64) (w : Writer) : List (Int64 × String) → Out Writer
  | [] => .ok w
  | (id, name) :: us => do
    let time ← toSqlTimeMicros (clock id)
    (w.put .users (userRow id name time)).writeUsers clock us

/-- `write_changesets`, `src/osm/apidb_dump/write/writer.rs:380-418`. -/
def Writer.writeChangesets (clock : Int64 → Int64) (w : Writer) : List (Int64 × Int64) → Out Writer
  | [] => .ok w
  | (id, uid) :: cs => do
    let w := w.put .changesetTags (row [showInt id.toInt, "created_by".toList, "osm-io 0.2.2".toList])
    let w := w.put .changesetTags (row [showInt id.toInt, "replication".toList, "true".toList])
    let time ← toSqlTimeMicros (clock id)
    (w.put .changesets (row [showInt id.toInt, showInt uid.toInt, time, showInt (-900000000),
      showInt 900000000, showInt (-1800000000), showInt 1800000000, time, showInt 0])).writeChangesets clock cs

/-- The tables in the order `TableDataWriters::close` closes them,
`src/osm/apidb_dump/write/table_data_writers.rs:150-208`. -/
def closeOrder : List Table :=
  [.acls, .activeStorageAttachments, .activeStorageBlobs, .activeStorageVariantRecords, .arInternalMetadata, .changesetComments,
   .changesetTags, .changesets, .changesetsSubscribers, .clientApplications, .currentNodeTags, .currentNodes,
   .currentRelationMembers, .currentRelationTags, .currentRelations, .currentWayNodes, .currentWayTags, .currentWays,
   .delayedJobs, .diaryComments, .diaryEntries, .diaryEntrySubscriptions, .friends, .gpsPoints,
   .gpxFileTags, .gpxFiles, .issueComments, .issues, .languages, .messages,
   .nodeTags, .nodes, .noteComments, .notes, .oauthAccessGrants, .oauthAccessTokens,
   .oauthApplications, .oauthNonces, .oauthTokens, .redactions, .relationMembers, .relationTags,
   .relations, .reports, .schemaMigrations, .userBlocks, .userPreferences, .userRoles,
   .userTokens, .users, .wayNodes, .wayTags, .ways]

/-- `TableDataWriter::close` on each table, `src/osm/apidb_dump/write/table_data_writer.rs:26-30`. -/
def Writer.closeTables (w : Writer) : List Table → Writer
  | [] => w
  | t :: ts => (w.put t "\\.\n".toList).closeTables ts

/-- `Writer::close`, `src/osm/apidb_dump/write/writer.rs:536-543`. `userClock` and `changesetClock` are
the times at which the rows are written. -/
def Writer.close (userClock changesetClock : Int64 → Int64) (w : Writer) : Out Writer := do
  let w := w.flushCurrent
  let w := w.flushBuffers
  let w ← w.writeUsers userClock (entries w.userIndex)
  let w ← w.writeChangesets changesetClock (entries w.changesetIndex)
  return w.closeTables closeOrder

/-- `Writer::new`, `src/osm/apidb_dump/write/writer.rs:43-60`. -/
def Writer.new : Writer := {}

end OsmIo.Apidb
