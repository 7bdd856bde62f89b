import Verif.Model.ApidbWriter
/-!
# Specification vocabulary for apidb dumps

The tables of a dump as lists of rows, a row being the list of its columns in the order of the table's
`COPY` statement.
-/
namespace OsmIo.Spec
open OsmIo.Text OsmIo.Sql OsmIo.Apidb

/-- The nodes of a sequence of elements, in order. -/
def nodesOf (es : List Element) : List Node := es.filterMap fun | .node n => some n | _ => none

/-- The ways of a sequence of elements, in order. -/
def waysOf (es : List Element) : List Way := es.filterMap fun | .way y => some y | _ => none

/-- The relations of a sequence of elements, in order. -/
def relationsOf (es : List Element) : List Relation := es.filterMap fun | .relation r => some r | _ => none

/-- The entries after which no entry with the same id follows: the last version of each object. -/
def lastVersions {α : Type} (id : α → Int64) : List α → List α
  | [] => []
  | a :: as => if as.any (fun b => id b = id a) then lastVersions id as else a :: lastVersions id as

/-- Text of a table: columns separated by a tab, rows ended by a newline. -/
def tableText (rows : List (List Text)) : Text := rows.flatMap fun cols => List.intercalate ['\t'] cols ++ ['\n']

/-- The line `\.` that ends a table. -/
def endMarker : Text := ['\\', '.', '\n']

/-- A decimal number. -/
def num (n : Int) : Text := showInt n

/-- A boolean column. -/
def flag (b : Bool) : Text := if b then ['t'] else ['f']

/-- A timestamp column (`YYYY-MM-DD HH:MM:SS`) of a time in milliseconds. -/
def time (t : Int64) : Text := showSeconds (t.toInt / 1000)

/-- A timestamp column (`YYYY-MM-DD HH:MM:SS.ffffff`) of a time in microseconds. -/
def clock (t : Int64) : Text := showSeconds (t.toInt / 1000000) ++ '.' :: padNat 6 (t.toInt % 1000000).toNat

/-- SQL null. -/
def null : Text := ['\\', 'N']

/-- Text of a member's type. -/
def memberType : Member → Text
  | .node _ => ['N', 'o', 'd', 'e']
  | .way _ => ['W', 'a', 'y']
  | .relation _ => ['R', 'e', 'l', 'a', 't', 'i', 'o', 'n']

/-- A member's id. -/
def memberId : Member → Int64
  | .node m => m.id
  | .way m => m.id
  | .relation m => m.id

/-- A member's role. -/
def memberRole : Member → String
  | .node m => m.role
  | .way m => m.role
  | .relation m => m.role

/-! ### History tables -/

/-- `nodes (node_id, latitude, longitude, changeset_id, visible, "timestamp", tile, version, redaction_id)` -/
def nodeRow (n : Node) : List Text :=
  [num n.id.toInt, num n.coordinate.lat7.toInt, num n.coordinate.lon7.toInt, num n.changeset.toInt,
   flag n.visible, time n.timestamp, num (calculateTile n.coordinate.lat n.coordinate.lon), num n.version.toInt, null]

/-- `node_tags (node_id, version, k, v)` -/
def nodeTagRows (z : Codec) (n : Node) : List (List Text) :=
  n.tags.map fun t => [num n.id.toInt, num n.version.toInt, z.escape t.k, z.escape t.v]

/-- `ways (way_id, changeset_id, "timestamp", version, visible, redaction_id)` -/
def wayRow (y : Way) : List Text :=
  [num y.id.toInt, num y.changeset.toInt, time y.timestamp, num y.version.toInt, flag y.visible, null]

/-- `way_nodes (way_id, node_id, version, sequence_id)`; sequence ids count from 1. -/
def wayNodeRows (y : Way) : List (List Text) :=
  (y.refs.zipIdx 1).map fun (ref, seq) => [num y.id.toInt, num ref.toInt, num y.version.toInt, num seq]

/-- `way_tags (way_id, k, v, version)` -/
def wayTagRows (z : Codec) (y : Way) : List (List Text) :=
  y.tags.map fun t => [num y.id.toInt, z.escape t.k, z.escape t.v, num y.version.toInt]

/-- `relations (relation_id, changeset_id, "timestamp", version, visible, redaction_id)` -/
def relationRow (r : Relation) : List Text :=
  [num r.id.toInt, num r.changeset.toInt, time r.timestamp, num r.version.toInt, flag r.visible, null]

/-- `relation_members (relation_id, member_type, member_id, member_role, version, sequence_id)` -/
def relationMemberRows (z : Codec) (r : Relation) : List (List Text) :=
  (r.members.zipIdx 1).map fun (m, seq) =>
    [num r.id.toInt, memberType m, num (memberId m).toInt, z.escape (memberRole m), num r.version.toInt, num seq]

/-- `relation_tags (relation_id, k, v, version)` -/
def relationTagRows (z : Codec) (r : Relation) : List (List Text) :=
  r.tags.map fun t => [num r.id.toInt, z.escape t.k, z.escape t.v, num r.version.toInt]

/-! ### Current tables -/

/-- `current_nodes (id, latitude, longitude, changeset_id, visible, "timestamp", tile, version)` -/
def currentNodeRow (n : Node) : List Text :=
  [num n.id.toInt, num n.coordinate.lat7.toInt, num n.coordinate.lon7.toInt, num n.changeset.toInt,
   flag n.visible, time n.timestamp, num (calculateTile n.coordinate.lat n.coordinate.lon), num n.version.toInt]

/-- `current_node_tags (node_id, k, v)` and the like. -/
def currentTagRows (z : Codec) (id : Int64) (tags : List Tag) : List (List Text) :=
  tags.map fun t => [num id.toInt, z.escape t.k, z.escape t.v]

/-- `current_ways (id, changeset_id, "timestamp", visible, version)` -/
def currentWayRow (y : Way) : List Text :=
  [num y.id.toInt, num y.changeset.toInt, time y.timestamp, flag y.visible, num y.version.toInt]

/-- `current_way_nodes (way_id, node_id, sequence_id)` -/
def currentWayNodeRows (y : Way) : List (List Text) :=
  (y.refs.zipIdx 1).map fun (ref, seq) => [num y.id.toInt, num ref.toInt, num seq]

/-- `current_relations (id, changeset_id, "timestamp", visible, version)` -/
def currentRelationRow (r : Relation) : List Text :=
  [num r.id.toInt, num r.changeset.toInt, time r.timestamp, flag r.visible, num r.version.toInt]

/-- `current_relation_members (relation_id, member_type, member_id, member_role, sequence_id)` -/
def currentRelationMemberRows (z : Codec) (r : Relation) : List (List Text) :=
  (r.members.zipIdx 1).map fun (m, seq) =>
    [num r.id.toInt, memberType m, num (memberId m).toInt, z.escape (memberRole m), num seq]

/-! ### Users and changesets -/

/-- User id (as `i64`) and name of each element, in order. -/
def userNames (es : List Element) : List (Int64 × String) :=
  es.filterMap fun
    | .node n => some (n.uid.toInt64, n.user)
    | .way y => some (y.uid.toInt64, y.user)
    | .relation r => some (r.uid.toInt64, r.user)
    | .sentinel => none

/-- Changeset id and user id of each element, in order. -/
def changesetUsers (es : List Element) : List (Int64 × Int64) :=
  es.filterMap fun
    | .node n => some (n.changeset, n.uid.toInt64)
    | .way y => some (y.changeset, y.uid.toInt64)
    | .relation r => some (r.changeset, r.uid.toInt64)
    | .sentinel => none

/-- The value of the last entry with a key. -/
def lastValue {β : Type} (l : List (Int64 × β)) (k : Int64) : Option β :=
  (l.reverse.find? fun p => p.1 = k).map (·.2)

/-- `m` lists the keys of `l` in ascending order, each once, with its last value. -/
def LastValues {β : Type} (l m : List (Int64 × β)) : Prop :=
  m.Pairwise (fun a b => a.1 < b.1) ∧ ∀ k v, (k, v) ∈ m ↔ lastValue l k = some v

/-- `users (email, id, pass_crypt, creation_time, display_name, data_public, description, ..)`: the
columns that depend on the user and the time of writing. -/
def userRow (id : Int64) (name : String) (t : Text) : List Text :=
  ["osm-admin-user-".toList ++ num id.toInt ++ "@example.com".toList, num id.toInt,
   "00000000000000000000000000000000".toList, t, name.toList, flag true, name.toList, num 0, num 0, num 3,
   "00000000".toList, flag false, null, null, null, "pending".toList, null, flag false, null, null, flag false,
   "markdown".toList, num 0, num 0, num 0, flag false, null, null, null]

/-- `changesets (id, user_id, created_at, min_lat, max_lat, min_lon, max_lon, closed_at, num_changes)` -/
def changesetRow (id uid : Int64) (t : Text) : List Text :=
  [num id.toInt, num uid.toInt, t, num (-900000000), num 900000000, num (-1800000000), num 1800000000, t, num 0]

/-- `changeset_tags (changeset_id, k, v)` -/
def changesetTagRows (id : Int64) : List (List Text) :=
  [[num id.toInt, "created_by".toList, "osm-io 0.2.2".toList], [num id.toInt, "replication".toList, "true".toList]]

/-- A dump is what a new writer leaves behind after writing the elements and closing. -/
def Dump (z : Codec) (userClock changesetClock : Int64 → Int64) (es : List Element) (files : Table → Text) : Prop :=
  ∃ w w', Apidb.Writer.new.writeAll z es = .ok w ∧ w.close userClock changesetClock = .ok w' ∧ files = w'.files

/-- The times `chrono` can represent: an element's timestamp (milliseconds). -/
def TimeOk : Element → Prop
  | .node n => inRange (n.timestamp.toInt / 1000) = true
  | .way y => inRange (y.timestamp.toInt / 1000) = true
  | .relation r => inRange (r.timestamp.toInt / 1000) = true
  | .sentinel => True

end OsmIo.Spec
