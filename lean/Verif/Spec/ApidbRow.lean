import Verif.Spec.ApidbRead
import Verif.Spec.Calendar
/-!
# Specification vocabulary: the rows of a dump by the names of their columns

Independent of the reader: what a line of a table stands for, given the columns of the table in any order.
-/
namespace OsmIo.Spec
open OsmIo.Text OsmIo.Sql OsmIo.Apidb

/-- A decimal integer with an optional sign. -/
def IntText (x : Text) (n : Int) : Prop :=
  ∃ ds : List Nat, ds ≠ [] ∧ (∀ d ∈ ds, d < 10) ∧
    ((x = ds.map digit ∧ n = decimal ds) ∨ (x = '+' :: ds.map digit ∧ n = decimal ds) ∨
     (x = '-' :: ds.map digit ∧ n = -decimal ds))

/-- A boolean. -/
def BoolText (x : Text) (b : Bool) : Prop := (x = ['t'] ∧ b = true) ∨ (x = ['f'] ∧ b = false)

/-- A string: escaped, or as it is if its escapes are malformed. -/
def StringText (z : Codec) (x : Text) (s : String) : Prop :=
  z.unescape x = some s ∨ (z.unescape x = none ∧ s = String.ofList x)

/-- An integer that may be missing (anything that is not such an integer counts as missing). -/
def OptionalText (x : Text) (n : Option Int32) : Prop :=
  (∃ v, n = some v ∧ IntText x v.toInt) ∨ (n = none ∧ ¬ ∃ v : Int32, IntText x v.toInt)

/-- The kind of a member. -/
def KindText (x : Text) : MemberType → Prop
  | .node => x = "n".toList ∨ x = "Node".toList
  | .way => x = "w".toList ∨ x = "Way".toList
  | .relation => x = "r".toList ∨ x = "Relation".toList

/-- The value `x` is in the column `name` of the line. -/
def Cell (columns : List Text) (line : Text) (name : String) (x : Text) : Prop :=
  (name.toList, x) ∈ columns.zip (split '\t' line)

/-- The column `name` of the line has a value with this property. -/
def Has (columns : List Text) (line : Text) (name : String) (p : Text → Prop) : Prop :=
  ∃ x, Cell columns line name x ∧ p x

/-- A line of `nodes`. -/
structure NodeRow (columns : List Text) (line : Text) (r : NodeRecord) : Prop where
  id : Has columns line "node_id" (IntText · r.nodeId.toInt)
  latitude : Has columns line "latitude" (IntText · r.latitude.toInt)
  longitude : Has columns line "longitude" (IntText · r.longitude.toInt)
  changeset : Has columns line "changeset_id" (IntText · r.changesetId.toInt)
  visible : Has columns line "visible" (BoolText · r.visible)
  timestamp : Has columns line "\"timestamp\"" (TimeText · r.timestamp)
  tile : Has columns line "tile" (IntText · r.tile.toInt)
  version : Has columns line "version" (IntText · r.version.toInt)
  redaction : Has columns line "redaction_id" (OptionalText · r.redactionId)

/-- A line of `ways` or `relations`. -/
structure ObjectRow (idColumn : String) (columns : List Text) (line : Text) (r : ObjectRecord) : Prop where
  id : Has columns line idColumn (IntText · r.id.toInt)
  changeset : Has columns line "changeset_id" (IntText · r.changesetId.toInt)
  timestamp : Has columns line "\"timestamp\"" (TimeText · r.timestamp)
  version : Has columns line "version" (IntText · r.version.toInt)
  visible : Has columns line "visible" (BoolText · r.visible)
  redaction : Has columns line "redaction_id" (OptionalText · r.redactionId)

/-- A line of `node_tags`, `way_tags` or `relation_tags`. -/
structure TagRow (z : Codec) (idColumn : String) (columns : List Text) (line : Text) (r : TagRecord) : Prop where
  id : Has columns line idColumn (IntText · r.id.toInt)
  version : Has columns line "version" (IntText · r.version.toInt)
  k : Has columns line "k" (StringText z · r.k)
  v : Has columns line "v" (StringText z · r.v)

/-- A line of `way_nodes`. -/
structure WayNodeRow (columns : List Text) (line : Text) (r : WayNodeRecord) : Prop where
  way : Has columns line "way_id" (IntText · r.wayId.toInt)
  node : Has columns line "node_id" (IntText · r.nodeId.toInt)
  version : Has columns line "version" (IntText · r.version.toInt)
  sequence : Has columns line "sequence_id" (IntText · r.sequenceId.toInt)

/-- A line of `relation_members`. -/
structure MemberRow (z : Codec) (columns : List Text) (line : Text) (r : MemberRecord) : Prop where
  relation : Has columns line "relation_id" (IntText · r.relationId.toInt)
  kind : Has columns line "member_type" (KindText · r.memberType)
  member : Has columns line "member_id" (IntText · r.memberId.toInt)
  role : Has columns line "member_role" (StringText z · r.memberRole)
  version : Has columns line "version" (IntText · r.version.toInt)
  sequence : Has columns line "sequence_id" (IntText · r.sequenceId.toInt)

/-- Some 32 bit integer. -/
def AnyInt32 (x : Text) : Prop := ∃ v : Int32, IntText x v.toInt
/-- Some boolean. -/
def AnyBool (x : Text) : Prop := ∃ b, BoolText x b
/-- Some time. -/
def AnyTime (x : Text) : Prop := ∃ ns, TimeText x ns

/-- A line of `changesets`: the changeset and its user. -/
structure ChangesetRow (columns : List Text) (line : Text) (r : Int64 × Int64) : Prop where
  id : Has columns line "id" (IntText · r.1.toInt)
  user : Has columns line "user_id" (IntText · r.2.toInt)
  times : ∀ name ∈ ["created_at", "closed_at"], Has columns line name AnyTime
  numbers : ∀ name ∈ ["min_lat", "max_lat", "min_lon", "max_lon", "num_changes"], Has columns line name AnyInt32

/-- A line of `users`: the user and the display name, which is taken as it is. -/
structure UserRow (columns : List Text) (line : Text) (r : Int64 × String) : Prop where
  id : Has columns line "id" (IntText · r.1.toInt)
  name : Cell columns line "display_name" r.2.toList
  creation : Has columns line "creation_time" AnyTime
  flags : ∀ name ∈ ["data_public", "email_valid", "consider_pd", "terms_seen", "image_use_gravatar"],
    Has columns line name AnyBool
  zoom : Has columns line "home_zoom" fun x => ∃ n : Int, -32768 ≤ n ∧ n ≤ 32767 ∧ IntText x n
  status : Has columns line "status" fun x =>
    ∃ s ∈ ["pending", "active", "confirmed", "suspended", "deleted"], x = s.toList
  format : Has columns line "description_format" fun x => ∃ s ∈ ["html", "markdown", "text"], x = s.toList
  numbers : ∀ name ∈ ["changesets_count", "traces_count", "diary_entries_count"], Has columns line name AnyInt32
  others : ∀ name ∈ ["email", "pass_crypt", "description", "home_lat", "home_lon", "pass_salt", "new_email", "creation_ip",
    "languages", "terms_agreed", "auth_uid", "preferred_editor", "auth_provider", "home_tile", "tou_agreed"],
    ∃ x, Cell columns line name x

/-- The lines of a table file, none of which looks like an end of table, stand for the records. -/
def Lists {α : Type} (row : Text → α → Prop) (text : Text) (rs : List α) : Prop :=
  List.Forall₂ (fun l r => ¬ (['\\', '.'] <+: l) ∧ row l r) (lines text) rs

/-- The sorted tables, with these columns, hold these records. -/
structure Content.Shown (c : Content) (z : Codec) (columns : Table → List Text) (sorted : Table → Text) : Prop where
  users : Lists (UserRow (columns .users)) (sorted .users) c.users
  changesets : Lists (ChangesetRow (columns .changesets)) (sorted .changesets) c.changesets
  nodes : Lists (NodeRow (columns .nodes)) (sorted .nodes) c.nodes
  nodeTags : Lists (TagRow z "node_id" (columns .nodeTags)) (sorted .nodeTags) c.nodeTags
  ways : Lists (ObjectRow "way_id" (columns .ways)) (sorted .ways) c.ways
  wayNodes : Lists (WayNodeRow (columns .wayNodes)) (sorted .wayNodes) c.wayNodes
  wayTags : Lists (TagRow z "way_id" (columns .wayTags)) (sorted .wayTags) c.wayTags
  relations : Lists (ObjectRow "relation_id" (columns .relations)) (sorted .relations) c.relations
  relationMembers : Lists (MemberRow z (columns .relationMembers)) (sorted .relationMembers) c.relationMembers
  relationTags : Lists (TagRow z "relation_id" (columns .relationTags)) (sorted .relationTags) c.relationTags

end OsmIo.Spec
