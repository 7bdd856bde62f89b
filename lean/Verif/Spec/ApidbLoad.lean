import Verif.Model.ApidbDirectory
import Verif.Spec.TocStatements
import Verif.Spec.Apidb
/-!
# Specification vocabulary for loading a dump into a database

What a program that restores a dump directory reads from it: for each `COPY` statement of the table of
contents the lines of the data file up to the line `\.`, each with one value for each column of the
statement. Values are left as they are in the file (escaped, `\N` for null).
-/
namespace OsmIo.Spec
open OsmIo.Text OsmIo.Sql OsmIo.Apidb

/-- The row of a line: values under the names of their columns. -/
def loadRow (columns : List Text) (line : Text) : Option (List (Text × Text)) :=
  if (split '\t' line).length = columns.length then some (columns.zip (split '\t' line)) else none

/-- The rows of the lines of a file; the last line, and no other, is `\.`. -/
def loadLines (columns : List Text) : List Text → Option (List (List (Text × Text)))
  | [] => none
  | line :: rest =>
    if line = ['\\', '.'] then if rest = [] then some [] else none
    else match loadRow columns line, loadLines columns rest with
      | some r, some rs => some (r :: rs)
      | _, _ => none

/-- The table of contents has this `COPY` statement, with the number of its data file. -/
def ListsStatement (toc : Bytes) (s : Statement) : Prop :=
  ∃ es tail, toc = tocBytes es tail ∧ (∀ e ∈ es, e.Clear) ∧ ¬ ascii "COPY " <:+: tail ∧
    ∃ e ∈ es, e.definition = Wire.strBytes (String.ofList s.text) ∧ e.digits ++ ascii ".dat" = Wire.strBytes s.file

/-- Restoring table `name` from the directory gives these rows: its table of contents has a statement for the table, and the lines of the
data file named there are these rows, by the columns of the statement. -/
def Restores (d : Directory) (name : String) (rows : List (List (Text × Text))) : Prop :=
  ∃ toc s, d "toc.dat".toList = some toc ∧ ListsStatement toc s ∧ s.name = name.toList ∧
    ∃ text, d s.file.toList = some (Wire.strBytes (String.ofList text)) ∧ loadLines s.columns (lines text) = some rows

/-- A row from names and values. -/
def named (l : List (String × Text)) : List (Text × Text) := l.map fun p => (p.1.toList, p.2)

/-- A row of `nodes`. -/
def nodeFields (n : Node) : List (Text × Text) := named [("node_id", num n.id.toInt), ("latitude", num n.coordinate.lat7.toInt),
  ("longitude", num n.coordinate.lon7.toInt), ("changeset_id", num n.changeset.toInt), ("visible", flag n.visible),
  ("\"timestamp\"", time n.timestamp), ("tile", num (calculateTile n.coordinate.lat n.coordinate.lon)),
  ("version", num n.version.toInt), ("redaction_id", null)]

/-- The rows of `node_tags` of a node. -/
def nodeTagFields (z : Codec) (n : Node) : List (List (Text × Text)) := n.tags.map fun t =>
  named [("node_id", num n.id.toInt), ("version", num n.version.toInt), ("k", z.escape t.k), ("v", z.escape t.v)]

/-- A row of `ways`. -/
def wayFields (y : Way) : List (Text × Text) := named [("way_id", num y.id.toInt), ("changeset_id", num y.changeset.toInt),
  ("\"timestamp\"", time y.timestamp), ("version", num y.version.toInt), ("visible", flag y.visible), ("redaction_id", null)]

/-- The rows of `way_nodes` of a way. -/
def wayNodeFields (y : Way) : List (List (Text × Text)) := (y.refs.zipIdx 1).map fun (ref, seq) =>
  named [("way_id", num y.id.toInt), ("node_id", num ref.toInt), ("version", num y.version.toInt), ("sequence_id", num seq)]

/-- The rows of `way_tags` of a way. -/
def wayTagFields (z : Codec) (y : Way) : List (List (Text × Text)) := y.tags.map fun t =>
  named [("way_id", num y.id.toInt), ("k", z.escape t.k), ("v", z.escape t.v), ("version", num y.version.toInt)]

/-- A row of `relations`. -/
def relationFields (r : Relation) : List (Text × Text) := named [("relation_id", num r.id.toInt),
  ("changeset_id", num r.changeset.toInt), ("\"timestamp\"", time r.timestamp), ("version", num r.version.toInt),
  ("visible", flag r.visible), ("redaction_id", null)]

/-- The rows of `relation_members` of a relation. -/
def relationMemberFields (z : Codec) (r : Relation) : List (List (Text × Text)) := (r.members.zipIdx 1).map fun (m, seq) =>
  named [("relation_id", num r.id.toInt), ("member_type", memberType m), ("member_id", num (memberId m).toInt),
    ("member_role", z.escape (memberRole m)), ("version", num r.version.toInt), ("sequence_id", num seq)]

/-- The rows of `relation_tags` of a relation. -/
def relationTagFields (z : Codec) (r : Relation) : List (List (Text × Text)) := r.tags.map fun t =>
  named [("relation_id", num r.id.toInt), ("k", z.escape t.k), ("v", z.escape t.v), ("version", num r.version.toInt)]

/-- A row of `current_nodes`. -/
def currentNodeFields (n : Node) : List (Text × Text) := named [("id", num n.id.toInt),
  ("latitude", num n.coordinate.lat7.toInt), ("longitude", num n.coordinate.lon7.toInt),
  ("changeset_id", num n.changeset.toInt), ("visible", flag n.visible), ("\"timestamp\"", time n.timestamp),
  ("tile", num (calculateTile n.coordinate.lat n.coordinate.lon)), ("version", num n.version.toInt)]

/-- The rows of `current_node_tags` and the like. -/
def currentTagFields (z : Codec) (column : String) (id : Int64) (tags : List Tag) : List (List (Text × Text)) :=
  tags.map fun t => named [(column, num id.toInt), ("k", z.escape t.k), ("v", z.escape t.v)]

/-- A row of `current_ways`. -/
def currentWayFields (y : Way) : List (Text × Text) := named [("id", num y.id.toInt), ("changeset_id", num y.changeset.toInt),
  ("\"timestamp\"", time y.timestamp), ("visible", flag y.visible), ("version", num y.version.toInt)]

/-- The rows of `current_way_nodes` of a way. -/
def currentWayNodeFields (y : Way) : List (List (Text × Text)) := (y.refs.zipIdx 1).map fun (ref, seq) =>
  named [("way_id", num y.id.toInt), ("node_id", num ref.toInt), ("sequence_id", num seq)]

/-- A row of `current_relations`. -/
def currentRelationFields (r : Relation) : List (Text × Text) := named [("id", num r.id.toInt),
  ("changeset_id", num r.changeset.toInt), ("\"timestamp\"", time r.timestamp), ("visible", flag r.visible),
  ("version", num r.version.toInt)]

/-- The rows of `current_relation_members` of a relation. -/
def currentRelationMemberFields (z : Codec) (r : Relation) : List (List (Text × Text)) := (r.members.zipIdx 1).map fun (m, seq) =>
  named [("relation_id", num r.id.toInt), ("member_type", memberType m), ("member_id", num (memberId m).toInt),
    ("member_role", z.escape (memberRole m)), ("sequence_id", num seq)]

/-- A row of `users`. -/
def userFields (id : Int64) (name : String) (t : Text) : List (Text × Text) := named [
  ("email", "osm-admin-user-".toList ++ num id.toInt ++ "@example.com".toList), ("id", num id.toInt),
  ("pass_crypt", "00000000000000000000000000000000".toList), ("creation_time", t), ("display_name", name.toList),
  ("data_public", flag true), ("description", name.toList), ("home_lat", num 0), ("home_lon", num 0), ("home_zoom", num 3),
  ("pass_salt", "00000000".toList), ("email_valid", flag false), ("new_email", null), ("creation_ip", null),
  ("languages", null), ("status", "pending".toList), ("terms_agreed", null), ("consider_pd", flag false), ("auth_uid", null),
  ("preferred_editor", null), ("terms_seen", flag false), ("description_format", "markdown".toList),
  ("changesets_count", num 0), ("traces_count", num 0), ("diary_entries_count", num 0), ("image_use_gravatar", flag false),
  ("auth_provider", null), ("home_tile", null), ("tou_agreed", null)]

/-- A row of `changesets`. -/
def changesetFields (id uid : Int64) (t : Text) : List (Text × Text) := named [("id", num id.toInt), ("user_id", num uid.toInt),
  ("created_at", t), ("min_lat", num (-900000000)), ("max_lat", num 900000000), ("min_lon", num (-1800000000)),
  ("max_lon", num 1800000000), ("closed_at", t), ("num_changes", num 0)]

/-- The rows of `changeset_tags` of a changeset. -/
def changesetTagFields (id : Int64) : List (List (Text × Text)) :=
  [named [("changeset_id", num id.toInt), ("k", "created_by".toList), ("v", "osm-io 0.2.2".toList)],
   named [("changeset_id", num id.toInt), ("k", "replication".toList), ("v", "true".toList)]]

end OsmIo.Spec
