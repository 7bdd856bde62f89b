import Verif.Spec.ApidbRow
/-!
# Specification vocabulary: rows a dump must not have
-/
namespace OsmIo.Spec
open OsmIo.Text OsmIo.Sql OsmIo.Apidb

/-- Some 64 bit integer. -/
def AnyInt64 (x : Text) : Prop := ∃ v : Int64, IntText x v.toInt
/-- Some 16 bit integer. -/
def AnyInt16 (x : Text) : Prop := ∃ n : Int, -32768 ≤ n ∧ n ≤ 32767 ∧ IntText x n
/-- Some kind of member. -/
def AnyKind (x : Text) : Prop := ∃ k, KindText x k
/-- Any text at all. -/
def AnyText (_ : Text) : Prop := True
/-- One of these words. -/
def OneOf (words : List String) (x : Text) : Prop := ∃ s ∈ words, x = s.toList

/-- What a row of each table must have in the column of each name. Nothing is asked of the form of a time. -/
def demands : Table → List (String × (Text → Prop))
  | .nodes => [("node_id", AnyInt64), ("latitude", AnyInt32), ("longitude", AnyInt32), ("changeset_id", AnyInt64),
      ("visible", AnyBool), ("\"timestamp\"", AnyText), ("tile", AnyInt64), ("version", AnyInt64), ("redaction_id", AnyText)]
  | .ways => [("way_id", AnyInt64), ("changeset_id", AnyInt64), ("\"timestamp\"", AnyText), ("version", AnyInt64),
      ("visible", AnyBool), ("redaction_id", AnyText)]
  | .relations => [("relation_id", AnyInt64), ("changeset_id", AnyInt64), ("\"timestamp\"", AnyText), ("version", AnyInt64),
      ("visible", AnyBool), ("redaction_id", AnyText)]
  | .nodeTags => [("node_id", AnyInt64), ("version", AnyInt64), ("k", AnyText), ("v", AnyText)]
  | .wayTags => [("way_id", AnyInt64), ("version", AnyInt64), ("k", AnyText), ("v", AnyText)]
  | .relationTags => [("relation_id", AnyInt64), ("version", AnyInt64), ("k", AnyText), ("v", AnyText)]
  | .wayNodes => [("way_id", AnyInt64), ("node_id", AnyInt64), ("version", AnyInt64), ("sequence_id", AnyInt64)]
  | .relationMembers => [("relation_id", AnyInt64), ("member_type", AnyKind), ("member_id", AnyInt64), ("member_role", AnyText),
      ("version", AnyInt64), ("sequence_id", AnyInt64)]
  | .changesets => [("id", AnyInt64), ("user_id", AnyInt64), ("created_at", AnyText), ("min_lat", AnyInt32), ("max_lat", AnyInt32),
      ("min_lon", AnyInt32), ("max_lon", AnyInt32), ("closed_at", AnyText), ("num_changes", AnyInt32)]
  | .users => [("id", AnyInt64), ("creation_time", AnyText), ("display_name", AnyText), ("data_public", AnyBool), ("email_valid", AnyBool),
      ("consider_pd", AnyBool), ("terms_seen", AnyBool), ("image_use_gravatar", AnyBool), ("home_zoom", AnyInt16),
      ("status", OneOf ["pending", "active", "confirmed", "suspended", "deleted"]),
      ("description_format", OneOf ["html", "markdown", "text"]), ("changesets_count", AnyInt32), ("traces_count", AnyInt32),
      ("diary_entries_count", AnyInt32), ("email", AnyText), ("pass_crypt", AnyText), ("description", AnyText), ("home_lat", AnyText),
      ("home_lon", AnyText), ("pass_salt", AnyText), ("new_email", AnyText), ("creation_ip", AnyText), ("languages", AnyText),
      ("terms_agreed", AnyText), ("auth_uid", AnyText), ("preferred_editor", AnyText), ("auth_provider", AnyText), ("home_tile", AnyText),
      ("tou_agreed", AnyText)]
  | _ => []

/-- A line that fails one of the demands: the value is missing or of another form. -/
def BadRow (t : Table) (columns : List Text) (line : Text) : Prop := ∃ p ∈ demands t, ¬ Has columns line p.1 p.2

/-- The lines of a table file, none of which looks like an end of table, include this one. -/
def Listed (text line : Text) : Prop := line ∈ lines text ∧ ∀ l ∈ lines text, l ≠ [] ∧ ¬ (['\\', '.'] <+: l)

end OsmIo.Spec
