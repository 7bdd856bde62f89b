import Verif.Model.ApidbReader
/-!
# The table of contents the writer puts into a dump (`src/osm/apidb_dump/write/toc.rs`)

`toc.dat` is embedded in the crate and copied into each dump (`write_toc`,
`src/osm/apidb_dump/write/toc.rs:9-13`). This file gives the parts of it that matter to the reader: the
columns in the `COPY` statements of the ten tables it reads, and the names of their data files.
-/
namespace OsmIo.Apidb
open OsmIo.Text

/-- The tables the reader reads. (`src/osm/apidb_dump/read/table_fields.rs:120-133`) -/
def ofInterest : List Table :=
  [.nodes, .nodeTags, .ways, .wayNodes, .wayTags, .relations, .relationMembers, .relationTags, .changesets, .users]

/-- The columns of a table, `COPY public.<table> (..) FROM stdin` in `src/osm/apidb_dump/write/toc/toc.dat`
(byte offsets 59360, 65297, 65497, 68210, 68473, 68685, 70336, 70886, 71104, 71301).
(embedded by `src/osm/apidb_dump/write/toc.rs:6-7`) -/
def tocColumns : Table → List Text
  | .nodes => ["node_id".toList, "latitude".toList, "longitude".toList, "changeset_id".toList,
      "visible".toList, "\"timestamp\"".toList, "tile".toList, "version".toList, "redaction_id".toList]
  | .nodeTags => ["node_id".toList, "version".toList, "k".toList, "v".toList]
  | .ways => ["way_id".toList, "changeset_id".toList, "\"timestamp\"".toList, "version".toList,
      "visible".toList, "redaction_id".toList]
  | .wayNodes => ["way_id".toList, "node_id".toList, "version".toList, "sequence_id".toList]
  | .wayTags => ["way_id".toList, "k".toList, "v".toList, "version".toList]
  | .relations => ["relation_id".toList, "changeset_id".toList, "\"timestamp\"".toList, "version".toList,
      "visible".toList, "redaction_id".toList]
  | .relationMembers => ["relation_id".toList, "member_type".toList, "member_id".toList,
      "member_role".toList, "version".toList, "sequence_id".toList]
  | .relationTags => ["relation_id".toList, "k".toList, "v".toList, "version".toList]
  | .changesets => ["id".toList, "user_id".toList, "created_at".toList, "min_lat".toList, "max_lat".toList,
      "min_lon".toList, "max_lon".toList, "closed_at".toList, "num_changes".toList]
  | .users => ["email".toList, "id".toList, "pass_crypt".toList, "creation_time".toList,
      "display_name".toList, "data_public".toList, "description".toList, "home_lat".toList,
      "home_lon".toList, "home_zoom".toList, "pass_salt".toList, "email_valid".toList,
      "new_email".toList, "creation_ip".toList, "languages".toList, "status".toList,
      "terms_agreed".toList, "consider_pd".toList, "auth_uid".toList, "preferred_editor".toList,
      "terms_seen".toList, "description_format".toList, "changesets_count".toList,
      "traces_count".toList, "diary_entries_count".toList, "image_use_gravatar".toList,
      "auth_provider".toList, "home_tile".toList, "tou_agreed".toList]
  | _ => []

/-- The data file of a table, `src/osm/apidb_dump/write/toc/mapping.json:9,32,33,42-44,51-54` (the ten
tables of the reader). (embedded by `src/osm/apidb_dump/write/toc.rs:6-7`) -/
def tocFile : Table → Text
  | .nodes => "4260.dat".toList
  | .nodeTags => "4259.dat".toList
  | .ways => "4294.dat".toList
  | .wayNodes => "4292.dat".toList
  | .wayTags => "4293.dat".toList
  | .relations => "4279.dat".toList
  | .relationMembers => "4277.dat".toList
  | .relationTags => "4278.dat".toList
  | .changesets => "4222.dat".toList
  | .users => "4290.dat".toList
  | _ => []

/-- The tables a reader finds in a dump of the writer. (`src/osm/apidb_dump/read/reader.rs:31-60`) -/
def dumpTables : Tables := fun t =>
  if t ∈ ofInterest then
    match TableDef.new t (tocColumns t) with
    | .ok d => some (d, tocFile t)
    | _ => none
  else none

end OsmIo.Apidb
