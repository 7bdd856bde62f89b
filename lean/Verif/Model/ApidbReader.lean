import Verif.Model.ApidbWriter
import Verif.Model.Wire
/-!
# Reading an apidb dump (`src/osm/apidb_dump/read/*.rs`)

I/O errors are not modelled; log output is dropped. A table data file is its text; the sorted copy
the `text-file-sort` crate makes of it is described by a relation (`Sorted` below), because that
crate is outside the repository.
-/
namespace OsmIo.Apidb
open OsmIo.Text OsmIo.Sql

/-! ### Table definitions -/

/-- The tables of interest by name, `src/osm/apidb_dump/read/table_fields.rs:120-133`. -/
def tableOf (name : Text) : Option Table :=
  if name = "public.nodes".toList then some .nodes
  else if name = "public.node_tags".toList then some .nodeTags
  else if name = "public.ways".toList then some .ways
  else if name = "public.way_nodes".toList then some .wayNodes
  else if name = "public.way_tags".toList then some .wayTags
  else if name = "public.relations".toList then some .relations
  else if name = "public.relation_members".toList then some .relationMembers
  else if name = "public.relation_tags".toList then some .relationTags
  else if name = "public.changesets".toList then some .changesets
  else if name = "public.users".toList then some .users
  else none

/-- The columns each table of interest must have, in the order of the fields of `TableFields`,
`src/osm/apidb_dump/read/table_fields.rs:135-282`. -/
def requiredColumns : Table → List Text
  | .nodes => ["node_id".toList, "latitude".toList, "longitude".toList, "changeset_id".toList,
      "visible".toList, "\"timestamp\"".toList, "tile".toList, "version".toList, "redaction_id".toList]
  | .nodeTags => ["node_id".toList, "version".toList, "k".toList, "v".toList]
  | .ways => ["way_id".toList, "changeset_id".toList, "\"timestamp\"".toList, "version".toList,
      "visible".toList, "redaction_id".toList]
  | .wayNodes => ["way_id".toList, "node_id".toList, "version".toList, "sequence_id".toList]
  | .wayTags => ["way_id".toList, "k".toList, "v".toList, "version".toList]
  | .relations => ["relation_id".toList, "changeset_id".toList, "\"timestamp\"".toList, "version".toList,
      "visible".toList, "redaction_id".toList]
  | .relationMembers => ["relation_id".toList, "member_type".toList, "member_id".toList,
      "member_role".toList, "version".toList, "sequence_id".toList]
  | .relationTags => ["relation_id".toList, "k".toList, "v".toList, "version".toList]
  | .changesets => ["id".toList, "user_id".toList, "created_at".toList, "min_lat".toList, "max_lat".toList,
      "min_lon".toList, "max_lon".toList, "closed_at".toList, "num_changes".toList]
  | .users => ["email".toList, "id".toList, "pass_crypt".toList, "creation_time".toList,
      "display_name".toList, "data_public".toList, "description".toList, "home_lat".toList,
      "home_lon".toList, "home_zoom".toList, "pass_salt".toList, "email_valid".toList,
      "new_email".toList, "creation_ip".toList, "languages".toList, "status".toList,
      "terms_agreed".toList, "consider_pd".toList, "auth_uid".toList, "preferred_editor".toList,
      "terms_seen".toList, "description_format".toList, "changesets_count".toList,
      "traces_count".toList, "diary_entries_count".toList, "image_use_gravatar".toList,
      "auth_provider".toList, "home_tile".toList, "tou_agreed".toList]
  | _ => []

/-- `FieldType` of the `text-file-sort` crate (the two used).
(used in `src/osm/apidb_dump/read/table_pkey.rs:12-89`) -/
inductive FieldType where
  | integer
  | string
  deriving DecidableEq, Repr

/-- The sort key of each table, `src/osm/apidb_dump/read/table_pkey.rs:12-89`. -/
def primaryKey : Table → List (Text × FieldType)
  | .nodes => [("node_id".toList, .integer), ("version".toList, .integer)]
  | .nodeTags => [("node_id".toList, .integer), ("version".toList, .integer), ("k".toList, .string)]
  | .ways => [("way_id".toList, .integer), ("version".toList, .integer)]
  | .wayNodes => [("way_id".toList, .integer), ("version".toList, .integer), ("sequence_id".toList, .integer)]
  | .wayTags => [("way_id".toList, .integer), ("version".toList, .integer), ("k".toList, .string)]
  | .relations => [("relation_id".toList, .integer), ("version".toList, .integer)]
  | .relationMembers => [("relation_id".toList, .integer), ("version".toList, .integer),
      ("member_type".toList, .string), ("member_id".toList, .integer), ("member_role".toList, .string),
      ("sequence_id".toList, .integer)]
  | .relationTags => [("relation_id".toList, .integer), ("version".toList, .integer), ("k".toList, .string)]
  | .changesets => [("id".toList, .integer)]
  | .users => [("id".toList, .integer)]
  | _ => []

/-- `TableFields::index`, `src/osm/apidb_dump/read/table_fields.rs:109-118`. -/
def fieldIndex (v : Text) (columns : List Text) : Option Nat := columns.findIdx? (fun c => c = v)

/-- `TablePkey::index` (column numbers from 1), `src/osm/apidb_dump/read/table_pkey.rs:91-100`. -/
def keyIndex (v : Text) (columns : List Text) : Option Nat := (fieldIndex v columns).map (· + 1)

/-- `TableDef`, `src/osm/apidb_dump/read/table_def.rs:6-14`: positions of the required columns, and
the sort key. Paths are dropped. -/
structure TableDef where
  fields : List Nat
  key : List (Nat × FieldType)
  deriving DecidableEq, Repr

/-- All of a list, or nothing. (collecting `Result`s with `?`, `src/osm/apidb_dump/read/table_fields.rs:109-118`) -/
def allSome {α β : Type} (f : α → Option β) : List α → Option (List β)
  | [] => some []
  | a :: as => match f a, allSome f as with
    | some b, some bs => some (b :: bs)
    | _, _ => none

/-- `TableDef::new`, `src/osm/apidb_dump/read/table_def.rs:22-32`. -/
def TableDef.new (t : Table) (columns : List Text) : Out TableDef := do
  let fields ← Out.orErr (allSome (fun v => fieldIndex v columns) (requiredColumns t))
  let key ← Out.orErr (allSome (fun p => (keyIndex p.1 columns).map (fun i => (i, p.2))) (primaryKey t))
  return ⟨fields, key⟩

/-! ### The table of contents -/

/-- Bytes of an ASCII text. (`src/osm/apidb_dump/read/reader.rs:88-134`) -/
def ascii (s : String) : Bytes := s.toList.map fun c => c.toNat.toUInt8

/-- The first position of `toc` at which `pat` occurs, searching as the loops of
`get_table_def_strings` do: the bytes before it and the bytes after it.
(`src/osm/apidb_dump/read/reader.rs:88-134`) -/
def findPat (pat : Bytes) : Bytes → Option (Bytes × Bytes)
  | [] => none
  | b :: bs =>
    if pat.isPrefixOf (b :: bs) then some ([], (b :: bs).drop pat.length)
    else match findPat pat bs with
      | some (before, after) => some (b :: before, after)
      | none => none

/-- `u8::is_ascii_digit`. (`src/osm/apidb_dump/read/reader.rs:88-134`) -/
def isDigit (b : UInt8) : Bool := 48 ≤ b && b ≤ 57

/-- `get_table_def_strings`, `src/osm/apidb_dump/read/reader.rs:88-134`: for each `COPY ` the bytes up
to ` FROM stdin`, and the digits before the next `.dat` with that suffix. The outer loop skips one
byte after a `.dat`. `fuel` bounds the number of definitions; it never runs out when it is the length
of the input. Simplification: the digits are looked for back to the ` FROM stdin`, not to the start of
the file (they cannot extend past it); the conversion to a string comes later. -/
def tableDefBytes : Nat → Bytes → List (Bytes × Bytes)
  | 0, _ => []
  | fuel + 1, toc =>
    match findPat (ascii "COPY ") toc with
    | none => []
    | some (_, rest) =>
      match findPat (ascii " FROM stdin") rest with
      | none => []
      | some (definition, rest) =>
        match findPat (ascii ".dat") rest with
        | none => []
        | some (mid, rest) =>
          (definition, (mid.reverse.takeWhile isDigit).reverse ++ ascii ".dat") ::
            tableDefBytes fuel (rest.drop 1)

/-- `str::split(", ")`. (used in `src/osm/apidb_dump/read/reader.rs:47`) -/
def splitComma : Text → List Text
  | [] => [[]]
  | ',' :: ' ' :: cs => [] :: splitComma cs
  | c :: cs => match splitComma cs with
    | [] => [[c]]
    | p :: ps => (c :: p) :: ps

/-- The captures of `^([^ ]+) \((.+)\)$`, `src/osm/apidb_dump/read/reader.rs:39,42-49` (`.` does not
match a newline). -/
def captures (s : Text) : Option (Text × Text) :=
  let name := s.takeWhile (· ≠ ' ')
  match s.dropWhile (· ≠ ' ') with
  | ' ' :: '(' :: body =>
    if name ≠ [] ∧ body.getLast? = some ')' ∧ body.dropLast ≠ [] ∧ '\n' ∉ body.dropLast then
      some (name, body.dropLast)
    else none
  | _ => none

/-- The tables of a `Reader`: definition and name of the data file. (`src/osm/apidb_dump/read/reader.rs:16`) -/
abbrev Tables := Table → Option (TableDef × Text)

/-- The strings `get_table_def_strings` answers (`String::from_utf8(..).unwrap()`),
`src/osm/apidb_dump/read/reader.rs:115-120`. -/
def tableDefStrings : List (Bytes × Bytes) → Out (List (Text × Text))
  | [] => .ok []
  | (definition, file) :: rest => do
    let definition ← Out.unwrap (Wire.strOf definition)
    let file ← Out.unwrap (Wire.strOf file)
    let rest ← tableDefStrings rest
    return (definition.toList, file.toList) :: rest

/-- The loop of `Reader::new`, `src/osm/apidb_dump/read/reader.rs:40-60`. -/
def addTables (tables : Tables) : List (Text × Text) → Out Tables
  | [] => .ok tables
  | (definition, file) :: rest => do
    let (name, body) ← Out.unwrap (captures definition)
    match tableOf name with
    | none => addTables tables rest
    | some t =>
      let d ← TableDef.new t (splitComma body)
      addTables (fun t' => if t' = t then some (d, file) else tables t') rest

/-- `Reader::new` up to the sorting of the tables, `src/osm/apidb_dump/read/reader.rs:31-60`. -/
def readTables (toc : Bytes) : Out Tables := do
  addTables (fun _ => none) (← tableDefStrings (tableDefBytes toc.length toc))

/-! ### Sorting -/

/-- Column number `i` (from 1) of a line.
(text-file-sort crate, outside the repository, as called in `src/osm/apidb_dump/read/reader.rs:71-86`) -/
def column (line : Text) (i : Nat) : Text := ((split '\t' line)[i - 1]?).getD []

/-- Order of two lines by a list of key columns: integers by value, strings by the order `le` of the
sort crate (unspecified).
(text-file-sort crate, outside the repository, as called in `src/osm/apidb_dump/read/reader.rs:71-86`) -/
def lineLe (le : Text → Text → Prop) : List (Nat × FieldType) → Text → Text → Prop
  | [], _, _ => True
  | (i, .integer) :: key, a, b =>
    (∃ m n, parseInt (column a i) = some m ∧ parseInt (column b i) = some n ∧ m < n) ∨
    (parseInt (column a i) = parseInt (column b i) ∧ lineLe le key a b)
  | (i, .string) :: key, a, b =>
    (le (column a i) (column b i) ∧ ¬ le (column b i) (column a i)) ∨
    (le (column a i) (column b i) ∧ le (column b i) (column a i) ∧ lineLe le key a b)

/-- What `sort_tables` (`src/osm/apidb_dump/read/reader.rs:71-86`) is assumed to achieve for one table:
the sorted file has the lines of the data file that are neither empty nor `\.`, in the order of the
key. -/
structure Sorted (le : Text → Text → Prop) (key : List (Nat × FieldType)) (data sorted : Text) : Prop where
  perm : (lines sorted).Perm ((lines data).filter fun l => l ≠ [] ∧ l ≠ ['\\', '.'])
  order : (lines sorted).Pairwise (lineLe le key)

/-! ### Records -/

/-- `src/osm/apidb_dump/read/node_record.rs:3-14`; the timestamp in nanoseconds since the epoch. -/
structure NodeRecord where
  nodeId : Int64
  latitude : Int32
  longitude : Int32
  changesetId : Int64
  visible : Bool
  timestamp : Int
  tile : Int64
  version : Int64
  redactionId : Option Int32
  deriving DecidableEq, Repr

/-- `WayRecord` and `RelationRecord`, `src/osm/apidb_dump/read/way_record.rs:3-11`,
`relation_record.rs:3-11`. Simplification: one type for both. -/
structure ObjectRecord where
  id : Int64
  changesetId : Int64
  timestamp : Int
  version : Int64
  visible : Bool
  redactionId : Option Int32
  deriving DecidableEq, Repr

/-- `NodeTagRecord`, `WayTagRecord`, `RelationTagRecord`, `src/osm/apidb_dump/read/node_tag_record.rs:1-7`
and the like. Simplification: one type for the three. -/
structure TagRecord where
  id : Int64
  version : Int64
  k : String
  v : String
  deriving DecidableEq, Repr

/-- `src/osm/apidb_dump/read/way_node_record.rs:1-7`. -/
structure WayNodeRecord where
  wayId : Int64
  nodeId : Int64
  version : Int64
  sequenceId : Int64
  deriving DecidableEq, Repr

/-- `src/osm/apidb_dump/read/relation_member_record.rs:3-8`. -/
inductive MemberType where
  | node
  | way
  | relation
  deriving DecidableEq, Repr

/-- `src/osm/apidb_dump/read/relation_member_record.rs:40-48`. -/
structure MemberRecord where
  relationId : Int64
  memberType : MemberType
  memberId : Int64
  memberRole : String
  version : Int64
  sequenceId : Int64
  deriving DecidableEq, Repr

/-- `RelationMemberType::try_from`, `src/osm/apidb_dump/read/relation_member_record.rs:10-39`. -/
def parseMemberType (t : Text) : Option MemberType :=
  if t = "n".toList then some .node
  else if t = "Node".toList then some .node
  else if t = "w".toList then some .way
  else if t = "Way".toList then some .way
  else if t = "r".toList then some .relation
  else if t = "Relation".toList then some .relation
  else none

/-- The `assert!(*x < columns.len())` of all fields, then `columns[*x]` of each.
(`src/osm/apidb_dump/read/table_reader.rs:137-471`) -/
def columnsAt (columns : List Text) (fields : List Nat) : Out (List Text) :=
  Out.unwrap (allSome (fun i => columns[i]?) fields)

/-- `unescape(c).unwrap_or(c.to_string())`. (`src/osm/apidb_dump/read/table_reader.rs:185-186,264-265,321,347-348`) -/
def unescapeOr (z : Codec) (c : Text) : String := (z.unescape c).getD (String.ofList c)

/-- `TableReader::create_node`, `src/osm/apidb_dump/read/table_reader.rs:137-170`. -/
def createNode (fields : List Nat) (line : Text) : Out NodeRecord :=
  match columnsAt (split '\t' line) fields with
  | .ok [nodeId, latitude, longitude, changesetId, visible, timestamp, tile, version, redactionId] => do
    let nodeId ← Out.unwrap (parseI64 nodeId)
    let latitude ← Out.unwrap (parseI32 latitude)
    let longitude ← Out.unwrap (parseI32 longitude)
    let changesetId ← Out.unwrap (parseI64 changesetId)
    let visible ← Out.unwrap (parseSqlBool visible)
    let timestamp ← Out.unwrap (parseSqlTime timestamp)
    let tile ← Out.unwrap (parseI64 tile)
    let version ← Out.unwrap (parseI64 version)
    return ⟨nodeId, latitude, longitude, changesetId, visible, timestamp, tile, version, parseI32 redactionId⟩
  | _ => .panic

/-- `create_node_tag`, `src/osm/apidb_dump/read/table_reader.rs:172-195`. -/
def createNodeTag (z : Codec) (fields : List Nat) (line : Text) : Out TagRecord :=
  match columnsAt (split '\t' line) fields with
  | .ok [id, version, k, v] => do
    let id ← Out.unwrap (parseI64 id)
    let version ← Out.unwrap (parseI64 version)
    return ⟨id, version, unescapeOr z k, unescapeOr z v⟩
  | _ => .panic

/-- `create_way` and `create_relation`, `src/osm/apidb_dump/read/table_reader.rs:197-224,276-303`. -/
def createObject (fields : List Nat) (line : Text) : Out ObjectRecord :=
  match columnsAt (split '\t' line) fields with
  | .ok [id, changesetId, timestamp, version, visible, redactionId] => do
    let id ← Out.unwrap (parseI64 id)
    let changesetId ← Out.unwrap (parseI64 changesetId)
    let timestamp ← Out.unwrap (parseSqlTime timestamp)
    let version ← Out.unwrap (parseI64 version)
    let visible ← Out.unwrap (parseSqlBool visible)
    return ⟨id, changesetId, timestamp, version, visible, parseI32 redactionId⟩
  | _ => .panic

/-- `create_way_node`, `src/osm/apidb_dump/read/table_reader.rs:226-249`. -/
def createWayNode (fields : List Nat) (line : Text) : Out WayNodeRecord :=
  match columnsAt (split '\t' line) fields with
  | .ok [wayId, nodeId, version, sequenceId] => do
    let wayId ← Out.unwrap (parseI64 wayId)
    let nodeId ← Out.unwrap (parseI64 nodeId)
    let version ← Out.unwrap (parseI64 version)
    let sequenceId ← Out.unwrap (parseI64 sequenceId)
    return ⟨wayId, nodeId, version, sequenceId⟩
  | _ => .panic

/-- `create_way_tag` and `create_relation_tag`, `src/osm/apidb_dump/read/table_reader.rs:251-274,334-357`. -/
def createObjectTag (z : Codec) (fields : List Nat) (line : Text) : Out TagRecord :=
  match columnsAt (split '\t' line) fields with
  | .ok [id, k, v, version] => do
    let id ← Out.unwrap (parseI64 id)
    let version ← Out.unwrap (parseI64 version)
    return ⟨id, version, unescapeOr z k, unescapeOr z v⟩
  | _ => .panic

/-- `create_relation_member`, `src/osm/apidb_dump/read/table_reader.rs:305-332`. -/
def createMember (z : Codec) (fields : List Nat) (line : Text) : Out MemberRecord :=
  match columnsAt (split '\t' line) fields with
  | .ok [relationId, memberType, memberId, memberRole, version, sequenceId] => do
    let relationId ← Out.unwrap (parseI64 relationId)
    let memberType ← Out.unwrap (parseMemberType memberType)
    let memberId ← Out.unwrap (parseI64 memberId)
    let version ← Out.unwrap (parseI64 version)
    let sequenceId ← Out.unwrap (parseI64 sequenceId)
    return ⟨relationId, memberType, memberId, unescapeOr z memberRole, version, sequenceId⟩
  | _ => .panic

/-- `create_changeset`, `src/osm/apidb_dump/read/table_reader.rs:359-392`: the id and user id of a
`ChangesetRecord` (the only fields used); the other columns must parse. -/
def createChangeset (fields : List Nat) (line : Text) : Out (Int64 × Int64) :=
  match columnsAt (split '\t' line) fields with
  | .ok [id, userId, createdAt, minLat, maxLat, minLon, maxLon, closedAt, numChanges] => do
    let id ← Out.unwrap (parseI64 id)
    let userId ← Out.unwrap (parseI64 userId)
    let _ ← Out.unwrap (parseSqlTime createdAt)
    let _ ← Out.unwrap (parseI32 minLat)
    let _ ← Out.unwrap (parseI32 maxLat)
    let _ ← Out.unwrap (parseI32 minLon)
    let _ ← Out.unwrap (parseI32 maxLon)
    let _ ← Out.unwrap (parseSqlTime closedAt)
    let _ ← Out.unwrap (parseI32 numChanges)
    return (id, userId)
  | _ => .panic

/-- `UserStatus::try_from`, `src/osm/apidb_dump/read/user_record.rs:13-38`. -/
def userStatusOk (t : Text) : Option Unit :=
  if t ∈ ["pending".toList, "active".toList, "confirmed".toList, "suspended".toList, "deleted".toList] then some ()
  else none

/-- `FormatEnum::try_from`, `src/osm/apidb_dump/read/user_record.rs:47-66`. -/
def formatOk (t : Text) : Option Unit :=
  if t ∈ ["html".toList, "markdown".toList, "text".toList] then some () else none

/-- `create_user`, `src/osm/apidb_dump/read/table_reader.rs:394-471`: the id and display name of a
`UserRecord` (the only fields used); the columns that are unwrapped must parse. -/
def createUser (fields : List Nat) (line : Text) : Out (Int64 × String) :=
  match columnsAt (split '\t' line) fields with
  | .ok [_email, id, _passCrypt, creationTime, displayName, dataPublic, _description, _homeLat, _homeLon,
      homeZoom, _passSalt, emailValid, _newEmail, _creationIp, _languages, status, _termsAgreed,
      considerPd, _authUid, _preferredEditor, termsSeen, descriptionFormat, changesetsCount,
      tracesCount, diaryEntriesCount, imageUseGravatar, _authProvider, _homeTile, _touAgreed] => do
    let id ← Out.unwrap (parseI64 id)
    let _ ← Out.unwrap (parseSqlTime creationTime)
    let _ ← Out.unwrap (parseSqlBool dataPublic)
    let _ ← Out.unwrap (parseI16 homeZoom)
    let _ ← Out.unwrap (parseSqlBool emailValid)
    let _ ← Out.unwrap (userStatusOk status)
    let _ ← Out.unwrap (parseSqlBool considerPd)
    let _ ← Out.unwrap (parseSqlBool termsSeen)
    let _ ← Out.unwrap (formatOk descriptionFormat)
    let _ ← Out.unwrap (parseI32 changesetsCount)
    let _ ← Out.unwrap (parseI32 tracesCount)
    let _ ← Out.unwrap (parseI32 diaryEntriesCount)
    let _ ← Out.unwrap (parseSqlBool imageUseGravatar)
    return (id, String.ofList displayName)
  | _ => .panic

/-! ### Table iterators -/

/-- `line.starts_with("\\.") || line.is_empty() || line.starts_with('\n')`,
`src/osm/apidb_dump/read/table_reader.rs:513`, of a line without its newline. -/
def stopLine (line : Text) : Bool := ['\\', '.'].isPrefixOf line || line = []

/-- `TableIterator::next`, `src/osm/apidb_dump/read/table_reader.rs:502-526`; the state is the lines
not yet read. -/
def tableNext {α : Type} (build : Text → Out α) : List Text → Out (Option α × List Text)
  | [] => .ok (none, [])
  | l :: ls => if stopLine l then .ok (none, ls) else do return (some (← build l), ls)

/-- `for record in reader`, as in `index_users` and `index_changesets`.
(`src/osm/apidb_dump/read/element_iterator.rs:74-98`) -/
def tableAll {α : Type} (build : Text → Out α) : List Text → Out (List α)
  | [] => .ok []
  | l :: ls => if stopLine l then .ok [] else do
    let r ← build l
    let rs ← tableAll build ls
    return r :: rs

/-- The loop `for child in self.children_iterator.by_ref()` of the merge joins,
`src/osm/apidb_dump/read/node_relations_reader.rs:67-78,83-94`: the matching children, the child that
does not match, and the lines left. -/
def gather {β : Type} (build : Text → Out β) (mine : β → Bool) :
    List Text → Out (List β × Option β × List Text)
  | [] => .ok ([], none, [])
  | l :: ls =>
    if stopLine l then .ok ([], none, ls)
    else do
      let r ← build l
      if mine r then
        let (rs, next, rest) ← gather build mine ls
        return (r :: rs, next, rest)
      else
        return ([], some r, ls)

/-- The children of one object, given the pending child,
`src/osm/apidb_dump/read/node_relations_reader.rs:63-95` (and the four copies of it in
`way_relations_reader.rs:78-144` and `relation_relations_reader.rs:78-144`). -/
def attach {β : Type} (build : Text → Out β) (mine : β → Bool) (pending : Option β) (ls : List Text) :
    Out (List β × Option β × List Text) :=
  match pending with
  | some r =>
    if mine r then do
      let (rs, next, rest) ← gather build mine ls
      return (r :: rs, next, rest)
    else .ok ([], some r, ls)
  | none => gather build mine ls

/-- A child table being joined: the pending record and the lines not yet read.
(`src/osm/apidb_dump/read/node_relations_reader.rs:1-109`, `way_relations_reader.rs:1-160`) -/
structure Child (β : Type) where
  pending : Option β := none
  lines : List Text

/-- `NodeRelationsIterator::next`, `src/osm/apidb_dump/read/node_relations_reader.rs:56-109`. -/
def nodesNext (z : Codec) (fn ft : List Nat) (nodes : List Text) (tags : Child TagRecord) :
    Out (Option (NodeRecord × List TagRecord) × List Text × Child TagRecord) := do
  let (node, nodes) ← tableNext (createNode fn) nodes
  match node with
  | none => return (none, nodes, tags)
  | some n =>
    let (ts, pending, rest) ← attach (createNodeTag z ft)
      (fun t => t.id = n.nodeId && t.version = n.version) tags.pending tags.lines
    return (some (n, ts), nodes, ⟨pending, rest⟩)

/-- `WayRelationsIterator::next` and `RelationRelationsIterator::next`,
`src/osm/apidb_dump/read/way_relations_reader.rs:69-160`, `relation_relations_reader.rs:70-160`: the
record, its tags, and its nodes or members. -/
def objectsNext {β : Type} (z : Codec) (fo ft : List Nat) (buildPart : Text → Out β) (partKey : β → Int64 × Int64)
    (objects : List Text) (tags : Child TagRecord) (parts : Child β) :
    Out (Option (ObjectRecord × List TagRecord × List β) × List Text × Child TagRecord × Child β) := do
  let (object, objects) ← tableNext (createObject fo) objects
  match object with
  | none => return (none, objects, tags, parts)
  | some o =>
    let (ts, pendingTag, restTags) ← attach (createObjectTag z ft)
      (fun t => t.id = o.id && t.version = o.version) tags.pending tags.lines
    let (ps, pendingPart, restParts) ← attach buildPart
      (fun p => (partKey p).1 = o.id && (partKey p).2 = o.version) parts.pending parts.lines
    return (some (o, ts, ps), objects, ⟨pendingTag, restTags⟩, ⟨pendingPart, restParts⟩)

/-! ### Elements -/

/-- `IterationState`, `src/osm/apidb_dump/read/element_iterator.rs:21-27`. -/
inductive IterationState where
  | start
  | nodes
  | ways
  | relations
  | finished
  deriving DecidableEq, Repr

/-- Positions of the columns of the tables an `ElementIterator` reads.
(`src/osm/apidb_dump/read/table_fields.rs:1-107`) -/
structure Fields where
  nodes : List Nat
  nodeTags : List Nat
  ways : List Nat
  wayNodes : List Nat
  wayTags : List Nat
  relations : List Nat
  relationMembers : List Nat
  relationTags : List Nat

/-- `ElementIterator`, `src/osm/apidb_dump/read/element_iterator.rs:29-36`. -/
structure ElementIterator where
  fields : Fields
  userIndex : List (Int64 × String)
  changesetIndex : List (Int64 × Int64)
  state : IterationState
  nodes : List Text
  nodeTags : Child TagRecord
  ways : List Text
  wayTags : Child TagRecord
  wayNodes : Child WayNodeRecord
  relations : List Text
  relationTags : Child TagRecord
  relationMembers : Child MemberRecord

/-- `BtreeIndex::get`.
(transient-btree-index crate, as used in `src/osm/apidb_dump/read/element_iterator.rs:74-98`) -/
def lookup {β : Type} (k : Int64) (m : List (Int64 × β)) : Option β := (m.find? fun p => p.1 = k).map (·.2)

/-- Successive `insert`s.
(transient-btree-index crate, as used in `src/osm/apidb_dump/read/element_iterator.rs:74-98`) -/
def insertAll {β : Type} (rs : List (Int64 × β)) (m : List (Int64 × β)) : List (Int64 × β) :=
  rs.foldl (fun m p => insertKey p.1 p.2 m) m

/-- `ElementIterator::new` with `index_users` and `index_changesets`,
`src/osm/apidb_dump/read/element_iterator.rs:39-98`; `sorted` gives the text of the sorted file of a
table. -/
def ElementIterator.new (tables : Tables) (sorted : Table → Text) : Out ElementIterator := do
  let (users, _) ← Out.unwrap (tables .users)
  let userRecords ← tableAll (createUser users.fields) (lines (sorted .users))
  let (changesets, _) ← Out.unwrap (tables .changesets)
  let changesetRecords ← tableAll (createChangeset changesets.fields) (lines (sorted .changesets))
  let (nodes, _) ← Out.orErr (tables .nodes)
  let (nodeTags, _) ← Out.orErr (tables .nodeTags)
  let (ways, _) ← Out.orErr (tables .ways)
  let (wayNodes, _) ← Out.orErr (tables .wayNodes)
  let (wayTags, _) ← Out.orErr (tables .wayTags)
  let (relations, _) ← Out.orErr (tables .relations)
  let (relationMembers, _) ← Out.orErr (tables .relationMembers)
  let (relationTags, _) ← Out.orErr (tables .relationTags)
  return {
    fields := ⟨nodes.fields, nodeTags.fields, ways.fields, wayNodes.fields, wayTags.fields,
      relations.fields, relationMembers.fields, relationTags.fields⟩
    userIndex := insertAll userRecords []
    changesetIndex := insertAll changesetRecords []
    state := .start
    nodes := lines (sorted .nodes)
    nodeTags := { lines := lines (sorted .nodeTags) }
    ways := lines (sorted .ways)
    wayTags := { lines := lines (sorted .wayTags) }
    wayNodes := { lines := lines (sorted .wayNodes) }
    relations := lines (sorted .relations)
    relationTags := { lines := lines (sorted .relationTags) }
    relationMembers := { lines := lines (sorted .relationMembers) } }

/-- The lookups of the user of a changeset, `src/osm/apidb_dump/read/element_iterator.rs:120-122,157-159,194-196`. -/
def ElementIterator.owner (it : ElementIterator) (changeset : Int64) : Out (Int64 × String) := do
  let uid ← Out.unwrap (lookup changeset it.changesetIndex)
  let user ← Out.unwrap (lookup uid it.userIndex)
  return (uid, user)

/-- `x as f64 / 10000000.0f64`, `src/osm/apidb_dump/read/element_iterator.rs:129-130`. -/
def degrees (x : Int32) : F64 := F64.div (x.toInt : F64) 10000000

/-- Tags of tag records. (`src/osm/apidb_dump/read/element_iterator.rs:104-243`) -/
def tagsOf (ts : List TagRecord) : List Tag := ts.map fun t => ⟨t.k, t.v⟩

/-- The element made of a node record, `src/osm/apidb_dump/read/element_iterator.rs:123-144`. -/
def nodeOf (n : NodeRecord) (ts : List TagRecord) (uid : Int64) (user : String) : Node :=
  { id := n.nodeId, version := n.version.toInt32, coordinate := ⟨degrees n.latitude, degrees n.longitude⟩,
    timestamp := toMillis n.timestamp, changeset := n.changesetId, uid := uid.toInt32, user := user,
    visible := n.visible, tags := tagsOf ts }

/-- The element made of a way record, `src/osm/apidb_dump/read/element_iterator.rs:160-182`. -/
def wayOf (w : ObjectRecord) (ts : List TagRecord) (ns : List WayNodeRecord) (uid : Int64) (user : String) : Way :=
  { id := w.id, version := w.version.toInt32, timestamp := toMillis w.timestamp, changeset := w.changesetId,
    uid := uid.toInt32, user := user, visible := w.visible, refs := ns.map (·.nodeId), tags := tagsOf ts }

/-- The member made of a member record, `src/osm/apidb_dump/read/element_iterator.rs:207-224`. -/
def memberOf (m : MemberRecord) : Member :=
  match m.memberType with
  | .node => .node ⟨m.memberId, m.memberRole⟩
  | .way => .way ⟨m.memberId, m.memberRole⟩
  | .relation => .relation ⟨m.memberId, m.memberRole⟩

/-- The element made of a relation record, `src/osm/apidb_dump/read/element_iterator.rs:197-233`. -/
def relationOf (r : ObjectRecord) (ts : List TagRecord) (ms : List MemberRecord) (uid : Int64) (user : String) :
    Relation :=
  { id := r.id, version := r.version.toInt32, timestamp := toMillis r.timestamp, changeset := r.changesetId,
    uid := uid.toInt32, user := user, visible := r.visible, members := ms.map memberOf, tags := tagsOf ts }

/-- The `Nodes` arm of `next`, `src/osm/apidb_dump/read/element_iterator.rs:111-147`. -/
def ElementIterator.nextNode (z : Codec) (it : ElementIterator) : Out (Option Element × ElementIterator) := do
  let (r, nodes, tags) ← nodesNext z it.fields.nodes it.fields.nodeTags it.nodes it.nodeTags
  let it := { it with nodes := nodes, nodeTags := tags }
  match r with
  | none => return (some .sentinel, { it with state := .ways })
  | some (n, ts) =>
    let (uid, user) ← it.owner n.changesetId
    return (some (.node (nodeOf n ts uid user)), it)

/-- The `Ways` arm of `next`, `src/osm/apidb_dump/read/element_iterator.rs:148-185`. -/
def ElementIterator.nextWay (z : Codec) (it : ElementIterator) : Out (Option Element × ElementIterator) := do
  let (r, ways, tags, nodes) ← objectsNext z it.fields.ways it.fields.wayTags (createWayNode it.fields.wayNodes)
    (fun p => (p.wayId, p.version)) it.ways it.wayTags it.wayNodes
  let it := { it with ways := ways, wayTags := tags, wayNodes := nodes }
  match r with
  | none => return (some .sentinel, { it with state := .relations })
  | some (w, ts, ns) =>
    let (uid, user) ← it.owner w.changesetId
    return (some (.way (wayOf w ts ns uid user)), it)

/-- The `Relations` arm of `next`, `src/osm/apidb_dump/read/element_iterator.rs:186-236`. -/
def ElementIterator.nextRelation (z : Codec) (it : ElementIterator) : Out (Option Element × ElementIterator) := do
  let (r, relations, tags, members) ← objectsNext z it.fields.relations it.fields.relationTags
    (createMember z it.fields.relationMembers) (fun p => (p.relationId, p.version))
    it.relations it.relationTags it.relationMembers
  let it := { it with relations := relations, relationTags := tags, relationMembers := members }
  match r with
  | none => return (some .sentinel, { it with state := .finished })
  | some (o, ts, ms) =>
    let (uid, user) ← it.owner o.changesetId
    return (some (.relation (relationOf o ts ms uid user)), it)

/-- `ElementIterator::next`, `src/osm/apidb_dump/read/element_iterator.rs:104-242`. -/
def ElementIterator.next (z : Codec) (it : ElementIterator) : Out (Option Element × ElementIterator) :=
  match it.state with
  | .start => { it with state := .nodes : ElementIterator }.nextNode z
  | .nodes => it.nextNode z
  | .ways => it.nextWay z
  | .relations => it.nextRelation z
  | .finished => .ok (none, it)

end OsmIo.Apidb
