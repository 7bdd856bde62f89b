import Verif.Model.ApidbToc
/-!
# Specification vocabulary for the table of contents of a dump
-/
namespace OsmIo.Spec
open OsmIo.Text OsmIo.Sql OsmIo.Apidb

/-- One `COPY` statement of a table of contents with the bytes around it. -/
structure TocEntry where
  before : Bytes
  /-- text between `COPY ` and ` FROM stdin` -/
  definition : Bytes
  middle : Bytes
  /-- number of the data file -/
  digits : Bytes
  /-- byte after `.dat` -/
  after : UInt8

/-- The bytes of an entry. -/
def TocEntry.bytes (e : TocEntry) : Bytes :=
  e.before ++ ascii "COPY " ++ e.definition ++ ascii " FROM stdin" ++ e.middle ++ e.digits ++ ascii ".dat" ++ [e.after]

/-- The bytes of a table of contents. -/
def tocBytes (es : List TocEntry) (tail : Bytes) : Bytes := es.flatMap TocEntry.bytes ++ tail

/-- The marks of an entry are the first ones of their kind. -/
structure TocEntry.Clear (e : TocEntry) : Prop where
  copy : ¬ ascii "COPY " <:+: e.before ++ (ascii "COPY ").dropLast
  stdin : ¬ ascii " FROM stdin" <:+: e.definition ++ (ascii " FROM stdin").dropLast
  dat : ¬ ascii ".dat" <:+: (e.middle ++ e.digits) ++ (ascii ".dat").dropLast
  digits : ∀ b ∈ e.digits, 48 ≤ b ∧ b ≤ 57
  noDigit : ∀ b ∈ e.middle.getLast?, ¬ (48 ≤ b ∧ b ≤ 57)

/-- A `COPY` statement: table, columns, data file. -/
structure Statement where
  name : Text
  columns : List Text
  file : String

/-- `name (column, column, ..)`. -/
def Statement.text (s : Statement) : Text := s.name ++ ' ' :: '(' :: List.intercalate [',', ' '] s.columns ++ [')']

/-- A table name without spaces, at least one column, no empty column names and no commas or line breaks in
them. -/
structure Statement.Ok (s : Statement) : Prop where
  name : s.name ≠ []
  space : ' ' ∉ s.name
  columns : s.columns ≠ []
  column : ∀ c ∈ s.columns, c ≠ [] ∧ ',' ∉ c ∧ '\n' ∉ c

/-- The names of the tables that are read. -/
def tableName : Table → Option Text
  | .nodes => some "public.nodes".toList
  | .nodeTags => some "public.node_tags".toList
  | .ways => some "public.ways".toList
  | .wayNodes => some "public.way_nodes".toList
  | .wayTags => some "public.way_tags".toList
  | .relations => some "public.relations".toList
  | .relationMembers => some "public.relation_members".toList
  | .relationTags => some "public.relation_tags".toList
  | .changesets => some "public.changesets".toList
  | .users => some "public.users".toList
  | _ => none

end OsmIo.Spec
