import Verif.Spec.FailingTables
import Verif.Spec.DamagedRow
/-!
# Specification vocabulary: what becomes of any dump
-/
namespace OsmIo.Spec
open OsmIo.Text OsmIo.Sql OsmIo.Apidb

/-- What a read of a table gives: a row, a stop (an end mark, an empty line or a failing read) or a damaged line. -/
inductive Item (α : Type) where
  | row (r : α)
  | stop
  | bad
  deriving DecidableEq

/-- The lines of a table give these items. -/
inductive Items {α : Type} (row : Text → α → Prop) (bad : Text → Prop) : List (Option Text) → List (Item α) → Prop
  | nil : Items row bad [] []
  | row {l ls r is} : ¬ (['\\', '.'] <+: l) → row l r → Items row bad ls is → Items row bad (some l :: ls) (.row r :: is)
  | mark {l ls is} : (l = [] ∨ ['\\', '.'] <+: l) → Items row bad ls is → Items row bad (some l :: ls) (.stop :: is)
  | failed {ls is} : Items row bad ls is → Items row bad (none :: ls) (.stop :: is)
  | bad {l ls is} : l ≠ [] → ¬ (['\\', '.'] <+: l) → bad l → Items row bad ls is → Items row bad (some l :: ls) (.bad :: is)

/-- The rows up to the first item that is none. -/
def rowsOf {α : Type} : List (Item α) → List α
  | .row r :: is => r :: rowsOf is
  | _ => []

/-- The first item that is no row is a damaged line. -/
def Broken {α : Type} (is : List (Item α)) : Prop := ∃ (rs : List α) (more : List (Item α)), is = rs.map Item.row ++ .bad :: more

/-- The items of the tables of a dump. -/
structure AnyDump where
  users : List (Item (Int64 × String))
  changesets : List (Item (Int64 × Int64))
  nodes : List (Item NodeRecord)
  nodeTags : List (Item TagRecord)
  ways : List (Item ObjectRecord)
  wayNodes : List (Item WayNodeRecord)
  wayTags : List (Item TagRecord)
  relations : List (Item ObjectRecord)
  relationMembers : List (Item MemberRecord)
  relationTags : List (Item TagRecord)

/-- Reading the tables, with these columns, gives these items. -/
structure AnyDump.Shown (p : AnyDump) (z : Codec) (columns : Table → List Text) (got : Table → List (Option Text)) : Prop where
  users : Items (UserRow (columns .users)) (BadRow .users (columns .users)) (got .users) p.users
  changesets : Items (ChangesetRow (columns .changesets)) (BadRow .changesets (columns .changesets)) (got .changesets) p.changesets
  nodes : Items (NodeRow (columns .nodes)) (BadRow .nodes (columns .nodes)) (got .nodes) p.nodes
  nodeTags : Items (TagRow z "node_id" (columns .nodeTags)) (BadRow .nodeTags (columns .nodeTags)) (got .nodeTags) p.nodeTags
  ways : Items (ObjectRow "way_id" (columns .ways)) (BadRow .ways (columns .ways)) (got .ways) p.ways
  wayNodes : Items (WayNodeRow (columns .wayNodes)) (BadRow .wayNodes (columns .wayNodes)) (got .wayNodes) p.wayNodes
  wayTags : Items (TagRow z "way_id" (columns .wayTags)) (BadRow .wayTags (columns .wayTags)) (got .wayTags) p.wayTags
  relations : Items (ObjectRow "relation_id" (columns .relations)) (BadRow .relations (columns .relations)) (got .relations) p.relations
  relationMembers : Items (MemberRow z (columns .relationMembers)) (BadRow .relationMembers (columns .relationMembers))
    (got .relationMembers) p.relationMembers
  relationTags : Items (TagRow z "relation_id" (columns .relationTags)) (BadRow .relationTags (columns .relationTags))
    (got .relationTags) p.relationTags

/-- How the items of a table are dealt out to the objects: an object takes the rows that follow as long as they are its own; a stop
ends its share and is passed over; a row of another object stays; an object that comes upon a damaged line, and those after it, get
nothing. -/
inductive DealtAny {α β : Type} (objectKey : α → Int64 × Int64) (partKey : β → Int64 × Int64) :
    List α → List (Item β) → List (List β) → Prop
  | nil (items : List (Item β)) : DealtAny objectKey partKey [] items []
  | other (o : α) (os : List α) (share : List β) (p : β) (items : List (Item β)) (shares : List (List β)) : (∀ q ∈ share, partKey q = objectKey o) → partKey p ≠ objectKey o →
      DealtAny objectKey partKey os (.row p :: items) shares →
      DealtAny objectKey partKey (o :: os) (share.map .row ++ .row p :: items) (share :: shares)
  | stop (o : α) (os : List α) (share : List β) (items : List (Item β)) (shares : List (List β)) : (∀ q ∈ share, partKey q = objectKey o) →
      DealtAny objectKey partKey os items shares →
      DealtAny objectKey partKey (o :: os) (share.map .row ++ .stop :: items) (share :: shares)
  | last (o : α) (os : List α) (share : List β) (shares : List (List β)) : (∀ q ∈ share, partKey q = objectKey o) →
      DealtAny objectKey partKey os [] shares →
      DealtAny objectKey partKey (o :: os) (share.map .row) (share :: shares)
  | bad (o : α) (os : List α) (share : List β) (items : List (Item β)) : (∀ q ∈ share, partKey q = objectKey o) →
      DealtAny objectKey partKey (o :: os) (share.map .row ++ .bad :: items) []

/-- The objects of one type with their shares become elements one after the other, as long as they have an owner. It works out (`ok`)
if all have one, each object of the table has its shares and there is no damaged line before the end of the table. -/
def Phase {ι ε α : Type} (made : ι → ε → Prop) (table : List (Item α)) (complete : List ι) (out : List ε) (ok : Prop) : Prop :=
  ∃ done rest, complete = done ++ rest ∧ List.Forall₂ made done out ∧ (∀ x ∈ rest.head?, ∀ e, ¬ made x e) ∧
    (ok ↔ rest = [] ∧ complete.length = (rowsOf table).length ∧ ¬ Broken table)

/-- Users, changesets and objects up to the first item of their table that is no row. -/
def AnyDump.seen (p : AnyDump) : Content where
  users := rowsOf p.users
  changesets := rowsOf p.changesets
  nodes := rowsOf p.nodes
  nodeTags := []
  ways := rowsOf p.ways
  wayNodes := []
  wayTags := []
  relations := rowsOf p.relations
  relationMembers := []
  relationTags := []

/-- The node made of a row and its share. -/
def AnyDump.MakesNode (p : AnyDump) (x : NodeRecord × List TagRecord) (n : Node) : Prop :=
  ∃ uid user, p.seen.owner x.1.changesetId = some (uid, user) ∧ n = { p.seen.node x.1 uid user with tags := rowTags x.2 }

/-- The way made of a row and its shares. -/
def AnyDump.MakesWay (p : AnyDump) (x : ObjectRecord × List TagRecord × List WayNodeRecord) (w : Way) : Prop :=
  ∃ uid user, p.seen.owner x.1.changesetId = some (uid, user) ∧
    w = { p.seen.way x.1 uid user with tags := rowTags x.2.1, refs := x.2.2.map (·.nodeId) }

/-- The relation made of a row and its shares. -/
def AnyDump.MakesRelation (p : AnyDump) (x : ObjectRecord × List TagRecord × List MemberRecord) (r : Relation) : Prop :=
  ∃ uid user, p.seen.owner x.1.changesetId = some (uid, user) ∧
    r = { p.seen.relation x.1 uid user with tags := rowTags x.2.1, members := x.2.2.map rowMember }

/-- What is got out of a dump: the elements, and whether it ends well. -/
def AnyDump.Gives (p : AnyDump) (es : List Element) (well : Prop) : Prop :=
  ∃ nodeTags wayTags wayNodes relationTags members,
    DealtAny nodeKey tagKey p.seen.nodes p.nodeTags nodeTags ∧
    DealtAny objectKey tagKey p.seen.ways p.wayTags wayTags ∧
    DealtAny objectKey wayNodeKey p.seen.ways p.wayNodes wayNodes ∧
    DealtAny objectKey tagKey p.seen.relations p.relationTags relationTags ∧
    DealtAny objectKey memberKey p.seen.relations p.relationMembers members ∧
    ∃ ns ws rs nodesOk waysOk relationsOk,
      Phase p.MakesNode p.nodes (p.seen.nodes.zip nodeTags) ns nodesOk ∧
      Phase p.MakesWay p.ways (p.seen.ways.zip (wayTags.zip wayNodes)) ws waysOk ∧
      Phase p.MakesRelation p.relations (p.seen.relations.zip (relationTags.zip members)) rs relationsOk ∧
      (well ↔ nodesOk ∧ waysOk ∧ relationsOk) ∧
      (¬ nodesOk → es = ns.map .node) ∧
      (nodesOk → ¬ waysOk → es = ns.map .node ++ [.sentinel] ++ ws.map .way) ∧
      (nodesOk → waysOk → ¬ relationsOk → es = ns.map .node ++ [.sentinel] ++ ws.map .way ++ [.sentinel] ++ rs.map .relation) ∧
      (nodesOk → waysOk → relationsOk → es = withSentinels ns ws rs)

end OsmIo.Spec
