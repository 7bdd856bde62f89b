import Verif.Model.FailingTables
import Verif.Spec.ApidbJoin
import Verif.Spec.ApidbRow
/-!
# Specification vocabulary: dumps some lines of which cannot be read
-/
namespace OsmIo.Spec
open OsmIo.Text OsmIo.Sql OsmIo.Apidb

/-- The rows of a table, with `none` where the read fails: the lines that are read, none of which looks like an end of table,
stand for the rows. -/
inductive Got {α : Type} (row : Text → α → Prop) : List (Option Text) → List (Option α) → Prop
  | nil : Got row [] []
  | row {l ls r rs} : ¬ (['\\', '.'] <+: l) → row l r → Got row ls rs → Got row (some l :: ls) (some r :: rs)
  | failed {ls rs} : Got row ls rs → Got row (none :: ls) (none :: rs)

/-- The rows before the first failure. -/
def before {α : Type} : List (Option α) → List α
  | some r :: rs => r :: before rs
  | _ => []

/-- The rows that can be read. -/
def readable {α : Type} (rs : List (Option α)) : List α := rs.filterMap id

/-- The rows of the tables of a dump, with `none` where a read fails. -/
structure Patchy where
  users : List (Option (Int64 × String))
  changesets : List (Option (Int64 × Int64))
  nodes : List (Option NodeRecord)
  nodeTags : List (Option TagRecord)
  ways : List (Option ObjectRecord)
  wayNodes : List (Option WayNodeRecord)
  wayTags : List (Option TagRecord)
  relations : List (Option ObjectRecord)
  relationMembers : List (Option MemberRecord)
  relationTags : List (Option TagRecord)

/-- Reading the tables, with these columns, gives these rows and failures. -/
structure Patchy.Shown (p : Patchy) (z : Codec) (columns : Table → List Text) (got : Table → List (Option Text)) : Prop where
  users : Got (UserRow (columns .users)) (got .users) p.users
  changesets : Got (ChangesetRow (columns .changesets)) (got .changesets) p.changesets
  nodes : Got (NodeRow (columns .nodes)) (got .nodes) p.nodes
  nodeTags : Got (TagRow z "node_id" (columns .nodeTags)) (got .nodeTags) p.nodeTags
  ways : Got (ObjectRow "way_id" (columns .ways)) (got .ways) p.ways
  wayNodes : Got (WayNodeRow (columns .wayNodes)) (got .wayNodes) p.wayNodes
  wayTags : Got (TagRow z "way_id" (columns .wayTags)) (got .wayTags) p.wayTags
  relations : Got (ObjectRow "relation_id" (columns .relations)) (got .relations) p.relations
  relationMembers : Got (MemberRow z (columns .relationMembers)) (got .relationMembers) p.relationMembers
  relationTags : Got (TagRow z "relation_id" (columns .relationTags)) (got .relationTags) p.relationTags

/-- Users, changesets and objects up to the first failure in their table; all the rows of the other tables that can be read. -/
def Patchy.seen (p : Patchy) : Content where
  users := before p.users
  changesets := before p.changesets
  nodes := before p.nodes
  nodeTags := readable p.nodeTags
  ways := before p.ways
  wayNodes := readable p.wayNodes
  wayTags := readable p.wayTags
  relations := before p.relations
  relationMembers := readable p.relationMembers
  relationTags := readable p.relationTags

/-- How the rows of a table with failures are dealt out to the objects: an object takes the rows that follow as long as they are
its own; a failure ends its share and is passed over; a row of another object stays. -/
inductive DealtPast {α β : Type} (objectKey : α → Int64 × Int64) (partKey : β → Int64 × Int64) :
    List α → List (Option β) → List (List β) → List (Option β) → Prop
  | nil (rows : List (Option β)) : DealtPast objectKey partKey [] rows [] rows
  | other (o os share p rows shares lost) : (∀ q ∈ share, partKey q = objectKey o) → partKey p ≠ objectKey o →
      DealtPast objectKey partKey os (some p :: rows) shares lost →
      DealtPast objectKey partKey (o :: os) (share.map some ++ some p :: rows) (share :: shares) lost
  | failure (o os share rows shares lost) : (∀ q ∈ share, partKey q = objectKey o) →
      DealtPast objectKey partKey os rows shares lost →
      DealtPast objectKey partKey (o :: os) (share.map some ++ none :: rows) (share :: shares) lost
  | last (o os share shares lost) : (∀ q ∈ share, partKey q = objectKey o) →
      DealtPast objectKey partKey os [] shares lost →
      DealtPast objectKey partKey (o :: os) (share.map some) (share :: shares) lost

/-- The elements of a dump with failures: each object before the first failure of its table, with the user of its changeset and its
share of the rows of the other tables. -/
def Patchy.Elements (p : Patchy) (ns : List Node) (ws : List Way) (rs : List Relation) : Prop :=
  ∃ nodeTags wayTags relationTags wayNodes members lost1 lost2 lost3 lost4 lost5,
    p.seen.Joined ns ws rs nodeTags wayTags relationTags wayNodes members ∧
    DealtPast nodeKey tagKey p.seen.nodes p.nodeTags nodeTags lost1 ∧
    DealtPast objectKey tagKey p.seen.ways p.wayTags wayTags lost2 ∧
    DealtPast objectKey wayNodeKey p.seen.ways p.wayNodes wayNodes lost3 ∧
    DealtPast objectKey tagKey p.seen.relations p.relationTags relationTags lost4 ∧
    DealtPast objectKey memberKey p.seen.relations p.relationMembers members lost5

/-- The first rows of each table. -/
def Content.cut (c : Content) (n : Table → Nat) : Content where
  users := c.users.take (n .users)
  changesets := c.changesets.take (n .changesets)
  nodes := c.nodes.take (n .nodes)
  nodeTags := c.nodeTags.take (n .nodeTags)
  ways := c.ways.take (n .ways)
  wayNodes := c.wayNodes.take (n .wayNodes)
  wayTags := c.wayTags.take (n .wayTags)
  relations := c.relations.take (n .relations)
  relationMembers := c.relationMembers.take (n .relationMembers)
  relationTags := c.relationTags.take (n .relationTags)

/-- All reads of a table fail from some row on; the number of attempts is `k`. -/
def failFrom {α : Type} (rs : List α) (n k : Nat) : List (Option α) := (rs.take n).map some ++ List.replicate k none

/-- All reads of each table fail from some row on. -/
def Content.failing (c : Content) (n k : Table → Nat) : Patchy where
  users := failFrom c.users (n .users) (k .users)
  changesets := failFrom c.changesets (n .changesets) (k .changesets)
  nodes := failFrom c.nodes (n .nodes) (k .nodes)
  nodeTags := failFrom c.nodeTags (n .nodeTags) (k .nodeTags)
  ways := failFrom c.ways (n .ways) (k .ways)
  wayNodes := failFrom c.wayNodes (n .wayNodes) (k .wayNodes)
  wayTags := failFrom c.wayTags (n .wayTags) (k .wayTags)
  relations := failFrom c.relations (n .relations) (k .relations)
  relationMembers := failFrom c.relationMembers (n .relationMembers) (k .relationMembers)
  relationTags := failFrom c.relationTags (n .relationTags) (k .relationTags)

end OsmIo.Spec
