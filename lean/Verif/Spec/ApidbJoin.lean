import Verif.Spec.ApidbRead
/-!
# Specification vocabulary: which rows an element gets, in any dump
-/
namespace OsmIo.Spec
open OsmIo.Text OsmIo.Sql OsmIo.Apidb

/-- The parts are dealt out to the objects from first to last: each object gets a share of parts with its own key, the
shares follow each other in the order of the table, an object takes as many as it can, and the parts left over are lost. -/
structure Dealt {α β : Type} (objects : List α) (objectKey : α → Int64 × Int64) (parts : List β) (partKey : β → Int64 × Int64)
    (shares : List (List β)) (lost : List β) : Prop where
  own : List.Forall₂ (fun o share => ∀ p ∈ share, partKey p = objectKey o) objects shares
  inOrder : parts = shares.flatten ++ lost
  greedy : ∀ i o p, objects[i]? = some o → ((shares.drop (i + 1)).flatten ++ lost).head? = some p → partKey p ≠ objectKey o

/-- The tags of tag rows. -/
def rowTags (ts : List TagRecord) : List Tag := ts.map fun t => ⟨t.k, t.v⟩

/-- The member of a member row. -/
def rowMember (m : MemberRecord) : Member :=
  match m.memberType with
  | .node => .node ⟨m.memberId, m.memberRole⟩
  | .way => .way ⟨m.memberId, m.memberRole⟩
  | .relation => .relation ⟨m.memberId, m.memberRole⟩

/-- Each object of the dump with the user of its changeset and its share of the rows of the other tables. -/
structure Content.Joined (c : Content) (ns : List Node) (ws : List Way) (rs : List Relation)
    (nodeTags wayTags relationTags : List (List TagRecord)) (wayNodes : List (List WayNodeRecord)) (members : List (List MemberRecord)) : Prop where
  nodes : List.Forall₂ (fun (r, ts) n => ∃ uid user, c.owner r.changesetId = some (uid, user) ∧
    n = { c.node r uid user with tags := rowTags ts }) (c.nodes.zip nodeTags) ns
  ways : List.Forall₂ (fun (r, ts, ps) w => ∃ uid user, c.owner r.changesetId = some (uid, user) ∧
    w = { c.way r uid user with tags := rowTags ts, refs := ps.map (·.nodeId) }) (c.ways.zip (wayTags.zip wayNodes)) ws
  relations : List.Forall₂ (fun (o, ts, ms) r => ∃ uid user, c.owner o.changesetId = some (uid, user) ∧
    r = { c.relation o uid user with tags := rowTags ts, members := ms.map rowMember }) (c.relations.zip (relationTags.zip members)) rs

end OsmIo.Spec
