import Verif.Model.ApidbReader
import Verif.Spec.Apidb
/-!
# Specification vocabulary for reading apidb dumps
-/
namespace OsmIo.Spec
open OsmIo.Text OsmIo.Sql OsmIo.Apidb

/-- Calling `next` yields the items `as` one after the other and leaves the iterator in the last
state. -/
inductive Yields {S α : Type} (next : S → Out (Option α × S)) : S → List α → S → Prop
  | nil (s : S) : Yields next s [] s
  | cons {s s' s'' : S} {a : α} {as : List α} :
      next s = .ok (some a, s') → Yields next s' as s'' → Yields next s (a :: as) s''

/-- `for x in iterator`: the items up to the first `None`. -/
def Iterates {S α : Type} (next : S → Out (Option α × S)) (s : S) (as : List α) (s' : S) : Prop :=
  ∃ s₁, Yields next s as s₁ ∧ next s₁ = .ok (none, s')

/-- The lines of a sorted table file give the records `rs`, and none of them looks like an end of
table. -/
def Holds {α : Type} (build : Text → Out α) (text : Text) (rs : List α) : Prop :=
  List.Forall₂ (fun l r => l ≠ [] ∧ ¬ (['\\', '.'] <+: l) ∧ build l = .ok r) (lines text) rs

/-- The records of the tables of a dump. -/
structure Content where
  users : List (Int64 × String)
  changesets : List (Int64 × Int64)
  nodes : List NodeRecord
  nodeTags : List TagRecord
  ways : List ObjectRecord
  wayNodes : List WayNodeRecord
  wayTags : List TagRecord
  relations : List ObjectRecord
  relationMembers : List MemberRecord
  relationTags : List TagRecord

/-- The sorted tables hold these records. -/
structure Content.ReadFrom (c : Content) (z : Codec) (tables : Tables) (sorted : Table → Text) : Prop where
  users : ∃ d f, tables .users = some (d, f) ∧ Holds (createUser d.fields) (sorted .users) c.users
  changesets : ∃ d f, tables .changesets = some (d, f) ∧
    Holds (createChangeset d.fields) (sorted .changesets) c.changesets
  nodes : ∃ d f, tables .nodes = some (d, f) ∧ Holds (createNode d.fields) (sorted .nodes) c.nodes
  nodeTags : ∃ d f, tables .nodeTags = some (d, f) ∧ Holds (createNodeTag z d.fields) (sorted .nodeTags) c.nodeTags
  ways : ∃ d f, tables .ways = some (d, f) ∧ Holds (createObject d.fields) (sorted .ways) c.ways
  wayNodes : ∃ d f, tables .wayNodes = some (d, f) ∧ Holds (createWayNode d.fields) (sorted .wayNodes) c.wayNodes
  wayTags : ∃ d f, tables .wayTags = some (d, f) ∧ Holds (createObjectTag z d.fields) (sorted .wayTags) c.wayTags
  relations : ∃ d f, tables .relations = some (d, f) ∧ Holds (createObject d.fields) (sorted .relations) c.relations
  relationMembers : ∃ d f, tables .relationMembers = some (d, f) ∧
    Holds (createMember z d.fields) (sorted .relationMembers) c.relationMembers
  relationTags : ∃ d f, tables .relationTags = some (d, f) ∧
    Holds (createObjectTag z d.fields) (sorted .relationTags) c.relationTags

/-- Order of (id, version) pairs. -/
def KeyLt (a b : Int64 × Int64) : Prop := a.1 < b.1 ∨ (a.1 = b.1 ∧ a.2 < b.2)

/-- Order of (id, version) pairs. -/
def KeyLe (a b : Int64 × Int64) : Prop := a.1 < b.1 ∨ (a.1 = b.1 ∧ a.2 ≤ b.2)

/-- Key of a node record. -/
def nodeKey (n : NodeRecord) : Int64 × Int64 := (n.nodeId, n.version)
/-- Key of a way or relation record. -/
def objectKey (o : ObjectRecord) : Int64 × Int64 := (o.id, o.version)
/-- Key of the owner of a tag. -/
def tagKey (t : TagRecord) : Int64 × Int64 := (t.id, t.version)
/-- Key of the owner of a way node. -/
def wayNodeKey (n : WayNodeRecord) : Int64 × Int64 := (n.wayId, n.version)
/-- Key of the owner of a member. -/
def memberKey (m : MemberRecord) : Int64 × Int64 := (m.relationId, m.version)

/-- The objects are in strictly ascending order of their keys, the parts in ascending order of their
owners' keys, and each part has an owner. -/
structure Joinable {α β : Type} (objects : List α) (objectKey : α → Int64 × Int64)
    (parts : List β) (partKey : β → Int64 × Int64) : Prop where
  ascending : objects.Pairwise fun a b => KeyLt (objectKey a) (objectKey b)
  grouped : parts.Pairwise fun a b => KeyLe (partKey a) (partKey b)
  owned : ∀ p ∈ parts, ∃ o ∈ objects, objectKey o = partKey p

/-- The conditions on a dump: keys are unique and ascending, parts belong to an object. -/
structure Content.WellFormed (c : Content) : Prop where
  nodeTags : Joinable c.nodes nodeKey c.nodeTags tagKey
  wayTags : Joinable c.ways objectKey c.wayTags tagKey
  wayNodes : Joinable c.ways objectKey c.wayNodes wayNodeKey
  relationTags : Joinable c.relations objectKey c.relationTags tagKey
  relationMembers : Joinable c.relations objectKey c.relationMembers memberKey

/-- The user owning a changeset: id and name. -/
def Content.owner (c : Content) (changeset : Int64) : Option (Int64 × String) :=
  match lastValue c.changesets changeset with
  | none => none
  | some uid => (lastValue c.users uid).map fun name => (uid, name)

/-- The tags of the object with a key. -/
def tagsAt (ts : List TagRecord) (key : Int64 × Int64) : List Tag :=
  (ts.filter fun t => tagKey t = key).map fun t => ⟨t.k, t.v⟩

/-- The node of a record. -/
def Content.node (c : Content) (n : NodeRecord) (uid : Int64) (user : String) : Node :=
  { id := n.nodeId
    version := n.version.toInt32
    coordinate := ⟨F64.div (n.latitude.toInt : F64) 10000000, F64.div (n.longitude.toInt : F64) 10000000⟩
    timestamp := Int64.ofInt (n.timestamp / 1000000)
    changeset := n.changesetId
    uid := uid.toInt32
    user := user
    visible := n.visible
    tags := tagsAt c.nodeTags (n.nodeId, n.version) }

/-- The way of a record. -/
def Content.way (c : Content) (w : ObjectRecord) (uid : Int64) (user : String) : Way :=
  { id := w.id
    version := w.version.toInt32
    timestamp := Int64.ofInt (w.timestamp / 1000000)
    changeset := w.changesetId
    uid := uid.toInt32
    user := user
    visible := w.visible
    refs := (c.wayNodes.filter fun n => wayNodeKey n = (w.id, w.version)).map (·.nodeId)
    tags := tagsAt c.wayTags (w.id, w.version) }

/-- The relation of a record. -/
def Content.relation (c : Content) (r : ObjectRecord) (uid : Int64) (user : String) : Relation :=
  { id := r.id
    version := r.version.toInt32
    timestamp := Int64.ofInt (r.timestamp / 1000000)
    changeset := r.changesetId
    uid := uid.toInt32
    user := user
    visible := r.visible
    members := (c.relationMembers.filter fun m => memberKey m = (r.id, r.version)).map fun m =>
      match m.memberType with
      | .node => .node ⟨m.memberId, m.memberRole⟩
      | .way => .way ⟨m.memberId, m.memberRole⟩
      | .relation => .relation ⟨m.memberId, m.memberRole⟩
    tags := tagsAt c.relationTags (r.id, r.version) }

/-- The elements of a dump: each object with its own parts and its owner, in the order of the
tables. -/
structure Content.Elements (c : Content) (ns : List Node) (ws : List Way) (rs : List Relation) : Prop where
  nodes : List.Forall₂ (fun r n => ∃ uid user, c.owner r.changesetId = some (uid, user) ∧ n = c.node r uid user)
    c.nodes ns
  ways : List.Forall₂ (fun r w => ∃ uid user, c.owner r.changesetId = some (uid, user) ∧ w = c.way r uid user)
    c.ways ws
  relations : List.Forall₂ (fun o r => ∃ uid user, c.owner o.changesetId = some (uid, user) ∧ r = c.relation o uid user)
    c.relations rs

/-- As `Elements`, leaving open which tags, way nodes and members the elements have. -/
structure Content.Objects (c : Content) (ns : List Node) (ws : List Way) (rs : List Relation) : Prop where
  nodes : List.Forall₂ (fun r n => ∃ uid user tags, c.owner r.changesetId = some (uid, user) ∧
    n = { c.node r uid user with tags := tags }) c.nodes ns
  ways : List.Forall₂ (fun r w => ∃ uid user tags refs, c.owner r.changesetId = some (uid, user) ∧
    w = { c.way r uid user with tags := tags, refs := refs }) c.ways ws
  relations : List.Forall₂ (fun o r => ∃ uid user tags members, c.owner o.changesetId = some (uid, user) ∧
    r = { c.relation o uid user with tags := tags, members := members }) c.relations rs

/-- The changeset of each object belongs to a user. -/
structure Content.AllOwned (c : Content) : Prop where
  nodes : ∀ r ∈ c.nodes, (c.owner r.changesetId).isSome
  ways : ∀ r ∈ c.ways, (c.owner r.changesetId).isSome
  relations : ∀ r ∈ c.relations, (c.owner r.changesetId).isSome

/-- All nodes, a sentinel, all ways, a sentinel, all relations, a sentinel. -/
def withSentinels (ns : List Node) (ws : List Way) (rs : List Relation) : List Element :=
  ns.map .node ++ [.sentinel] ++ ws.map .way ++ [.sentinel] ++ rs.map .relation ++ [.sentinel]

end OsmIo.Spec
