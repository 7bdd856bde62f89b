import Verif.Model.Pipelines
/-!
# Reading the tables of a dump when `read_line` may fail (`src/osm/apidb_dump/read/table_reader.rs`)

The results of the successive calls of `read_line` on the sorted file of a table are a list: a line, or `none` for an error (of
the device, or because the line is not UTF-8); after the last one every call finds the end of the file. Nothing is assumed of the
lines that follow an error.
-/
namespace OsmIo.Apidb
open OsmIo.Text OsmIo.Sql

/-- The results of the calls of `read_line` on one file. (`src/osm/apidb_dump/read/table_reader.rs:505`) -/
abbrev Results := List (Option Text)

/-- `TableIterator::next`, `src/osm/apidb_dump/read/table_reader.rs:502-526`: an error is `None`. -/
def tableNextF {α : Type} (build : Text → Out α) : Results → Out (Option α × Results)
  | [] => .ok (none, [])
  | none :: ls => .ok (none, ls)
  | some l :: ls => if stopLine l then .ok (none, ls) else do return (some (← build l), ls)

/-- `for record in reader`, as in `index_users` and `index_changesets`.
(`src/osm/apidb_dump/read/element_iterator.rs:74-98`) -/
def tableAllF {α : Type} (build : Text → Out α) : Results → Out (List α)
  | [] => .ok []
  | none :: _ => .ok []
  | some l :: ls => if stopLine l then .ok [] else do
    let r ← build l
    let rs ← tableAllF build ls
    return r :: rs

/-- The loop `for child in self.children_iterator.by_ref()` of the merge joins,
`src/osm/apidb_dump/read/node_relations_reader.rs:67-78,83-94`. -/
def gatherF {β : Type} (build : Text → Out β) (mine : β → Bool) :
    Results → Out (List β × Option β × Results)
  | [] => .ok ([], none, [])
  | none :: ls => .ok ([], none, ls)
  | some l :: ls =>
    if stopLine l then .ok ([], none, ls)
    else do
      let r ← build l
      if mine r then
        let (rs, next, rest) ← gatherF build mine ls
        return (r :: rs, next, rest)
      else
        return ([], some r, ls)

/-- The children of one object, given the pending child,
`src/osm/apidb_dump/read/node_relations_reader.rs:63-95` (and the four copies of it in
`way_relations_reader.rs:78-144` and `relation_relations_reader.rs:78-144`). -/
def attachF {β : Type} (build : Text → Out β) (mine : β → Bool) (pending : Option β) (ls : Results) :
    Out (List β × Option β × Results) :=
  match pending with
  | some r =>
    if mine r then do
      let (rs, next, rest) ← gatherF build mine ls
      return (r :: rs, next, rest)
    else .ok ([], some r, ls)
  | none => gatherF build mine ls

/-- A child table being joined: the pending record and the reads still to come.
(`src/osm/apidb_dump/read/node_relations_reader.rs:1-109`, `way_relations_reader.rs:1-160`) -/
structure ChildF (β : Type) where
  pending : Option β := none
  lines : Results

/-- `NodeRelationsIterator::next`, `src/osm/apidb_dump/read/node_relations_reader.rs:56-109`. -/
def nodesNextF (z : Codec) (fn ft : List Nat) (nodes : Results) (tags : ChildF TagRecord) :
    Out (Option (NodeRecord × List TagRecord) × Results × ChildF TagRecord) := do
  let (node, nodes) ← tableNextF (createNode fn) nodes
  match node with
  | none => return (none, nodes, tags)
  | some n =>
    let (ts, pending, rest) ← attachF (createNodeTag z ft)
      (fun t => t.id = n.nodeId && t.version = n.version) tags.pending tags.lines
    return (some (n, ts), nodes, ⟨pending, rest⟩)

/-- `WayRelationsIterator::next` and `RelationRelationsIterator::next`,
`src/osm/apidb_dump/read/way_relations_reader.rs:69-160`, `relation_relations_reader.rs:70-160`. -/
def objectsNextF {β : Type} (z : Codec) (fo ft : List Nat) (buildPart : Text → Out β) (partKey : β → Int64 × Int64)
    (objects : Results) (tags : ChildF TagRecord) (parts : ChildF β) :
    Out (Option (ObjectRecord × List TagRecord × List β) × Results × ChildF TagRecord × ChildF β) := do
  let (object, objects) ← tableNextF (createObject fo) objects
  match object with
  | none => return (none, objects, tags, parts)
  | some o =>
    let (ts, pendingTag, restTags) ← attachF (createObjectTag z ft)
      (fun t => t.id = o.id && t.version = o.version) tags.pending tags.lines
    let (ps, pendingPart, restParts) ← attachF buildPart
      (fun p => (partKey p).1 = o.id && (partKey p).2 = o.version) parts.pending parts.lines
    return (some (o, ts, ps), objects, ⟨pendingTag, restTags⟩, ⟨pendingPart, restParts⟩)

/-- `ElementIterator`, `src/osm/apidb_dump/read/element_iterator.rs:29-36`. -/
structure ElementIteratorF where
  fields : Fields
  userIndex : List (Int64 × String)
  changesetIndex : List (Int64 × Int64)
  state : IterationState
  nodes : Results
  nodeTags : ChildF TagRecord
  ways : Results
  wayTags : ChildF TagRecord
  wayNodes : ChildF WayNodeRecord
  relations : Results
  relationTags : ChildF TagRecord
  relationMembers : ChildF MemberRecord

/-- `ElementIterator::new` with `index_users` and `index_changesets`,
`src/osm/apidb_dump/read/element_iterator.rs:39-98`; `got` gives the results of reading the sorted file of a table. The files are
opened without error. -/
def ElementIteratorF.new (tables : Tables) (got : Table → Results) : Out ElementIteratorF := do
  let (users, _) ← Out.unwrap (tables .users)
  let userRecords ← tableAllF (createUser users.fields) (got .users)
  let (changesets, _) ← Out.unwrap (tables .changesets)
  let changesetRecords ← tableAllF (createChangeset changesets.fields) (got .changesets)
  let (nodes, _) ← Out.orErr (tables .nodes)
  let (nodeTags, _) ← Out.orErr (tables .nodeTags)
  let (ways, _) ← Out.orErr (tables .ways)
  let (wayNodes, _) ← Out.orErr (tables .wayNodes)
  let (wayTags, _) ← Out.orErr (tables .wayTags)
  let (relations, _) ← Out.orErr (tables .relations)
  let (relationMembers, _) ← Out.orErr (tables .relationMembers)
  let (relationTags, _) ← Out.orErr (tables .relationTags)
  return {
    fields := ⟨nodes.fields, nodeTags.fields, ways.fields, wayNodes.fields, wayTags.fields,
      relations.fields, relationMembers.fields, relationTags.fields⟩
    userIndex := insertAll userRecords []
    changesetIndex := insertAll changesetRecords []
    state := .start
    nodes := got .nodes
    nodeTags := { lines := got .nodeTags }
    ways := got .ways
    wayTags := { lines := got .wayTags }
    wayNodes := { lines := got .wayNodes }
    relations := got .relations
    relationTags := { lines := got .relationTags }
    relationMembers := { lines := got .relationMembers } }

/-- The lookups of the user of a changeset, `src/osm/apidb_dump/read/element_iterator.rs:120-122,157-159,194-196`. -/
def ElementIteratorF.owner (it : ElementIteratorF) (changeset : Int64) : Out (Int64 × String) := do
  let uid ← Out.unwrap (lookup changeset it.changesetIndex)
  let user ← Out.unwrap (lookup uid it.userIndex)
  return (uid, user)

/-- The `Nodes` arm of `next`, `src/osm/apidb_dump/read/element_iterator.rs:111-147`. -/
def ElementIteratorF.nextNode (z : Codec) (it : ElementIteratorF) : Out (Option Element × ElementIteratorF) := do
  let (r, nodes, tags) ← nodesNextF z it.fields.nodes it.fields.nodeTags it.nodes it.nodeTags
  let it := { it with nodes := nodes, nodeTags := tags }
  match r with
  | none => return (some .sentinel, { it with state := .ways })
  | some (n, ts) =>
    let (uid, user) ← it.owner n.changesetId
    return (some (.node (nodeOf n ts uid user)), it)

/-- The `Ways` arm of `next`, `src/osm/apidb_dump/read/element_iterator.rs:148-185`. -/
def ElementIteratorF.nextWay (z : Codec) (it : ElementIteratorF) : Out (Option Element × ElementIteratorF) := do
  let (r, ways, tags, nodes) ← objectsNextF z it.fields.ways it.fields.wayTags (createWayNode it.fields.wayNodes)
    (fun p => (p.wayId, p.version)) it.ways it.wayTags it.wayNodes
  let it := { it with ways := ways, wayTags := tags, wayNodes := nodes }
  match r with
  | none => return (some .sentinel, { it with state := .relations })
  | some (w, ts, ns) =>
    let (uid, user) ← it.owner w.changesetId
    return (some (.way (wayOf w ts ns uid user)), it)

/-- The `Relations` arm of `next`, `src/osm/apidb_dump/read/element_iterator.rs:186-236`. -/
def ElementIteratorF.nextRelation (z : Codec) (it : ElementIteratorF) : Out (Option Element × ElementIteratorF) := do
  let (r, relations, tags, members) ← objectsNextF z it.fields.relations it.fields.relationTags
    (createMember z it.fields.relationMembers) (fun p => (p.relationId, p.version))
    it.relations it.relationTags it.relationMembers
  let it := { it with relations := relations, relationTags := tags, relationMembers := members }
  match r with
  | none => return (some .sentinel, { it with state := .finished })
  | some (o, ts, ms) =>
    let (uid, user) ← it.owner o.changesetId
    return (some (.relation (relationOf o ts ms uid user)), it)

/-- `ElementIterator::next`, `src/osm/apidb_dump/read/element_iterator.rs:104-242`. -/
def ElementIteratorF.next (z : Codec) (it : ElementIteratorF) : Out (Option Element × ElementIteratorF) :=
  match it.state with
  | .start => { it with state := .nodes : ElementIteratorF }.nextNode z
  | .nodes => it.nextNode z
  | .ways => it.nextWay z
  | .relations => it.nextRelation z
  | .finished => .ok (none, it)

end OsmIo.Apidb

namespace OsmIo

/-- `examples/apidb-to-pbf.rs:19-46`, when reads of the sorted tables may fail. -/
def ApidbToPbfF (z : Zlib) (cod : Apidb.Codec) (tables : Apidb.Tables) (got : Apidb.Table → Apidb.Results) (info : FileInfo)
    (c : CompressionType) (r : Out Bytes) : Prop :=
  match Apidb.ElementIteratorF.new tables got with
  | .err => r = .err
  | .panic => r = .panic
  | .ok it =>
    (∃ es it', Spec.Iterates (Apidb.ElementIteratorF.next cod) it es it' ∧
      r = (do
        let w ← ((Writer.fromFileInfo info c).writeHeader z).writeAll z es
        .ok (w.close z).file)) ∨
    (∃ es s, Spec.Yields (Apidb.ElementIteratorF.next cod) it es s ∧
      (Apidb.ElementIteratorF.next cod s = .panic ∨ Apidb.ElementIteratorF.next cod s = .err) ∧ r = .panic)

end OsmIo
