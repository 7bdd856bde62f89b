import Verif.Model.ApidbToc
import Verif.Spec.ApidbRead
import Verif.Spec.Block
/-!
# Specification vocabulary for writing a dump and reading it back
-/
namespace OsmIo.Spec
open OsmIo.Text OsmIo.Sql OsmIo.Apidb

/-- Escaping loses nothing and hides tabs and newlines. -/
structure Faithful (z : Codec) : Prop where
  unescape : ∀ s, z.unescape (z.escape s) = some s
  tab : ∀ s, '\t' ∉ z.escape s
  newline : ∀ s, '\n' ∉ z.escape s

/-- The elements a dump can hold: no two objects of a type share id and version, coordinates are degrees,
user names (which are not escaped) contain neither tabs nor newlines, and positions in lists fit `i64`. -/
structure Storable (es : List Element) : Prop where
  nodes : (nodesOf es).Pairwise fun a b => ¬ (a.id = b.id ∧ a.version = b.version)
  ways : (waysOf es).Pairwise fun a b => ¬ (a.id = b.id ∧ a.version = b.version)
  relations : (relationsOf es).Pairwise fun a b => ¬ (a.id = b.id ∧ a.version = b.version)
  coordinates : ∀ n ∈ nodesOf es, |n.coordinate.lat| ≤ 90 ∧ |n.coordinate.lon| ≤ 180
  names : ∀ p ∈ userNames es, '\t' ∉ p.2.toList ∧ '\n' ∉ p.2.toList
  refs : ∀ w ∈ waysOf es, w.refs.length < 2 ^ 63 - 1
  members : ∀ r ∈ relationsOf es, r.members.length < 2 ^ 63 - 1

/-- The sorted copy of each table that is read. -/
def SortedCopy (le : Text → Text → Prop) (files sorted : Table → Text) : Prop :=
  ∀ t d f, dumpTables t = some (d, f) → Sorted le d.key (files t) (sorted t)

/-- `t'` is `t` rounded down to whole seconds. -/
def FlooredToSecond (t t' : Int64) : Prop :=
  ∃ s : ℤ, t'.toInt = 1000 * s ∧ 1000 * s ≤ t.toInt ∧ t.toInt < 1000 * (s + 1)

/-- The user of a changeset according to the last elements written: id and name. -/
def OwnerIn (es : List Element) (changeset : Int64) (uid : Int32) (user : String) : Prop :=
  ∃ u, lastValue (changesetUsers es) changeset = some u ∧ uid = u.toInt32 ∧ lastValue (userNames es) u = some user

/-- The order in which members come back: by type, id, role. -/
def MemberLe (z : Codec) (le : Text → Text → Prop) (a b : Member) : Prop :=
  le (memberType a) (memberType b) ∧ (le (memberType b) (memberType a) →
    memberId a < memberId b ∨ (memberId a = memberId b ∧ le (z.escape (memberRole a)) (z.escape (memberRole b))))

/-- The order in which tags come back: by key. -/
def TagLe (z : Codec) (le : Text → Text → Prop) (a b : Tag) : Prop := le (z.escape a.k) (z.escape b.k)

/-- How a node comes back. That the coordinates are those next to the old ones is `lat` and `lon`; `place` says which of two equally near, and that nothing else has a say in it. -/
structure NodeBack (z : Codec) (le : Text → Text → Prop) (es : List Element) (n n' : Node) : Prop where
  lat : Quantised n.coordinate.lat n'.coordinate.lat
  lon : Quantised n.coordinate.lon n'.coordinate.lon
  place : n'.coordinate = ⟨F64.div ((Int32.ofInt n.coordinate.lat7.toInt).toInt : F64) 10000000, F64.div ((Int32.ofInt n.coordinate.lon7.toInt).toInt : F64) 10000000⟩
  time : FlooredToSecond n.timestamp n'.timestamp
  owner : OwnerIn es n.changeset n'.uid n'.user
  tags : n'.tags.Perm n.tags ∧ n'.tags.Pairwise (TagLe z le)
  rest : n' = { n with
    coordinate := n'.coordinate, timestamp := n'.timestamp, uid := n'.uid, user := n'.user, tags := n'.tags }

/-- How a way comes back. -/
structure WayBack (z : Codec) (le : Text → Text → Prop) (es : List Element) (w w' : Way) : Prop where
  time : FlooredToSecond w.timestamp w'.timestamp
  owner : OwnerIn es w.changeset w'.uid w'.user
  tags : w'.tags.Perm w.tags ∧ w'.tags.Pairwise (TagLe z le)
  rest : w' = { w with timestamp := w'.timestamp, uid := w'.uid, user := w'.user, tags := w'.tags }

/-- How a relation comes back. -/
structure RelationBack (z : Codec) (le : Text → Text → Prop) (es : List Element) (r r' : Relation) : Prop where
  time : FlooredToSecond r.timestamp r'.timestamp
  owner : OwnerIn es r.changeset r'.uid r'.user
  tags : r'.tags.Perm r.tags ∧ r'.tags.Pairwise (TagLe z le)
  members : r'.members.Perm r.members ∧ r'.members.Pairwise (MemberLe z le)
  kept : r.members.Pairwise (MemberLe z le) → r'.members = r.members
  rest : r' = { r with
    timestamp := r'.timestamp, uid := r'.uid, user := r'.user, tags := r'.tags, members := r'.members }

/-- Ascending order of ids and versions. -/
def KeyBefore (a b : Int64 × Int32) : Prop := a.1 < b.1 ∨ (a.1 = b.1 ∧ a.2 < b.2)

/-- One user for each changeset and one name for each user. -/
structure Consistent (es : List Element) : Prop where
  changesets : ∀ p ∈ changesetUsers es, ∀ q ∈ changesetUsers es, p.1 = q.1 → p.2 = q.2
  users : ∀ p ∈ userNames es, ∀ q ∈ userNames es, p.1 = q.1 → p.2 = q.2

/-- What comes back of the elements `es`: the nodes `ns'`, ways `ws'` and relations `rs'`. `ns`, `ws` and `rs` are
the elements written, in ascending order of id and version. -/
structure Back (z : Codec) (le : Text → Text → Prop) (es : List Element) (ns ns' : List Node) (ws ws' : List Way)
    (rs rs' : List Relation) : Prop where
  nodes : ns.Perm (nodesOf es) ∧ (ns.Pairwise fun a b => KeyBefore (a.id, a.version) (b.id, b.version)) ∧
    List.Forall₂ (NodeBack z le es) ns ns'
  ways : ws.Perm (waysOf es) ∧ (ws.Pairwise fun a b => KeyBefore (a.id, a.version) (b.id, b.version)) ∧
    List.Forall₂ (WayBack z le es) ws ws'
  relations : rs.Perm (relationsOf es) ∧ (rs.Pairwise fun a b => KeyBefore (a.id, a.version) (b.id, b.version)) ∧
    List.Forall₂ (RelationBack z le es) rs rs'

/-- The tags of an element. -/
def tagsOf : Element → List Tag
  | .node n => n.tags
  | .way w => w.tags
  | .relation r => r.tags
  | .sentinel => []

end OsmIo.Spec
