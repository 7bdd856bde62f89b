import Verif.Spec.Complete
/-!
# What any data block says

The elements of any `PrimitiveBlock` message that is complete, however unusual: missing fields, sums too large for their
type, flags or tags that end early. Sums are taken modulo 2^64 (2^32 for user numbers), as in a build without overflow checks.
Nothing here refers to the functions that read blocks.
-/
namespace OsmIo.Spec.Meaning
open Spec.Format (sum64 sum32 Entry granularity dateGranularity latOffset lonOffset memberParts)

/-- `n` as an `i64`, modulo 2^64. -/
def wrap64 (n : ℤ) : Int64 := Int64.ofInt n
/-- `n` as an `i32`, modulo 2^32. -/
def wrap32 (n : ℤ) : Int32 := Int32.ofInt n

/-- Nanodegrees in degrees: an `i64`, taken as a double, divided by 10^9. -/
def degrees (n : ℤ) : F64 := rnd (rnd (wrap64 n).toInt / 10 ^ 9)

/-- The coordinate stored as `lat`, `lon`. -/
def position (p : Pb.PrimitiveBlock) (lat lon : ℤ) : Coordinate :=
  ⟨degrees (latOffset p + granularity p * lat), degrees (lonOffset p + granularity p * lon)⟩

/-- The `n`th of `bs` has the property, with the `n`th of `as`, and there are as many. -/
def Each {α β : Type} (as : List α) (bs : List β) (P : Nat → α → β → Prop) : Prop :=
  bs.length = as.length ∧ ∀ i a b, as[i]? = some a → bs[i]? = some b → P i a b

/-- Tags in two columns; superfluous values do not matter. -/
def Tags (p : Pb.PrimitiveBlock) (keys vals : List UInt32) (tags : List Tag) : Prop :=
  Each keys tags fun i k t => Entry p k.toNat t.k ∧ ∃ v : UInt32, vals[i]? = some v ∧ Entry p v.toNat t.v

/-- Metadata of a node, way or relation. -/
structure Info (p : Pb.PrimitiveBlock) (info : Option Pb.Info) (version : Int32) (timestamp changeset : Int64) (uid : Int32) (user : String)
    (visible : Bool) : Prop where
  none : info = none → version = 0 ∧ timestamp = -1 ∧ changeset = -1 ∧ uid = -1 ∧ user = "" ∧ visible = true
  some : ∀ inf, info = some inf → version = inf.version.getD (-1) ∧ timestamp = wrap64 (dateGranularity p * (inf.timestamp.getD 0).toInt) ∧
    changeset = inf.changeset.getD (-1) ∧ uid = inf.uid.getD (-1) ∧ Entry p (inf.user_sid.getD 0).toNat user ∧ visible = inf.visible.getD true

/-- Metadata of dense node number `i`. -/
structure DenseInfo (p : Pb.PrimitiveBlock) (info : Option Pb.DenseInfo) (i : Nat) (n : Node) : Prop where
  none : info = none → n.version = 0 ∧ n.timestamp = 0 ∧ n.changeset = -1 ∧ n.uid = -1 ∧ n.user = "" ∧ n.visible = true
  some : ∀ inf, info = some inf →
    inf.version[i]? = some n.version ∧
    (i < inf.timestamp.length ∧ n.timestamp = wrap64 (dateGranularity p * sum64 inf.timestamp i)) ∧
    (i < inf.changeset.length ∧ n.changeset = wrap64 (sum64 inf.changeset i)) ∧
    (i < inf.uid.length ∧ n.uid = wrap32 (sum32 inf.uid i)) ∧
    (i < inf.user_sid.length ∧ Entry p (wrap32 (sum32 inf.user_sid i)).toInt n.user) ∧
    n.visible = (inf.visible[i]?).getD true

/-- The tags of one dense node: `kv` are pairs of key and value. -/
def Pairs (p : Pb.PrimitiveBlock) (pairs : List (Int32 × Int32)) (tags : List Tag) : Prop :=
  List.Forall₂ (fun kv t => kv.1 ≠ 0 ∧ Entry p kv.1.toInt t.k ∧ Entry p kv.2.toInt t.v) pairs tags

/-- The tags of some dense nodes, in the column `codes`. -/
inductive DenseTags (p : Pb.PrimitiveBlock) : List Int32 → List (List Tag) → Prop
  /-- No node is left; what remains of the column belongs to none. -/
  | nil (rest : List Int32) : DenseTags p rest []
  /-- The tags of a node end with 0. -/
  | node {pairs tags rest more} : Pairs p pairs tags → DenseTags p rest more →
      DenseTags p (pairs.flatMap (fun kv => [kv.1, kv.2]) ++ 0 :: rest) (tags :: more)
  /-- The column ends without a 0. The remaining nodes have no tags. -/
  | last {pairs tags} (n : Nat) : Pairs p pairs tags →
      DenseTags p (pairs.flatMap fun kv => [kv.1, kv.2]) (tags :: List.replicate n [])

/-- The nodes of a `DenseNodes` message. -/
structure Dense (p : Pb.PrimitiveBlock) (d : Pb.DenseNodes) (ns : List Node) : Prop where
  count : ns.length = d.id.length
  id : ∀ i n, ns[i]? = some n → n.id = wrap64 (sum64 d.id i)
  position : ∀ i n, ns[i]? = some n → i < d.lat.length ∧ i < d.lon.length ∧ n.coordinate = position p (sum64 d.lat i) (sum64 d.lon i)
  info : ∀ i n, ns[i]? = some n → DenseInfo p d.denseinfo i n
  tags : DenseTags p d.keys_vals (ns.map Node.tags)

/-- A plain node. -/
structure PlainNode (p : Pb.PrimitiveBlock) (m : Pb.Node) (n : Node) : Prop where
  id : n.id = m.id
  position : n.coordinate = position p m.lat.toInt m.lon.toInt
  info : Info p m.info n.version n.timestamp n.changeset n.uid n.user n.visible
  tags : Tags p m.keys m.vals n.tags

/-- A way. -/
structure WayIs (p : Pb.PrimitiveBlock) (m : Pb.Way) (w : Way) : Prop where
  id : w.id = m.id
  refs : Each m.refs w.refs fun i _ r => r = wrap64 (sum64 m.refs i)
  info : Info p m.info w.version w.timestamp w.changeset w.uid w.user w.visible
  tags : Tags p m.keys m.vals w.tags

/-- A relation; superfluous types and roles do not matter. -/
structure RelationIs (p : Pb.PrimitiveBlock) (m : Pb.Relation) (r : Relation) : Prop where
  id : r.id = m.id
  members : Each m.memids r.members fun i _ x => m.types[i]? = some (memberParts x).1 ∧ (memberParts x).2.1 = wrap64 (sum64 m.memids i) ∧
    ∃ k : Int32, m.roles_sid[i]? = some k ∧ Entry p k.toInt (memberParts x).2.2
  info : Info p m.info r.version r.timestamp r.changeset r.uid r.user r.visible
  tags : Tags p m.keys m.vals r.tags

/-- The elements of a group without changesets: dense nodes, nodes, ways, relations. -/
def Group (p : Pb.PrimitiveBlock) (g : Pb.PrimitiveGroup) (es : List Element) : Prop :=
  g.changesets = [] ∧ ∃ (dns ns : List Node) (ws : List Way) (rs : List Relation),
    es = dns.map .node ++ ns.map .node ++ ws.map .way ++ rs.map .relation ∧
    (g.dense = none → dns = []) ∧ (∀ d, g.dense = some d → Dense p d dns) ∧
    List.Forall₂ (PlainNode p) g.nodes ns ∧ List.Forall₂ (WayIs p) g.ways ws ∧ List.Forall₂ (RelationIs p) g.relations rs

/-- The block says that `es` are its elements: every string of the table is text, and the groups follow each other. -/
def Block (p : Pb.PrimitiveBlock) (es : List Element) : Prop :=
  (∀ b ∈ p.stringtable.s, ∃ s : String, b = s.toByteArray.data.toList) ∧
  ∃ gs : List (List Element), es = gs.flatten ∧ List.Forall₂ (Group p) p.primitivegroup gs

end OsmIo.Spec.Meaning
