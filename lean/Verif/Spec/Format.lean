import Verif.Model.Proto
import Verif.Spec.Block
/-!
# The published meaning of a data block

What a `PrimitiveBlock` message of the OSM PBF format (`osmformat.proto`, whose messages are the structures
`Pb.*`) says about elements: entry by entry, with plain integer sums instead of running
differences. Nothing here refers to the functions that read or write blocks.
-/
namespace OsmIo.Spec.Format

/-- The sum of the entries `0, .., i` of a delta coded column. -/
def sum64 (ds : List Int64) (i : Nat) : ℤ := ((ds.take (i + 1)).map Int64.toInt).sum

/-- The same for a column of 32 bit numbers. -/
def sum32 (ds : List Int32) (i : Nat) : ℤ := ((ds.take (i + 1)).map Int32.toInt).sum

/-- Entry number `i` of the string table of the block is the UTF-8 encoding of `s`. -/
def Entry (p : Pb.PrimitiveBlock) (i : ℤ) (s : String) : Prop :=
  ∃ n : Nat, i = n ∧ p.stringtable.s[n]? = some s.toByteArray.data.toList

/-- Units of the block; the defaults are those of `osmformat.proto`. -/
def granularity (p : Pb.PrimitiveBlock) : ℤ := (p.granularity.getD 100).toInt
/-- Milliseconds per unit of time; default 1000. -/
def dateGranularity (p : Pb.PrimitiveBlock) : ℤ := (p.date_granularity.getD 1000).toInt
/-- Nanodegrees. -/
def latOffset (p : Pb.PrimitiveBlock) : ℤ := (p.lat_offset.getD 0).toInt
/-- Nanodegrees. -/
def lonOffset (p : Pb.PrimitiveBlock) : ℤ := (p.lon_offset.getD 0).toInt

/-- `c` is the double nearest to `n` nanodegrees (`n` small enough to be a double itself). -/
def Degrees (n : ℤ) (c : F64) : Prop := |n| ≤ 2 ^ 53 ∧ c = rnd (n / 10 ^ 9)

/-- The coordinate stored as `lat`, `lon`. -/
def Position (p : Pb.PrimitiveBlock) (lat lon : ℤ) (c : Coordinate) : Prop :=
  Degrees (latOffset p + granularity p * lat) c.lat ∧ Degrees (lonOffset p + granularity p * lon) c.lon

/-- Parallel columns of keys and values. -/
def Tags (p : Pb.PrimitiveBlock) (keys vals : List UInt32) (tags : List Tag) : Prop :=
  ∃ pairs : List (UInt32 × UInt32), keys = pairs.map (·.1) ∧ vals = pairs.map (·.2) ∧
    List.Forall₂ (fun kv t => Entry p kv.1.toNat t.k ∧ Entry p kv.2.toNat t.v) pairs tags

/-- The part of `keys_vals` of one dense node: indices of key and value alternating, no key is 0. -/
def KeysVals (p : Pb.PrimitiveBlock) (codes : List Int32) (tags : List Tag) : Prop :=
  ∃ pairs : List (Int32 × Int32), codes = pairs.flatMap (fun kv => [kv.1, kv.2]) ∧
    List.Forall₂ (fun kv t => kv.1 ≠ 0 ∧ Entry p kv.1.toInt t.k ∧ Entry p kv.2.toInt t.v) pairs tags

/-- Metadata of a node, way or relation that has some: an absent visible flag means visible. -/
structure Info (p : Pb.PrimitiveBlock) (info : Pb.Info) (version : Int32) (timestamp changeset : Int64) (uid : Int32) (user : String)
    (visible : Bool) : Prop where
  version : info.version = some version
  timestamp : ∃ t : Int64, info.timestamp = some t ∧ timestamp.toInt = dateGranularity p * t.toInt
  changeset : info.changeset = some changeset
  uid : info.uid = some uid
  user : ∃ i : UInt32, info.user_sid = some i ∧ Entry p i.toNat user
  visible : info.visible = some visible ∨ (info.visible = none ∧ visible = true)

/-- Metadata of dense node number `i`. -/
structure DenseInfo (p : Pb.PrimitiveBlock) (info : Pb.DenseInfo) (i : Nat) (n : Node) : Prop where
  version : info.version[i]? = some n.version
  timestamp : i < info.timestamp.length ∧ n.timestamp.toInt = dateGranularity p * sum64 info.timestamp i
  changeset : i < info.changeset.length ∧ n.changeset.toInt = sum64 info.changeset i
  uid : i < info.uid.length ∧ n.uid.toInt = sum32 info.uid i
  user : i < info.user_sid.length ∧ Entry p (sum32 info.user_sid i) n.user
  visible : info.visible[i]? = some n.visible ∨ (info.visible = [] ∧ n.visible = true)

/-- The nodes of a `DenseNodes` message. -/
structure Dense (p : Pb.PrimitiveBlock) (d : Pb.DenseNodes) (ns : List Node) : Prop where
  count : d.id.length = ns.length
  id : ∀ i n, ns[i]? = some n → n.id.toInt = sum64 d.id i
  position : ∀ i n, ns[i]? = some n →
    i < d.lat.length ∧ i < d.lon.length ∧ Position p (sum64 d.lat i) (sum64 d.lon i) n.coordinate
  info : ∃ inf, d.denseinfo = some inf ∧ ∀ i n, ns[i]? = some n → DenseInfo p inf i n
  /-- either no node has tags and the column is empty, or the parts of the nodes follow each other, each ended by a 0 -/
  tags : (d.keys_vals = [] ∧ ∀ n ∈ ns, n.tags = []) ∨
    ∃ parts : List (List Int32), d.keys_vals = parts.flatMap (fun c => c ++ [0]) ∧
      List.Forall₂ (fun codes n => KeysVals p codes n.tags) parts ns

/-- A plain node. -/
structure PlainNode (p : Pb.PrimitiveBlock) (m : Pb.Node) (n : Node) : Prop where
  id : n.id = m.id
  position : Position p m.lat.toInt m.lon.toInt n.coordinate
  info : ∃ inf, m.info = some inf ∧ Info p inf n.version n.timestamp n.changeset n.uid n.user n.visible
  tags : Tags p m.keys m.vals n.tags

/-- A way; the references are delta coded. -/
structure WayIs (p : Pb.PrimitiveBlock) (m : Pb.Way) (w : Way) : Prop where
  id : w.id = m.id
  refs_length : w.refs.length = m.refs.length
  refs : ∀ i (r : Int64), w.refs[i]? = some r → r.toInt = sum64 m.refs i
  info : ∃ inf, m.info = some inf ∧ Info p inf w.version w.timestamp w.changeset w.uid w.user w.visible
  tags : Tags p m.keys m.vals w.tags

/-- Type number, id and role of a member: `NODE = 0`, `WAY = 1`, `RELATION = 2`. -/
def memberParts : Member → Int32 × Int64 × String
  | .node m => (0, m.id, m.role)
  | .way m => (1, m.id, m.role)
  | .relation m => (2, m.id, m.role)

/-- A relation; the member ids are delta coded. -/
structure RelationIs (p : Pb.PrimitiveBlock) (m : Pb.Relation) (r : Relation) : Prop where
  id : r.id = m.id
  memids_length : m.memids.length = r.members.length
  types : m.types = r.members.map fun x => (memberParts x).1
  memids : ∀ i x, r.members[i]? = some x → (memberParts x).2.1.toInt = sum64 m.memids i
  roles : List.Forall₂ (fun k x => Entry p k.toInt (memberParts x).2.2) m.roles_sid r.members
  info : ∃ inf, m.info = some inf ∧ Info p inf r.version r.timestamp r.changeset r.uid r.user r.visible
  tags : Tags p m.keys m.vals r.tags

/-- The elements of a group (the format wants one kind per group; here several kinds are taken in this order). -/
def Group (p : Pb.PrimitiveBlock) (g : Pb.PrimitiveGroup) (es : List Element) : Prop :=
  g.changesets = [] ∧ ∃ (dns ns : List Node) (ws : List Way) (rs : List Relation),
    es = dns.map .node ++ ns.map .node ++ ws.map .way ++ rs.map .relation ∧
    (match g.dense with
     | none => dns = []
     | some d => Dense p d dns) ∧
    List.Forall₂ (PlainNode p) g.nodes ns ∧ List.Forall₂ (WayIs p) g.ways ws ∧ List.Forall₂ (RelationIs p) g.relations rs

/-- The block says that `es` are its elements: every string of the table is text, and the groups follow each other. -/
structure Block (p : Pb.PrimitiveBlock) (es : List Element) : Prop where
  strings : ∀ b ∈ p.stringtable.s, ∃ s : String, b = s.toByteArray.data.toList
  strings_count : p.stringtable.s.length < 2 ^ 31
  groups : ∃ gs : List (List Element), es = gs.flatten ∧ List.Forall₂ (Group p) p.primitivegroup gs

end OsmIo.Spec.Format

namespace OsmIo.Spec.Format

/-- Numbers whose differences fit: ids, changesets, references within ±2^62, user ids within ±2^30. -/
def Moderate64 (x : Int64) : Prop := |x.toInt| < 2 ^ 62
/-- The same for user ids. -/
def Moderate32 (x : Int32) : Prop := |x.toInt| < 2 ^ 30

/-- An element whose delta coded numbers have representable differences. -/
def Moderate : Element → Prop
  | .node n => Moderate64 n.id ∧ Moderate64 n.changeset ∧ Moderate32 n.uid
  | .way w => ∀ r ∈ w.refs, Moderate64 r
  | .relation r => ∀ m ∈ r.members, Moderate64 (memberParts m).2.1
  | .sentinel => True

/-- A number of type `i64`. -/
def Fits64 (n : ℤ) : Prop := -2 ^ 63 ≤ n ∧ n < 2 ^ 63
/-- A number of type `i32`. -/
def Fits32 (n : ℤ) : Prop := -2 ^ 31 ≤ n ∧ n < 2 ^ 31

/-- What is stored for a node after another node: the differences of ids, changesets and user ids fit. -/
def NodeStep (n m : Node) : Prop :=
  Fits64 (m.id.toInt - n.id.toInt) ∧ Fits64 (m.changeset.toInt - n.changeset.toInt) ∧ Fits32 (m.uid.toInt - n.uid.toInt)

/-- The same for a list of references, the first of which is stored as it is. -/
def RefSteps (refs : List Int64) : Prop := refs.IsChain fun a b => Fits64 (b.toInt - a.toInt)

/-- All differences a writer has to form for a block of these elements fit: between one node and the next node, between one reference of
a way and the next, between one member of a relation and the next. -/
def Steps (es : List Element) : Prop :=
  (es.filterMap fun | .node n => some n | _ => none).IsChain NodeStep ∧ (∀ w, .way w ∈ es → RefSteps w.refs) ∧
    ∀ r, .relation r ∈ es → RefSteps (r.members.map fun m => (memberParts m).2.1)

end OsmIo.Spec.Format
