import Verif.Spec.FormatFile
/-!
# Complete blocks

When a `PrimitiveBlock` message, whatever it says, refers only to strings it has and has all the entries its columns need.
Nothing here refers to the functions that read blocks.
-/
namespace OsmIo.Spec.Format
open Spec.Protobuf

/-- The string table has an entry number `i`. -/
def InTable (p : Pb.PrimitiveBlock) (i : ℤ) : Prop := 0 ≤ i ∧ i < p.stringtable.s.length

/-- Each key has a value, and both are in the string table. Superfluous values do not matter. -/
def CompleteTags (p : Pb.PrimitiveBlock) (keys vals : List UInt32) : Prop :=
  ∀ (i : Nat) (k : UInt32), keys[i]? = some k → InTable p k.toNat ∧ ∃ v : UInt32, vals[i]? = some v ∧ InTable p v.toNat

/-- The user is in the string table; without a number it is entry 0. -/
def CompleteInfo (p : Pb.PrimitiveBlock) (info : Option Pb.Info) : Prop :=
  ∀ inf, info = some inf → InTable p (inf.user_sid.getD 0).toNat

/-- The column of the tags of dense nodes: pairs of key and value. -/
def pairCodes (pairs : List (Int32 × Int32)) : List Int32 := pairs.flatMap fun kv => [kv.1, kv.2]

/-- No key is 0, keys and values are in the string table. -/
def CompletePairs (p : Pb.PrimitiveBlock) (pairs : List (Int32 × Int32)) : Prop :=
  ∀ kv ∈ pairs, kv.1 ≠ 0 ∧ InTable p kv.1.toInt ∧ InTable p kv.2.toInt

/-- The tags of `n` dense nodes: a part for each, ended by 0, and perhaps more that belongs to none of them; or the column
ends early, the last part without its 0, and the remaining nodes have no tags. -/
def CompleteKeysVals (p : Pb.PrimitiveBlock) (n : Nat) (codes : List Int32) : Prop :=
  (∃ (parts : List (List (Int32 × Int32))) (rest : List Int32), parts.length = n ∧ (∀ q ∈ parts, CompletePairs p q) ∧
    codes = parts.flatMap (fun q => pairCodes q ++ [0]) ++ rest) ∨
  ∃ (parts : List (List (Int32 × Int32))) (last : List (Int32 × Int32)), parts.length < n ∧ (∀ q ∈ parts, CompletePairs p q) ∧
    CompletePairs p last ∧ codes = parts.flatMap (fun q => pairCodes q ++ [0]) ++ pairCodes last

/-- Dense nodes: every column has an entry for every id (the visible flags may be missing), the users (numbers of 32 bits) and the tags are in the string table. -/
def CompleteDense (p : Pb.PrimitiveBlock) (d : Pb.DenseNodes) : Prop :=
  (∀ i < d.id.length, i < d.lat.length ∧ i < d.lon.length ∧ ∀ inf, d.denseinfo = some inf →
    i < inf.version.length ∧ i < inf.timestamp.length ∧ i < inf.changeset.length ∧ i < inf.uid.length ∧ i < inf.user_sid.length ∧
    InTable p ((sum32 inf.user_sid i).bmod (2 ^ 32))) ∧
  CompleteKeysVals p d.id.length d.keys_vals

/-- Each member has a role in the string table and one of the three types. -/
def CompleteMembers (p : Pb.PrimitiveBlock) (memids : List Int64) (roles types : List Int32) : Prop :=
  ∀ i < memids.length, (∃ r : Int32, roles[i]? = some r ∧ InTable p r.toInt) ∧
    (types[i]? = some 0 ∨ types[i]? = some 1 ∨ types[i]? = some 2)

/-- A group without changesets, all of it complete. -/
def CompleteGroup (p : Pb.PrimitiveBlock) (g : Pb.PrimitiveGroup) : Prop :=
  (∀ d, g.dense = some d → CompleteDense p d) ∧
  (∀ n ∈ g.nodes, CompleteInfo p n.info ∧ CompleteTags p n.keys n.vals) ∧
  (∀ w ∈ g.ways, CompleteInfo p w.info ∧ CompleteTags p w.keys w.vals) ∧
  (∀ r ∈ g.relations, CompleteInfo p r.info ∧ CompleteMembers p r.memids r.roles_sid r.types ∧ CompleteTags p r.keys r.vals) ∧
  g.changesets = []

/-- All strings of the table are text, all groups complete. -/
def Complete (p : Pb.PrimitiveBlock) : Prop :=
  (∀ b ∈ p.stringtable.s, ∃ s : String, b = s.toByteArray.data.toList) ∧ ∀ g ∈ p.primitivegroup, CompleteGroup p g

/-- The number of dense nodes of a group. -/
def denseCount : Option Pb.DenseNodes → Nat
  | none => 0
  | some d => d.id.length

/-- The number of elements of a block. -/
def elementCount (p : Pb.PrimitiveBlock) : Nat :=
  (p.primitivegroup.map fun g => denseCount g.dense + g.nodes.length + g.ways.length +
    g.relations.length).sum

/-- A blob compressed with zlib that does not say how long its block is, or gives a negative length. -/
def IsUnsizedBlob (b : Bytes) : Prop := ∃ (fs : List (Nat × Item)) (c : Bytes) (size : Option Int32), Fields fs b ∧ OptInt 2 fs (size.map Int32.toInt) ∧
  (∀ n, size = some n → n.toInt < 0) ∧ OptBytes 3 fs (some c) ∧ ∀ t ∈ [1, 4, 5, 6, 7], numbered t fs = []

/-- A data frame holding the message `p`, complete or not (a `Vec` has fewer than 2^63 entries). -/
def IsMessageFrame (inflates : Inflates) (p : Pb.PrimitiveBlock) (b : Bytes) : Prop :=
  ∃ data, IsFrame inflates "OSMData" data b ∧ IsPrimitiveBlock p data ∧ p.stringtable.s.length < 2 ^ 63

end OsmIo.Spec.Format
