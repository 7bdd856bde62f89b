import Verif.Model.Proto
import Verif.Spec.Block
/-!
# The published encoding of messages

The protobuf wire format, and the message tables of `osmformat.proto`/`fileformat.proto`, as a relation between a
message and byte strings. A message has many encodings: fields of different numbers may come in any order, fields with
unknown numbers may be present, also groups, lists of numbers may be packed or not or in several pieces, a
singular number may be given several times (the last counts), and numbers need not be
encoded in the shortest way. Only the structures `Pb.*` holding the contents of messages are shared
with the model, none of its functions.
-/
namespace OsmIo.Spec.Protobuf

/-- Seven bits per byte, least significant first. -/
def value : Bytes → Nat
  | [] => 0
  | b :: bs => b.toNat % 128 + 128 * value bs

/-- `bs` encodes the number `n`: at most ten bytes, all but the last one marked with the high bit. -/
structure IsVarint (n : Nat) (bs : Bytes) : Prop where
  value : value bs = n
  small : n < 2 ^ 64
  nonempty : bs ≠ []
  short : bs.length ≤ 10
  marks : ∀ i b, bs[i]? = some b → (128 ≤ b.toNat ↔ i + 1 < bs.length)

/-- `int32`, `int64`, `uint32`, `bool`, `enum`: two's complement in 64 bits. -/
def twos (n : ℤ) : Nat := (n % 2 ^ 64).toNat

/-- `sint32`, `sint64`: 0, -1, 1, -2, ... are 0, 1, 2, 3, ... -/
def zigzag (n : ℤ) : Nat := if 0 ≤ n then (2 * n).toNat else (-2 * n - 1).toNat

/-- The content of a field. -/
inductive Item where
  /-- `int32`, `int64`, `uint32`, `bool`, `enum` -/
  | int (n : ℤ)
  /-- `sint32`, `sint64` -/
  | sint (n : ℤ)
  /-- packed list of `int` -/
  | ints (ns : List ℤ)
  /-- packed list of `sint` -/
  | sints (ns : List ℤ)
  /-- `bytes`, `string`, embedded message -/
  | bytes (b : Bytes)
  /-- any eight byte number (used by no known field) -/
  | fixed64 (b : Bytes)
  /-- any four byte number (used by no known field) -/
  | fixed32 (b : Bytes)
  /-- a group (used by no known field) -/
  | group

/-- The bytes of a field's content, and its wire type. -/
inductive Payload : Item → Nat → Bytes → Prop
  | int {n b} : IsVarint (twos n) b → Payload (.int n) 0 b
  | sint {n b} : IsVarint (zigzag n) b → Payload (.sint n) 0 b
  | ints {ns bs l} : List.Forall₂ (fun n b => IsVarint (twos n) b) ns bs → IsVarint bs.flatten.length l →
      Payload (.ints ns) 2 (l ++ bs.flatten)
  | sints {ns bs l} : List.Forall₂ (fun n b => IsVarint (zigzag n) b) ns bs → IsVarint bs.flatten.length l →
      Payload (.sints ns) 2 (l ++ bs.flatten)
  | bytes {b l} : IsVarint b.length l → Payload (.bytes b) 2 (l ++ b)
  | fixed64 {b} : b.length = 8 → Payload (.fixed64 b) 1 b
  | fixed32 {b} : b.length = 4 → Payload (.fixed32 b) 5 b

/-- The fields inside a group number `num` and the mark that ends it, with groups nested in it at most `depth` deep; fields count
for one level too. -/
inductive Group : Nat → Nat → Bytes → Prop
  | stop {depth num b} : IsVarint (8 * num + 4) b → Group depth num b
  | field {depth num n item wt key b r} : 1 ≤ n → n < 2 ^ 29 → IsVarint (8 * n + wt) key → Payload item wt b → Group (depth + 1) num r →
      Group (depth + 1) num (key ++ b ++ r)
  | group {depth num n key b r} : 1 ≤ n → n < 2 ^ 29 → IsVarint (8 * n + 3) key → Group depth n b → Group (depth + 1) num r →
      Group (depth + 1) num (key ++ b ++ r)

/-- How deep groups may be nested: implementations of protobuf stop at 100 levels, and four levels of messages may be around. -/
def nesting : Nat := 96

/-- The bytes of a list of numbered fields. -/
inductive Fields : List (Nat × Item) → Bytes → Prop
  | nil : Fields [] []
  | group {num key b fs r} : 1 ≤ num → num < 2 ^ 29 → IsVarint (8 * num + 3) key → Group nesting num b → Fields fs r →
      Fields ((num, .group) :: fs) (key ++ b ++ r)
  | cons {num item key wt b fs r} : 1 ≤ num → num < 2 ^ 29 → IsVarint (8 * num + wt) key → Payload item wt b → Fields fs r →
      Fields ((num, item) :: fs) (key ++ b ++ r)

/-- The contents of the fields number `t`. -/
def numbered (t : Nat) (fs : List (Nat × Item)) : List Item := (fs.filter fun f => f.1 = t).map (·.2)

/-! ## Field rules -/

/-- An optional number of type `int32`, ...: the last one counts. -/
def OptInt (t : Nat) (fs : List (Nat × Item)) (o : Option ℤ) : Prop := ∃ ns : List ℤ, numbered t fs = ns.map .int ∧ ns.getLast? = o
/-- A required number. -/
def ReqInt (t : Nat) (fs : List (Nat × Item)) (n : ℤ) : Prop := OptInt t fs (some n)
/-- A required number of type `sint32`, `sint64`. -/
def ReqSint (t : Nat) (fs : List (Nat × Item)) (n : ℤ) : Prop := ∃ ns : List ℤ, numbered t fs = ns.map .sint ∧ ns.getLast? = some n
/-- An optional string of bytes. -/
def OptBytes (t : Nat) (fs : List (Nat × Item)) (o : Option Bytes) : Prop := ∃ bs : List Bytes, numbered t fs = bs.map .bytes ∧ bs.getLast? = o
/-- A list of byte strings. -/
def RepBytes (t : Nat) (fs : List (Nat × Item)) (bs : List Bytes) : Prop := numbered t fs = bs.map .bytes

/-- The UTF-8 encoding of a text. -/
def utf8 (s : String) : Bytes := s.toByteArray.data.toList

/-- An optional text; strings are always encoded in UTF-8. -/
def OptText (t : Nat) (fs : List (Nat × Item)) (o : Option String) : Prop :=
  ∃ ss : List String, numbered t fs = ss.map (fun s => .bytes (utf8 s)) ∧ ss.getLast? = o
/-- A list of texts. -/
def RepText (t : Nat) (fs : List (Nat × Item)) (ss : List String) : Prop := numbered t fs = ss.map fun s => .bytes (utf8 s)

/-- A piece of a list of numbers. -/
inductive IntPiece : Item → List ℤ → Prop
  | one {n} : IntPiece (.int n) [n]
  | packed {ns} : IntPiece (.ints ns) ns
/-- A piece of a list of `sint` numbers. -/
inductive SintPiece : Item → List ℤ → Prop
  | one {n} : SintPiece (.sint n) [n]
  | packed {ns} : SintPiece (.sints ns) ns

/-- A list of numbers. -/
def RepInt (t : Nat) (fs : List (Nat × Item)) (ns : List ℤ) : Prop :=
  ∃ pieces, List.Forall₂ IntPiece (numbered t fs) pieces ∧ pieces.flatten = ns
/-- A list of `sint` numbers. -/
def RepSint (t : Nat) (fs : List (Nat × Item)) (ns : List ℤ) : Prop :=
  ∃ pieces, List.Forall₂ SintPiece (numbered t fs) pieces ∧ pieces.flatten = ns

/-- An embedded message given at most once. -/
def OptMsg {α : Type} (t : Nat) (fs : List (Nat × Item)) (R : α → Bytes → Prop) : Option α → Prop
  | none => numbered t fs = []
  | some a => ∃ b, numbered t fs = [.bytes b] ∧ R a b
/-- A list of embedded messages. -/
def RepMsg {α : Type} (t : Nat) (fs : List (Nat × Item)) (R : α → Bytes → Prop) (as : List α) : Prop :=
  ∃ bs, numbered t fs = bs.map .bytes ∧ List.Forall₂ R as bs

/-- Booleans are 0 and 1. -/
def bit (b : Bool) : ℤ := if b then 1 else 0

/-! ## The messages of `osmformat.proto` -/

/-- `message StringTable`. -/
def IsStringTable (m : Pb.StringTable) (b : Bytes) : Prop := ∃ fs, Fields fs b ∧ RepBytes 1 fs m.s

/-- `message Info`. -/
def IsInfo (m : Pb.Info) (b : Bytes) : Prop := ∃ fs, Fields fs b ∧
  OptInt 1 fs (m.version.map (·.toInt)) ∧ OptInt 2 fs (m.timestamp.map (·.toInt)) ∧ OptInt 3 fs (m.changeset.map (·.toInt)) ∧
  OptInt 4 fs (m.uid.map (·.toInt)) ∧ OptInt 5 fs (m.user_sid.map (fun x => (x.toNat : ℤ))) ∧ OptInt 6 fs (m.visible.map bit)

/-- `message DenseInfo`. -/
def IsDenseInfo (m : Pb.DenseInfo) (b : Bytes) : Prop := ∃ fs, Fields fs b ∧
  RepInt 1 fs (m.version.map (·.toInt)) ∧ RepSint 2 fs (m.timestamp.map (·.toInt)) ∧ RepSint 3 fs (m.changeset.map (·.toInt)) ∧
  RepSint 4 fs (m.uid.map (·.toInt)) ∧ RepSint 5 fs (m.user_sid.map (·.toInt)) ∧ RepInt 6 fs (m.visible.map bit)

/-- `message ChangeSet`. -/
def IsChangeSet (m : Pb.ChangeSet) (b : Bytes) : Prop := ∃ fs, Fields fs b ∧ ReqInt 1 fs m.id.toInt

/-- `message Node`. -/
def IsNode (m : Pb.Node) (b : Bytes) : Prop := ∃ fs, Fields fs b ∧
  ReqSint 1 fs m.id.toInt ∧ RepInt 2 fs (m.keys.map (fun x => (x.toNat : ℤ))) ∧ RepInt 3 fs (m.vals.map (fun x => (x.toNat : ℤ))) ∧
  OptMsg 4 fs IsInfo m.info ∧ ReqSint 8 fs m.lat.toInt ∧ ReqSint 9 fs m.lon.toInt

/-- `message DenseNodes`. -/
def IsDenseNodes (m : Pb.DenseNodes) (b : Bytes) : Prop := ∃ fs, Fields fs b ∧
  RepSint 1 fs (m.id.map (·.toInt)) ∧ OptMsg 5 fs IsDenseInfo m.denseinfo ∧ RepSint 8 fs (m.lat.map (·.toInt)) ∧
  RepSint 9 fs (m.lon.map (·.toInt)) ∧ RepInt 10 fs (m.keys_vals.map (·.toInt))

/-- `message Way`. -/
def IsWay (m : Pb.Way) (b : Bytes) : Prop := ∃ fs, Fields fs b ∧
  ReqInt 1 fs m.id.toInt ∧ RepInt 2 fs (m.keys.map (fun x => (x.toNat : ℤ))) ∧ RepInt 3 fs (m.vals.map (fun x => (x.toNat : ℤ))) ∧
  OptMsg 4 fs IsInfo m.info ∧ RepSint 8 fs (m.refs.map (·.toInt)) ∧ RepSint 9 fs (m.lat.map (·.toInt)) ∧ RepSint 10 fs (m.lon.map (·.toInt))

/-- `message Relation`. -/
def IsRelation (m : Pb.Relation) (b : Bytes) : Prop := ∃ fs, Fields fs b ∧
  ReqInt 1 fs m.id.toInt ∧ RepInt 2 fs (m.keys.map (fun x => (x.toNat : ℤ))) ∧ RepInt 3 fs (m.vals.map (fun x => (x.toNat : ℤ))) ∧
  OptMsg 4 fs IsInfo m.info ∧ RepInt 8 fs (m.roles_sid.map (·.toInt)) ∧ RepSint 9 fs (m.memids.map (·.toInt)) ∧
  RepInt 10 fs (m.types.map (·.toInt))

/-- `message PrimitiveGroup`. -/
def IsPrimitiveGroup (m : Pb.PrimitiveGroup) (b : Bytes) : Prop := ∃ fs, Fields fs b ∧
  RepMsg 1 fs IsNode m.nodes ∧ OptMsg 2 fs IsDenseNodes m.dense ∧ RepMsg 3 fs IsWay m.ways ∧ RepMsg 4 fs IsRelation m.relations ∧
  RepMsg 5 fs IsChangeSet m.changesets

/-- `message PrimitiveBlock`. -/
def IsPrimitiveBlock (m : Pb.PrimitiveBlock) (b : Bytes) : Prop := ∃ fs, Fields fs b ∧
  OptMsg 1 fs IsStringTable (some m.stringtable) ∧ RepMsg 2 fs IsPrimitiveGroup m.primitivegroup ∧
  OptInt 17 fs (m.granularity.map (·.toInt)) ∧ OptInt 18 fs (m.date_granularity.map (·.toInt)) ∧
  OptInt 19 fs (m.lat_offset.map (·.toInt)) ∧ OptInt 20 fs (m.lon_offset.map (·.toInt))

/-- `message HeaderBBox`. -/
def IsHeaderBBox (m : Pb.HeaderBBox) (b : Bytes) : Prop := ∃ fs, Fields fs b ∧
  ReqSint 1 fs m.left.toInt ∧ ReqSint 2 fs m.right.toInt ∧ ReqSint 3 fs m.top.toInt ∧ ReqSint 4 fs m.bottom.toInt

/-- `message HeaderBlock`. -/
def IsHeaderBlock (m : Pb.HeaderBlock) (b : Bytes) : Prop := ∃ fs, Fields fs b ∧
  OptMsg 1 fs IsHeaderBBox m.bbox ∧ RepText 4 fs m.required_features ∧ RepText 5 fs m.optional_features ∧
  OptText 16 fs m.writingprogram ∧ OptText 17 fs m.source ∧
  OptInt 32 fs (m.osmosis_replication_timestamp.map (·.toInt)) ∧
  OptInt 33 fs (m.osmosis_replication_sequence_number.map (·.toInt)) ∧ OptText 34 fs m.osmosis_replication_base_url

/-! ## The messages of `fileformat.proto` -/

/-- `message BlobHeader`. -/
def IsBlobHeader (m : Pb.BlobHeader) (b : Bytes) : Prop := ∃ fs, Fields fs b ∧
  OptText 1 fs (some m.type) ∧ OptBytes 2 fs m.indexdata ∧ ReqInt 3 fs m.datasize.toInt

/-- A `Blob` with the block stored as it is. -/
def IsRawBlob (data : Bytes) (b : Bytes) : Prop := ∃ fs, Fields fs b ∧ OptBytes 1 fs (some data) ∧ (∃ o, OptInt 2 fs o) ∧
  ∀ t ∈ [3, 4, 5, 6, 7], numbered t fs = []

/-- A `Blob` with the block compressed with zlib; `raw_size` is its size before compression. -/
def IsZlibBlob (raw_size : ℤ) (compressed : Bytes) (b : Bytes) : Prop := ∃ fs, Fields fs b ∧ ReqInt 2 fs raw_size ∧
  OptBytes 3 fs (some compressed) ∧ ∀ t ∈ [1, 4, 5, 6, 7], numbered t fs = []

/-- A `Blob` that holds its block neither as it is (field 1) nor compressed with zlib (field 3): it is compressed by another method (lzma,
bzip2, lz4, zstd), or missing. -/
def IsForeignBlob (b : Bytes) : Prop := ∃ fs, Fields fs b ∧ numbered 1 fs = [] ∧ numbered 3 fs = []

end OsmIo.Spec.Protobuf
