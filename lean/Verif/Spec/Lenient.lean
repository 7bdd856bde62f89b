import Verif.Spec.Protobuf
/-!
# What a byte string says, if it says anything

The rules by which any byte string at all is read as a message, or not at all: which byte strings are lists of fields, and what the
fields of each message mean. Unlike `Spec.Protobuf`, which says how messages are to be written, these rules also tell
what a reader makes of messages nobody should write: required fields may be missing, numbers too large for their type lose their upper bits, and the pieces
of an embedded message given several times are joined. A byte string is not a message when it is not a list of fields, when a
known field has content of another kind, or when a text is not UTF-8. Only the structures `Pb.*` holding the contents of
messages are shared with the model, none of its functions.
-/
namespace OsmIo.Spec.Lenient
open Spec.Protobuf (IsVarint Group utf8)

/-- The content of a field, by wire type. -/
inductive Content where
  /-- wire type 0 -/
  | number (n : Nat)
  /-- wire type 1 -/
  | fixed64 (b : Bytes)
  /-- wire type 2 -/
  | bytes (b : Bytes)
  /-- wire type 5 -/
  | fixed32 (b : Bytes)
  /-- wire types 3 and 4 -/
  | group
  deriving DecidableEq

/-- A numbered field. -/
abbrev Entry := Nat × Content

/-- The bytes of a field number `num` without its key, and its wire type; groups are nested at most `depth` deep. -/
inductive Encodes (depth num : Nat) : Content → Nat → Bytes → Prop
  | number {n b} : IsVarint n b → Encodes depth num (.number n) 0 b
  | fixed64 {b} : b.length = 8 → Encodes depth num (.fixed64 b) 1 b
  | bytes {b l} : IsVarint b.length l → Encodes depth num (.bytes b) 2 (l ++ b)
  | group {b} : Group depth num b → Encodes depth num .group 3 b
  | fixed32 {b} : b.length = 4 → Encodes depth num (.fixed32 b) 5 b

/-- The byte string is a list of fields, one after the other. -/
inductive FieldList (depth : Nat) : List Entry → Bytes → Prop
  | nil : FieldList depth [] []
  | cons {num c key wt b fs r} : 1 ≤ num → num < 2 ^ 29 → IsVarint (8 * num + wt) key → Encodes depth num c wt b → FieldList depth fs r →
      FieldList depth ((num, c) :: fs) (key ++ b ++ r)

/-- The contents of the fields number `t`. -/
def numbered (t : Nat) (fs : List Entry) : List Content := (fs.filter fun f => f.1 = t).map (·.2)

/-! ## What a number on the wire means -/

/-- `int32`: the lower 32 bits, two's complement. -/
def int32 (n : Nat) : Int32 := Int32.ofInt n
/-- `int64`: the lower 64 bits, two's complement. -/
def int64 (n : Nat) : Int64 := Int64.ofInt n
/-- `uint32`: the lower 32 bits. -/
def uint32 (n : Nat) : UInt32 := UInt32.ofNat n
/-- `bool`: all but 0 is true. -/
def bool (n : Nat) : Bool := decide (n ≠ 0)
/-- 0, 1, 2, 3, ... are 0, -1, 1, -2, ... -/
def unzigzag (n : Nat) : ℤ := if n % 2 = 0 then (n / 2 : Nat) else -(n / 2 : Nat) - 1
/-- `sint64`: of the lower 64 bits (there are never more). -/
def sint64 (n : Nat) : Int64 := Int64.ofInt (unzigzag (n % 2 ^ 64))
/-- `sint32`: of the lower 32 bits. -/
def sint32 (n : Nat) : Int32 := Int32.ofInt (unzigzag (n % 2 ^ 32))

/-! ## Field rules -/

/-- All fields number `t` are numbers, and the last one, if any, is `o`. -/
def Number {α : Type} (ty : Nat → α) (t : Nat) (fs : List Entry) (o : Option α) : Prop :=
  ∃ ns : List Nat, numbered t fs = ns.map .number ∧ o = ns.getLast?.map ty

/-- The byte string is a sequence of numbers. -/
def Packed (ns : List Nat) (b : Bytes) : Prop := ∃ bs : List Bytes, List.Forall₂ IsVarint ns bs ∧ bs.flatten = b

/-- A piece of a list of numbers: a single one, or several in a byte string. -/
inductive Piece : Content → List Nat → Prop
  | one {n} : Piece (.number n) [n]
  | packed {b ns} : Packed ns b → Piece (.bytes b) ns

/-- All fields number `t` are pieces of the list `xs`. -/
def Numbers {α : Type} (ty : Nat → α) (t : Nat) (fs : List Entry) (xs : List α) : Prop :=
  ∃ pieces : List (List Nat), List.Forall₂ Piece (numbered t fs) pieces ∧ xs = pieces.flatten.map ty

/-- All fields number `t` are byte strings, and the last one, if any, is `o`. -/
def String1 (t : Nat) (fs : List Entry) (o : Option Bytes) : Prop :=
  ∃ bs : List Bytes, numbered t fs = bs.map .bytes ∧ o = bs.getLast?
/-- The fields number `t` are the byte strings `bs`. -/
def Strings (t : Nat) (fs : List Entry) (bs : List Bytes) : Prop := numbered t fs = bs.map .bytes
/-- All fields number `t` are texts, and the last one, if any, is `o`. -/
def Text1 (t : Nat) (fs : List Entry) (o : Option String) : Prop :=
  ∃ ss : List String, numbered t fs = ss.map (fun s => .bytes (utf8 s)) ∧ o = ss.getLast?
/-- The fields number `t` are the texts `ss`. -/
def Texts (t : Nat) (fs : List Entry) (ss : List String) : Prop := numbered t fs = ss.map fun s => .bytes (utf8 s)

/-- A byte string that is a message: a list of fields with a meaning. -/
def Message {α : Type} (depth : Nat) (M : List Entry → α → Prop) (b : Bytes) (m : α) : Prop := ∃ fs, FieldList depth fs b ∧ M fs m

/-- The fields number `t` are byte strings, each of them a message. -/
def Messages {α : Type} (depth : Nat) (M : List Entry → α → Prop) (t : Nat) (fs : List Entry) (ms : List α) : Prop :=
  ∃ bs : List Bytes, numbered t fs = bs.map .bytes ∧ List.Forall₂ (Message depth M) bs ms

/-- The fields number `t` are byte strings, each of them a list of fields; all these together are the fields of the message `m`. -/
def Joined {α : Type} (depth : Nat) (M : List Entry → α → Prop) (t : Nat) (fs : List Entry) (m : α) : Prop :=
  ∃ (bs : List Bytes) (parts : List (List Entry)), numbered t fs = bs.map .bytes ∧ List.Forall₂ (FieldList depth) parts bs ∧ M parts.flatten m

/-- The same for a message that may be missing. -/
def Joined1 {α : Type} (depth : Nat) (M : List Entry → α → Prop) (t : Nat) (fs : List Entry) : Option α → Prop
  | none => numbered t fs = []
  | some m => numbered t fs ≠ [] ∧ Joined depth M t fs m

/-! ## The messages. Implementations of protobuf stop at 100 levels: groups may be nested 99 deep at the top, and one less for each message around. -/

/-- `message StringTable`. -/
def StringTable (fs : List Entry) (m : Pb.StringTable) : Prop := Strings 1 fs m.s

/-- `message Info`. -/
def Info (fs : List Entry) (m : Pb.Info) : Prop :=
  Number int32 1 fs m.version ∧ Number int64 2 fs m.timestamp ∧ Number int64 3 fs m.changeset ∧ Number int32 4 fs m.uid ∧
  Number uint32 5 fs m.user_sid ∧ Number bool 6 fs m.visible

/-- `message DenseInfo`. -/
def DenseInfo (fs : List Entry) (m : Pb.DenseInfo) : Prop :=
  Numbers int32 1 fs m.version ∧ Numbers sint64 2 fs m.timestamp ∧ Numbers sint64 3 fs m.changeset ∧ Numbers sint32 4 fs m.uid ∧
  Numbers sint32 5 fs m.user_sid ∧ Numbers bool 6 fs m.visible

/-- A required number, 0 when it is missing. -/
def Required {α : Type} [OfNat α 0] (ty : Nat → α) (t : Nat) (fs : List Entry) (x : α) : Prop :=
  ∃ o, Number ty t fs o ∧ x = o.getD 0

/-- `message ChangeSet`. -/
def ChangeSet (fs : List Entry) (m : Pb.ChangeSet) : Prop := Required int64 1 fs m.id

/-- `message Node`. -/
def Node (fs : List Entry) (m : Pb.Node) : Prop :=
  Required sint64 1 fs m.id ∧ Numbers uint32 2 fs m.keys ∧ Numbers uint32 3 fs m.vals ∧ Joined1 96 Info 4 fs m.info ∧
  Required sint64 8 fs m.lat ∧ Required sint64 9 fs m.lon

/-- `message DenseNodes`. -/
def DenseNodes (fs : List Entry) (m : Pb.DenseNodes) : Prop :=
  Numbers sint64 1 fs m.id ∧ Joined1 96 DenseInfo 5 fs m.denseinfo ∧ Numbers sint64 8 fs m.lat ∧ Numbers sint64 9 fs m.lon ∧
  Numbers int32 10 fs m.keys_vals

/-- `message Way`. -/
def Way (fs : List Entry) (m : Pb.Way) : Prop :=
  Required int64 1 fs m.id ∧ Numbers uint32 2 fs m.keys ∧ Numbers uint32 3 fs m.vals ∧ Joined1 96 Info 4 fs m.info ∧
  Numbers sint64 8 fs m.refs ∧ Numbers sint64 9 fs m.lat ∧ Numbers sint64 10 fs m.lon

/-- `message Relation`. -/
def Relation (fs : List Entry) (m : Pb.Relation) : Prop :=
  Required int64 1 fs m.id ∧ Numbers uint32 2 fs m.keys ∧ Numbers uint32 3 fs m.vals ∧ Joined1 96 Info 4 fs m.info ∧
  Numbers int32 8 fs m.roles_sid ∧ Numbers sint64 9 fs m.memids ∧ Numbers int32 10 fs m.types

/-- `message PrimitiveGroup`. -/
def PrimitiveGroup (fs : List Entry) (m : Pb.PrimitiveGroup) : Prop :=
  Messages 97 Node 1 fs m.nodes ∧ Joined1 97 DenseNodes 2 fs m.dense ∧ Messages 97 Way 3 fs m.ways ∧ Messages 97 Relation 4 fs m.relations ∧
  Messages 97 ChangeSet 5 fs m.changesets

/-- `message PrimitiveBlock`. -/
def PrimitiveBlock (fs : List Entry) (m : Pb.PrimitiveBlock) : Prop :=
  Joined 98 StringTable 1 fs m.stringtable ∧ Messages 98 PrimitiveGroup 2 fs m.primitivegroup ∧ Number int32 17 fs m.granularity ∧
  Number int32 18 fs m.date_granularity ∧ Number int64 19 fs m.lat_offset ∧ Number int64 20 fs m.lon_offset

/-- `message HeaderBBox`. -/
def HeaderBBox (fs : List Entry) (m : Pb.HeaderBBox) : Prop :=
  Required sint64 1 fs m.left ∧ Required sint64 2 fs m.right ∧ Required sint64 3 fs m.top ∧ Required sint64 4 fs m.bottom

/-- `message HeaderBlock`. -/
def HeaderBlock (fs : List Entry) (m : Pb.HeaderBlock) : Prop :=
  Joined1 98 HeaderBBox 1 fs m.bbox ∧ Texts 4 fs m.required_features ∧ Texts 5 fs m.optional_features ∧ Text1 16 fs m.writingprogram ∧
  Text1 17 fs m.source ∧ Number int64 32 fs m.osmosis_replication_timestamp ∧ Number int64 33 fs m.osmosis_replication_sequence_number ∧
  Text1 34 fs m.osmosis_replication_base_url

/-- `message BlobHeader`. -/
def BlobHeader (fs : List Entry) (m : Pb.BlobHeader) : Prop :=
  (∃ o, Text1 1 fs o ∧ m.type = o.getD "") ∧ String1 2 fs m.indexdata ∧ Required int32 3 fs m.datasize

/-- The kinds of data a `Blob` can hold, by field number. -/
inductive Stored : Entry → Pb.BlobData → Prop
  | raw {b} : Stored (1, .bytes b) (.raw b)
  | zlib {b} : Stored (3, .bytes b) (.zlib b)
  | lzma {b} : Stored (4, .bytes b) (.lzma b)
  | bzip2 {b} : Stored (5, .bytes b) (.bzip2 b)
  | lz4 {b} : Stored (6, .bytes b) (.lz4 b)
  | zstd {b} : Stored (7, .bytes b) (.zstd b)

/-- `message Blob`: of all its data, the last one counts. -/
def Blob (fs : List Entry) (m : Pb.Blob) : Prop :=
  Number int32 2 fs m.raw_size ∧
  ∃ ds : List Pb.BlobData, List.Forall₂ Stored (fs.filter fun f => f.1 ∈ [1, 3, 4, 5, 6, 7]) ds ∧ m.data = ds.getLast?

end OsmIo.Spec.Lenient
