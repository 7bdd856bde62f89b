import Verif.Model.Basic
/-!
# Protobuf wire format as implemented by prost

The crate delegates the wire format to `prost` (`Message::encode`, `Message::decode` as used in
`src/osm/pbf/osm_data.rs:24,380`, `osm_header.rs:18,85`, `file_block.rs:200,209,216`, `blob_iterator.rs:44`);
the message schemas are in `src/osm/pbf/generated/prost-osmpbf.rs`. prost itself is not part of `/repo`;
this file models its documented encoding and decoding functions concretely.

Groups (wire types 3 and 4) are skipped in unknown fields, as prost does, down to its recursion limit; `count` is the
`recurse_count` of its `DecodeContext`, which is 100 for a message decoded at the top and one less for each message around it.
prost interleaves parsing and interpretation of fields; here a message is
first split into fields and then interpreted, which gives the same result because any failure fails the whole decode.
-/
namespace OsmIo.Wire

/-- `prost::encoding::encode_varint`: base 128, least significant group first.
(prost crate, outside the repository; messages in `src/osm/pbf/generated/prost-osmpbf.rs:1-327`) -/
def encVarint (n : Nat) : Bytes :=
  if n < 128 then [UInt8.ofNat n]
  else UInt8.ofNat (n % 128 + 128) :: encVarint (n / 128)
  decreasing_by omega

/-- `prost::encoding::decode_varint`: at most ten bytes, the tenth at most 1, so the value fits `u64`.
`i` is the number of bytes already consumed.
(prost crate, outside the repository; messages in `src/osm/pbf/generated/prost-osmpbf.rs:1-327`) -/
def decVarintGo (i : Nat) : Bytes → Option (Nat × Bytes)
  | [] => none
  | b :: bs =>
    if b.toNat < 128 then
      if i = 9 ∧ 2 ≤ b.toNat then none else some (b.toNat, bs)
    else if i = 9 then none
    else
      match decVarintGo (i + 1) bs with
      | none => none
      | some (v, rest) => some (b.toNat - 128 + 128 * v, rest)

/-- `prost::encoding::decode_varint`.
(prost crate, outside the repository; messages in `src/osm/pbf/generated/prost-osmpbf.rs:1-327`) -/
def decVarint (bs : Bytes) : Option (Nat × Bytes) := decVarintGo 0 bs

/-- The payload of one field on the wire.
(prost crate, outside the repository; messages in `src/osm/pbf/generated/prost-osmpbf.rs:1-327`) -/
inductive Val where
  /-- wire type 0 -/
  | varint (n : Nat)
  /-- wire type 1: eight raw bytes -/
  | i64 (b : Bytes)
  /-- wire type 2: length-delimited -/
  | len (b : Bytes)
  /-- wire type 5: four raw bytes -/
  | i32 (b : Bytes)
  /-- wire type 3: a group, which is skipped; only its presence is kept -/
  | group
  deriving DecidableEq, Repr

/-- One field: tag number and payload.
(prost crate, outside the repository; messages in `src/osm/pbf/generated/prost-osmpbf.rs:1-327`) -/
structure Field where
  tag : Nat
  val : Val
  deriving DecidableEq, Repr

/-- wire type number of a payload
(prost crate, outside the repository; messages in `src/osm/pbf/generated/prost-osmpbf.rs:1-327`) -/
def Val.wt : Val → Nat
  | .varint _ => 0
  | .i64 _ => 1
  | .len _ => 2
  | .i32 _ => 5
  | .group => 3

/-- Encoding of a payload after its key. Groups are never written.
(prost crate, outside the repository; messages in `src/osm/pbf/generated/prost-osmpbf.rs:1-327`) -/
def encVal : Val → Bytes
  | .varint n => encVarint n
  | .i64 b => b
  | .len b => encVarint b.length ++ b
  | .i32 b => b
  | .group => []

/-- `prost::encoding::encode_key` followed by the payload.
(prost crate, outside the repository; messages in `src/osm/pbf/generated/prost-osmpbf.rs:1-327`) -/
def encField (f : Field) : Bytes := encVarint (f.tag * 8 + f.val.wt) ++ encVal f.val

/-- Concatenation of encoded fields: `Message::encode_raw`.
(prost crate, outside the repository; messages in `src/osm/pbf/generated/prost-osmpbf.rs:1-327`) -/
def encFields (fs : List Field) : Bytes := (fs.map encField).flatten

/-- Take exactly `n` bytes (`buf.remaining() < n` is an error).
(prost crate, outside the repository; messages in `src/osm/pbf/generated/prost-osmpbf.rs:1-327`) -/
def takeExact (n : Nat) (bs : Bytes) : Option (Bytes × Bytes) :=
  if bs.length < n then none else some (bs.take n, bs.drop n)

/-- Payload for a given wire type.
(prost crate, outside the repository; messages in `src/osm/pbf/generated/prost-osmpbf.rs:1-327`) -/
def decVal (wt : Nat) (bs : Bytes) : Option (Val × Bytes) :=
  match wt with
  | 0 => (decVarint bs).map fun (n, r) => (.varint n, r)
  | 1 => (takeExact 8 bs).map fun (b, r) => (.i64 b, r)
  | 2 =>
    match decVarint bs with
    | none => none
    | some (n, r) => (takeExact n r).map fun (b, r') => (.len b, r')
  | 5 => (takeExact 4 bs).map fun (b, r) => (.i32 b, r)
  | _ => none

/-- `prost::encoding::decode_key`: the number of the field (at least 1) and the wire type; the key fits `u32`.
(prost crate, outside the repository; messages in `src/osm/pbf/generated/prost-osmpbf.rs:1-327`) -/
def decKey (bs : Bytes) : Option ((Nat × Nat) × Bytes) :=
  match decVarint bs with
  | none => none
  | some (key, r) =>
    if 4294967295 < key then none
    else if key / 8 = 0 then none
    else some ((key / 8, key % 8), r)

/-- `prost::encoding::skip_field`, the loop over the fields of the group number `tag` up to its end; `skip` skips a field
of the group. `fuel` bounds the number of fields (each takes at least one byte).
(prost crate, outside the repository; messages in `src/osm/pbf/generated/prost-osmpbf.rs:1-327`) -/
def skipGroup (skip : Nat → Nat → Bytes → Option Bytes) (tag : Nat) : Nat → Bytes → Option Bytes
  | 0, _ => none
  | fuel + 1, bs =>
    match decKey bs with
    | none => none
    | some ((tag', wt), r) =>
      if wt = 4 then (if tag' = tag then some r else none)
      else
        match skip wt tag' r with
        | none => none
        | some r' => skipGroup skip tag fuel r'

/-- `prost::encoding::skip_field`: what is left after the field. A recursion count of 0 is an error (`ctx.limit_reached`).
(prost crate, outside the repository; messages in `src/osm/pbf/generated/prost-osmpbf.rs:1-327`) -/
def skipField : Nat → Nat → Nat → Bytes → Option Bytes
  | 0, _, _, _ => none
  | count + 1, wt, tag, bs =>
    if wt = 3 then skipGroup (skipField count) tag bs.length bs
    else (decVal wt bs).map (·.2)

/-- A key (`prost::encoding::decode_key`) and the payload. A group is skipped; for a known field it is an error later on.
(prost crate, outside the repository; messages in `src/osm/pbf/generated/prost-osmpbf.rs:1-327`) -/
def decField (count : Nat) (bs : Bytes) : Option (Field × Bytes) :=
  match decKey bs with
  | none => none
  | some ((tag, wt), r) =>
    if wt = 3 then (skipField count 3 tag r).map fun r' => (⟨tag, .group⟩, r')
    else (decVal wt r).map fun (v, r') => (⟨tag, v⟩, r')

/-- All fields of a buffer; `fuel` bounds the number of fields (each takes at least one byte).
(prost crate, outside the repository; messages in `src/osm/pbf/generated/prost-osmpbf.rs:1-327`) -/
def parseGo (count : Nat) : Nat → Bytes → Option (List Field)
  | _, [] => some []
  | 0, _ :: _ => none
  | fuel + 1, bs =>
    match decField count bs with
    | none => none
    | some (f, r) => (parseGo count fuel r).map (f :: ·)

/-- The fields of a message, with the recursion count for its fields.
(prost crate, outside the repository; messages in `src/osm/pbf/generated/prost-osmpbf.rs:1-327`) -/
def parse (count : Nat) (bs : Bytes) : Option (List Field) := parseGo count bs.length bs

/-! ## Scalars -/

/-- `as u64` of an `i64`: `int64` fields.
(prost crate, outside the repository; messages in `src/osm/pbf/generated/prost-osmpbf.rs:1-327`) -/
def ofInt64 (x : Int64) : Nat := x.toUInt64.toNat
/-- `as i64` of the decoded varint.
(prost crate, outside the repository; messages in `src/osm/pbf/generated/prost-osmpbf.rs:1-327`) -/
def toInt64 (n : Nat) : Int64 := (UInt64.ofNat n).toInt64
/-- `int32` fields are sign extended: `*value as u64`.
(prost crate, outside the repository; messages in `src/osm/pbf/generated/prost-osmpbf.rs:1-327`) -/
def ofInt32 (x : Int32) : Nat := x.toInt64.toUInt64.toNat
/-- `as i32` of the decoded varint.
(prost crate, outside the repository; messages in `src/osm/pbf/generated/prost-osmpbf.rs:1-327`) -/
def toInt32 (n : Nat) : Int32 := (UInt64.ofNat n).toInt64.toInt32
/-- `uint32` fields.
(prost crate, outside the repository; messages in `src/osm/pbf/generated/prost-osmpbf.rs:1-327`) -/
def ofUInt32 (x : UInt32) : Nat := x.toNat
/-- `as u32` of the decoded varint.
(prost crate, outside the repository; messages in `src/osm/pbf/generated/prost-osmpbf.rs:1-327`) -/
def toUInt32 (n : Nat) : UInt32 := UInt32.ofNat n
/-- `bool` fields. (prost crate, outside the repository; messages in `src/osm/pbf/generated/prost-osmpbf.rs:1-327`) -/
def ofBool (b : Bool) : Nat := if b then 1 else 0
/-- `decode_varint()? != 0`.
(prost crate, outside the repository; messages in `src/osm/pbf/generated/prost-osmpbf.rs:1-327`) -/
def toBool (n : Nat) : Bool := n != 0
/-- `sint64` fields, zigzag: `((value << 1) ^ (value >> 63)) as u64`.
(prost crate, outside the repository; messages in `src/osm/pbf/generated/prost-osmpbf.rs:1-327`) -/
def ofSInt64 (x : Int64) : Nat := ((x <<< 1) ^^^ (x >>> 63)).toUInt64.toNat
/-- zigzag decoding: `((value >> 1) as i64) ^ (-((value & 1) as i64))`.
(prost crate, outside the repository; messages in `src/osm/pbf/generated/prost-osmpbf.rs:1-327`) -/
def toSInt64 (n : Nat) : Int64 :=
  let v := UInt64.ofNat n
  (v >>> 1).toInt64 ^^^ (-((v &&& 1).toInt64))
/-- `sint32` fields, zigzag: `((value << 1) ^ (value >> 31)) as u32 as u64`.
(prost crate, outside the repository; messages in `src/osm/pbf/generated/prost-osmpbf.rs:1-327`) -/
def ofSInt32 (x : Int32) : Nat := ((x <<< 1) ^^^ (x >>> 31)).toUInt32.toNat
/-- zigzag decoding of `value as u32`.
(prost crate, outside the repository; messages in `src/osm/pbf/generated/prost-osmpbf.rs:1-327`) -/
def toSInt32 (n : Nat) : Int32 :=
  let v := UInt32.ofNat n
  (v >>> 1).toInt32 ^^^ (-((v &&& 1).toInt32))

/-- Bytes of a string (`String` is UTF-8 in Rust and in Lean).
(prost crate, outside the repository; messages in `src/osm/pbf/generated/prost-osmpbf.rs:1-327`) -/
def strBytes (s : String) : Bytes := s.toByteArray.data.toList

/-- `String::from_utf8`.
(used in `src/osm/pbf/osm_data.rs:28`, `src/osm/apidb_dump/read/reader.rs:118-119` and by prost) -/
def strOf (b : Bytes) : Option String := String.fromUTF8? ⟨b.toArray⟩

/-! ## Field constructors used by the encoders (nothing is emitted for `None` and empty lists) -/

/-- optional scalar/bytes field
(prost crate, outside the repository; messages in `src/osm/pbf/generated/prost-osmpbf.rs:1-327`) -/
def optF {α : Type} (tag : Nat) (enc : α → Val) : Option α → List Field
  | none => []
  | some a => [⟨tag, enc a⟩]

/-- repeated (unpacked) field
(prost crate, outside the repository; messages in `src/osm/pbf/generated/prost-osmpbf.rs:1-327`) -/
def repF {α : Type} (tag : Nat) (enc : α → Val) (xs : List α) : List Field :=
  xs.map fun a => ⟨tag, enc a⟩

/-- body of a packed repeated scalar field
(prost crate, outside the repository; messages in `src/osm/pbf/generated/prost-osmpbf.rs:1-327`) -/
def packBytes {α : Type} (enc : α → Nat) (xs : List α) : Bytes :=
  (xs.map fun a => encVarint (enc a)).flatten

/-- packed repeated scalar field (`encode_packed`): nothing when empty
(prost crate, outside the repository; messages in `src/osm/pbf/generated/prost-osmpbf.rs:1-327`) -/
def packF {α : Type} (tag : Nat) (enc : α → Nat) (xs : List α) : List Field :=
  if xs.isEmpty then [] else [⟨tag, .len (packBytes enc xs)⟩]

/-- all varints of a packed payload
(prost crate, outside the repository; messages in `src/osm/pbf/generated/prost-osmpbf.rs:1-327`) -/
def unpackGo : Nat → Bytes → Option (List Nat)
  | _, [] => some []
  | 0, _ :: _ => none
  | fuel + 1, bs =>
    match decVarint bs with
    | none => none
    | some (n, r) => (unpackGo fuel r).map (n :: ·)

/-- `merge_loop` of a packed field
(prost crate, outside the repository; messages in `src/osm/pbf/generated/prost-osmpbf.rs:1-327`) -/
def unpack (bs : Bytes) : Option (List Nat) := unpackGo bs.length bs

/-! ## Interpretation of a field when merging it into a message -/

/-- singular varint-typed field: the wire type must be 0; the last value wins
(prost crate, outside the repository; messages in `src/osm/pbf/generated/prost-osmpbf.rs:1-327`) -/
def getVarint {α : Type} (dec : Nat → α) : Val → Option α
  | .varint n => some (dec n)
  | _ => none

/-- `bytes` field (prost crate, outside the repository; messages in `src/osm/pbf/generated/prost-osmpbf.rs:1-327`) -/
def getBytes : Val → Option Bytes
  | .len b => some b
  | _ => none

/-- `string` field: must be UTF-8
(prost crate, outside the repository; messages in `src/osm/pbf/generated/prost-osmpbf.rs:1-327`) -/
def getStr : Val → Option String
  | .len b => strOf b
  | _ => none

/-- `merge_repeated` of a varint-typed field: packed or one value
(prost crate, outside the repository; messages in `src/osm/pbf/generated/prost-osmpbf.rs:1-327`) -/
def getRep {α : Type} (dec : Nat → α) : Val → Option (List α)
  | .varint n => some [dec n]
  | .len b => (unpack b).map (·.map dec)
  | _ => none

end OsmIo.Wire
