import Verif.Spec.Lenient
import Verif.Spec.Meaning
/-!
# What becomes of any file

For any bytes at all: whether they are a frame, what its blob holds, and which blocks a file consists of. Nothing here
refers to functions of the model.
-/
namespace OsmIo.Spec.Lenient

/-- Network byte order. -/
def word (b3 b2 b1 b0 : UInt8) : Nat := b3.toNat * 2 ^ 24 + b2.toNat * 2 ^ 16 + b1.toNat * 2 ^ 8 + b0.toNat

/-- At `pos` there are four bytes, the number `n`. -/
def LengthAt (file : Bytes) (pos n : Nat) : Prop := ∃ b3 b2 b1 b0 rest, file.drop pos = [b3, b2, b1, b0] ++ rest ∧ word b3 b2 b1 b0 = n

/-- At `pos` there is a length, and a `BlobHeader` of this length; the blob begins at `start`. -/
def HeaderAt (file : Bytes) (pos : Nat) (h : Pb.BlobHeader) (start : Nat) : Prop :=
  ∃ header rest, LengthAt file pos header.length ∧ header.length < 2 ^ 31 ∧ file.drop (pos + 4) = header ++ rest ∧
    Message 99 BlobHeader header h ∧ start = pos + 4 + header.length

/-- The blob announced by `h` is at `start`. -/
def BodyAt (file : Bytes) (h : Pb.BlobHeader) (start : Nat) (b : Bytes) : Prop :=
  ∃ rest, file.drop start = b ++ rest ∧ (b.length : ℤ) = h.datasize.toInt

/-- The blob `b` holds `data`, as it is or compressed with zlib. `stream` decompresses as much as it can; of that, the size given counts. -/
def Holds (stream : Bytes → Bytes) (b data : Bytes) : Prop := ∃ blob, Message 99 Blob b blob ∧
  (blob.data = some (.raw data) ∨
    ∃ (c : Bytes) (n : Int32), blob.data = some (.zlib c) ∧ blob.raw_size = some n ∧ (data.length : ℤ) = n.toInt ∧ data <+: stream c)

/-- The blob is compressed with zlib but its size before compression is not given, or negative. -/
def Unsized (b : Bytes) : Prop := ∃ blob c, Message 99 Blob b blob ∧ blob.data = some (.zlib c) ∧ ∀ n, blob.raw_size = some n → n.toInt < 0

/-- What a header block says about the file; the box is given in nanodegrees, sides are doubles. -/
def Says (h : Pb.HeaderBlock) (i : FileInfo) : Prop :=
  i.bounding_box = h.bbox.map (fun b => (⟨rnd (rnd b.left.toInt / 10 ^ 9), rnd (rnd b.bottom.toInt / 10 ^ 9), rnd (rnd b.right.toInt / 10 ^ 9),
    rnd (rnd b.top.toInt / 10 ^ 9)⟩ : BoundingBox)) ∧
  i.required_features = h.required_features ∧ i.optional_features = h.optional_features ∧
  i.writingprogram = h.writingprogram ∧ i.source = h.source ∧
  i.osmosis_replication_timestamp = h.osmosis_replication_timestamp ∧
  i.osmosis_replication_sequence_number = h.osmosis_replication_sequence_number ∧
  i.osmosis_replication_base_url = h.osmosis_replication_base_url

/-- A header block. -/
def IsHeader (stream : Bytes → Bytes) (t : String) (b : Bytes) (i : FileInfo) : Prop :=
  t = "OSMHeader" ∧ ∃ data h, Holds stream b data ∧ Message 99 HeaderBlock data h ∧ Says h i

/-- A data block. -/
def IsData (stream : Bytes → Bytes) (t : String) (b : Bytes) (p : Pb.PrimitiveBlock) : Prop :=
  t = "OSMData" ∧ ∃ data, Holds stream b data ∧ Message 99 PrimitiveBlock data p

/-- Blocks. -/
inductive Kind where
  | header (i : FileInfo)
  | data (es : List Element)

/-- The block of type `t` held by the blob `b` can be read. -/
inductive Readable (stream : Bytes → Bytes) (t : String) (b : Bytes) : Kind → Prop
  | header {i} : IsHeader stream t b i → Readable stream t b (.header i)
  | data {p es} : IsData stream t b p → Meaning.Block p es → Readable stream t b (.data es)

/-- The way through a file from `pos`: the blocks, and whether it ends with a panic. -/
inductive Walk (stream : Bytes → Bytes) (file : Bytes) : Nat → List Kind → Bool → Prop
  /-- no frame header -/
  | done {pos} : (∀ n, LengthAt file pos n → n < 2 ^ 31) → (∀ h start, ¬ HeaderAt file pos h start) → Walk stream file pos [] false
  /-- a length that is negative as a number of 32 bits -/
  | long {pos n} : LengthAt file pos n → 2 ^ 31 ≤ n → Walk stream file pos [] true
  /-- a frame header, but no readable block -/
  | bad {pos h start} : HeaderAt file pos h start → (∀ b s, BodyAt file h start b → ¬ Readable stream h.type b s) → Walk stream file pos [] true
  /-- a block -/
  | block {pos h start b s rest panic} : HeaderAt file pos h start → BodyAt file h start b → Readable stream h.type b s →
      Walk stream file (start + b.length) rest panic → Walk stream file pos (s :: rest) panic

/-- What an iteration over elements delivers from these blocks, and whether it panics: a header block ends it. -/
inductive Delivers : List Kind → Bool → List Element → Bool → Prop
  | nil {panic} : Delivers [] panic [] panic
  | header {i rest panic} : Delivers (.header i :: rest) panic [] false
  | data {es rest panic more panic'} : Delivers rest panic more panic' → Delivers (.data es :: rest) panic (es ++ more) panic'

/-- The features a reader supports. -/
def supported : List String := ["OsmSchema-V0.6", "DenseNodes", "HistoricalInformation", "Sort.Type_then_ID"]

/-- The file begins with this block. -/
def Begins (stream : Bytes → Bytes) (file : Bytes) (k : Kind) : Prop :=
  ∃ h start b, HeaderAt file 0 h start ∧ BodyAt file h start b ∧ Readable stream h.type b k

end OsmIo.Spec.Lenient
