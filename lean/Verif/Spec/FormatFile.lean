import Verif.Spec.Protobuf
import Verif.Spec.Format
import Verif.Model.Header
/-!
# The published meaning of a file

A `.osm.pbf` file is a sequence of frames: a four byte length in network byte order, a `BlobHeader` message of that
length, and a `Blob` message of the size given there, which holds the block as it is or compressed with zlib. The
first block is the header, all others hold data. Nothing here refers to functions of the model.
-/
namespace OsmIo.Spec.Format
open Spec.Protobuf

/-- The zlib format (RFC 1950): compressed bytes and what they decompress to. -/
abbrev Inflates := Bytes → Bytes → Prop

/-- A blob holding `data`. -/
def IsBlob (inflates : Inflates) (data b : Bytes) : Prop :=
  data.length < 2 ^ 31 ∧ (IsRawBlob data b ∨ ∃ c, inflates c data ∧ IsZlibBlob data.length c b)

/-- A frame with a block of type `type` (`OSMHeader`, `OSMData`) holding `data`. -/
def IsFrame (inflates : Inflates) (type : String) (data b : Bytes) : Prop :=
  ∃ (b3 b2 b1 b0 : UInt8) (header blob : Bytes) (h : Pb.BlobHeader),
    b = [b3, b2, b1, b0] ++ header ++ blob ∧
    b3.toNat * 2 ^ 24 + b2.toNat * 2 ^ 16 + b1.toNat * 2 ^ 8 + b0.toNat = header.length ∧ header.length < 2 ^ 31 ∧
    IsBlobHeader h header ∧ h.type = type ∧ h.datasize.toInt = blob.length ∧
    IsBlob inflates data blob

/-- A frame with the blob `blob`, whatever it is, announced as a block of type `type`. -/
def IsFrameOf (type : String) (blob b : Bytes) : Prop :=
  ∃ (b3 b2 b1 b0 : UInt8) (header : Bytes) (h : Pb.BlobHeader),
    b = [b3, b2, b1, b0] ++ header ++ blob ∧
    b3.toNat * 2 ^ 24 + b2.toNat * 2 ^ 16 + b1.toNat * 2 ^ 8 + b0.toNat = header.length ∧ header.length < 2 ^ 31 ∧
    IsBlobHeader h header ∧ h.type = type ∧ h.datasize.toInt = blob.length

/-- A frame a reader of this library does not support: its type is neither of the two, or its block is missing or
compressed by another method than zlib. -/
def IsUnsupportedFrame (b : Bytes) : Prop :=
  ∃ type blob, IsFrameOf type blob b ∧ ((type ≠ "OSMHeader" ∧ type ≠ "OSMData") ∨ IsForeignBlob blob)

/-- A frame whose block is compressed with zlib but is shorter than announced. -/
def IsShortFrame (inflates : Inflates) (b : Bytes) : Prop :=
  ∃ type blob c d, ∃ n : Nat, IsFrameOf type blob b ∧ IsZlibBlob n c blob ∧ inflates c d ∧ d.length < n ∧ n < 2 ^ 31

/-- What a header block says about the file: the box is given in nanodegrees. -/
def Header (h : Pb.HeaderBlock) (i : FileInfo) : Prop :=
  (match h.bbox with
    | none => i.bounding_box = none
    | some b => ∃ box, i.bounding_box = some box ∧ Degrees b.left.toInt box.left ∧ Degrees b.right.toInt box.right ∧
        Degrees b.top.toInt box.top ∧ Degrees b.bottom.toInt box.bottom) ∧
  i.required_features = h.required_features ∧ i.optional_features = h.optional_features ∧
  i.writingprogram = h.writingprogram ∧ i.source = h.source ∧
  i.osmosis_replication_timestamp = h.osmosis_replication_timestamp ∧
  i.osmosis_replication_sequence_number = h.osmosis_replication_sequence_number ∧
  i.osmosis_replication_base_url = h.osmosis_replication_base_url

/-- The bytes of a header frame saying `i`. -/
def IsHeaderFrame (inflates : Inflates) (i : FileInfo) (b : Bytes) : Prop :=
  ∃ data h, IsFrame inflates "OSMHeader" data b ∧ IsHeaderBlock h data ∧ Header h i

/-- The bytes of a data frame with the elements `es`. -/
def IsDataFrame (inflates : Inflates) (es : List Element) (b : Bytes) : Prop :=
  ∃ data p, IsFrame inflates "OSMData" data b ∧ IsPrimitiveBlock p data ∧ Block p es

/-- The bytes of a file with this header and these blocks. -/
def IsFile (inflates : Inflates) (i : FileInfo) (blocks : List (List Element)) (file : Bytes) : Prop :=
  ∃ head frames, file = head ++ frames.flatten ∧ IsHeaderFrame inflates i head ∧
    List.Forall₂ (IsDataFrame inflates) blocks frames

end OsmIo.Spec.Format
