import Verif.Model.Reader
import Verif.Model.Writer
import Verif.Spec.Block
/-!
# Specification vocabulary for files

The layout of a `.osm.pbf` file: a concatenation of frames, each a four byte big-endian length, a blob
header of that length, and a blob of the size announced in the header.
-/
namespace OsmIo.Spec

/-- The elements of a stream that are not sentinels. -/
def realOnes (es : List Element) : List Element := es.filter fun e => !e.isSentinel

/-- The bytes of a list of frames (blob header message and blob body). -/
def frameBytes (frames : List (Pb.BlobHeader × Bytes)) : Bytes := (frames.map fun f => blobBytes f.1.encode f.2).flatten

/-- The bytes of a list of blocks written one after the other. -/
def blockBytes (z : Zlib) (c : CompressionType) (bs : List FileBlock) : Bytes :=
  (bs.map fun b => blobBytes (b.serialize z c).1 (b.serialize z c).2).flatten

/-- A blob header and the blob it announces, with sizes that fit `i32`. -/
structure FrameOk (h : Pb.BlobHeader) (body : Bytes) : Prop where
  header_len : h.encode.length < 2 ^ 31
  body_len : body.length < 2 ^ 31
  datasize : h.datasize = Int32.ofNat body.length

/-- A block of one kind of elements with at most 8000 of them. -/
def GoodBlock (es : List Element) : Prop := Homogeneous es ∧ es.length ≤ 8000

/-- Nodes, then ways, then relations; relations only after at least one way. -/
def Layered (es : List Element) : Prop :=
  ∃ ns ws rs, es = ns ++ ws ++ rs ∧ (∀ e ∈ ns, ∃ n, e = .node n) ∧ (∀ e ∈ ws, ∃ w, e = .way w) ∧
    (∀ e ∈ rs, ∃ r, e = .relation r) ∧ (rs ≠ [] → ws ≠ [])

/-- A data block with these elements stays below 2 GiB, before and after compression. -/
def Fits (z : Zlib) (c : CompressionType) (es : List Element) : Prop :=
  (serializeData es).length < 2 ^ 31 ∧ ((FileBlock.data es).serialize z c).2.length < 2 ^ 31

/-- Every block of at most 8000 consecutive elements fits. -/
def RunsFit (z : Zlib) (c : CompressionType) (es : List Element) : Prop :=
  ∀ run, run <:+: es → run.length ≤ 8000 → Fits z c run

/-- File metadata without any content. -/
def EmptyInfo (i : FileInfo) : Prop :=
  i.bounding_box = none ∧ i.required_features = [] ∧ i.optional_features = [] ∧ i.writingprogram = none ∧ i.source = none ∧
  i.osmosis_replication_timestamp = none ∧ i.osmosis_replication_sequence_number = none ∧ i.osmosis_replication_base_url = none

/-- The header block stays below 2 GiB. -/
def HeaderFits (z : Zlib) (c : CompressionType) (i : FileInfo) : Prop :=
  (serializeHeader i).length < 2 ^ 31 ∧ ((FileBlock.header i).serialize z c).2.length < 2 ^ 31

/-- The features the reader supports. -/
def Supported (f : String) : Prop :=
  f = "OsmSchema-V0.6" ∨ f = "DenseNodes" ∨ f = "HistoricalInformation" ∨ f = "Sort.Type_then_ID"

end OsmIo.Spec
