import Verif.Model.Element
import Verif.Model.FileBlock
/-!
# How large a block can become

A bound on the bytes of a block in terms of what is in its elements: the bytes of their texts, the numbers of tags, way nodes and
members. Nothing here refers to the encoding.
-/
namespace OsmIo.Spec

/-- The weight of the tags of an element. -/
def tagsWeight (ts : List Tag) : Nat := (ts.map fun t => 52 + t.k.utf8ByteSize + t.v.utf8ByteSize).sum

/-- The role of a member. -/
def roleOf : Member → String
  | .node m => m.role
  | .way m => m.role
  | .relation m => m.role

/-- The weight of an element. -/
def weight : Element → Nat
  | .node n => 256 + n.user.utf8ByteSize + tagsWeight n.tags
  | .way w => 256 + w.user.utf8ByteSize + tagsWeight w.tags + 10 * w.refs.length
  | .relation r => 256 + r.user.utf8ByteSize + tagsWeight r.tags + (r.members.map fun m => 46 + (roleOf m).utf8ByteSize).sum
  | .sentinel => 0

/-- The weight of a list of elements. -/
def weightOf (es : List Element) : Nat := (es.map weight).sum

/-- The weight of file metadata: the bytes of its texts, and a bit more for each of them. -/
def infoWeight (i : FileInfo) : Nat :=
  (i.required_features.map fun s => 16 + s.utf8ByteSize).sum + (i.optional_features.map fun s => 16 + s.utf8ByteSize).sum +
    (i.writingprogram.elim 0 String.utf8ByteSize) + (i.source.elim 0 String.utf8ByteSize) +
    (i.osmosis_replication_base_url.elim 0 String.utf8ByteSize)

/-- Compression does not make the data much larger. (zlib stores what it cannot compress, with less than 1 byte more for 1000 bytes and a few bytes
for the whole.) -/
def Modest (z : Zlib) : Prop := ∀ level b, (z.deflate level b).length ≤ b.length + b.length / 1000 + 1000

/-- The block is written with a negative size, because sizes are `i32`: the size of the blob, or that of the data before compression, is from 2 to 4 GiB. -/
def NegativeSize (z : Zlib) (c : CompressionType) (es : List Element) : Prop :=
  (2 ^ 31 ≤ ((FileBlock.data es).serialize z c).2.length ∧ ((FileBlock.data es).serialize z c).2.length < 2 ^ 32) ∨
  (c = .zlib ∧ ((FileBlock.data es).serialize z c).2.length < 2 ^ 31 ∧ 2 ^ 31 ≤ (serializeData es).length ∧ (serializeData es).length < 2 ^ 32)

end OsmIo.Spec
