import Verif.Model.Pool
import Verif.Spec.File
/-!
# Specification vocabulary for parallel reading
-/
namespace OsmIo.Spec

/-- The elements of a block (none for a header). -/
def elementsOf : FileBlock → List Element
  | .data es => es
  | .header _ => []

/-- The block is a data block. -/
def isData : FileBlock → Bool
  | .data _ => true
  | .header _ => false

/-- The calls a block causes: its elements in order, then one Sentinel; none for a header block. -/
def callsFor : FileBlock → List Element
  | .data es => es ++ [.sentinel]
  | .header _ => []

/-- `bs` are the blocks of the file: reading all blocks sequentially gives `bs` and ends. -/
def HasBlocks (z : Zlib) (file : Bytes) (bs : List FileBlock) : Prop := ∃ fuel, takeBlocks z file fuel {} = (bs, .done)

/-- The coordinates of the nodes of a list of elements. -/
def coordinates (es : List Element) : List Coordinate :=
  es.filterMap fun
    | .node n => some n.coordinate
    | _ => none

/-- A point lies in a box (borders included). -/
def Inside (c : Coordinate) (b : BoundingBox) : Prop := b.left ≤ c.lon ∧ c.lon ≤ b.right ∧ b.bottom ≤ c.lat ∧ c.lat ≤ b.top

/-- A box lies in another. -/
def Within (a b : BoundingBox) : Prop := b.left ≤ a.left ∧ a.right ≤ b.right ∧ b.bottom ≤ a.bottom ∧ a.top ≤ b.top

/-- `left ≤ right` and `bottom ≤ top`. -/
def Proper (b : BoundingBox) : Prop := b.left ≤ b.right ∧ b.bottom ≤ b.top

/-- The smallest box containing all the points. -/
def Tight (b : BoundingBox) (cs : List Coordinate) : Prop :=
  (∀ c ∈ cs, Inside c b) ∧ ∀ b', (∀ c ∈ cs, Inside c b') → Within b b'

/-- The nodes of a block come before its other elements. -/
def NodesFirst (es : List Element) : Prop := ∃ ns rest, es = ns ++ rest ∧ (∀ e ∈ ns, e.isNode) ∧ ∀ e ∈ rest, e.isNode = false

/-- Comparison of two elements that are not sentinels: type, id, version. -/
def rank : Element → Nat
  | .node _ => 0
  | .way _ => 1
  | .relation _ => 2
  | .sentinel => 3

/-- The id of an element. -/
def eid : Element → Int64
  | .node n => n.id
  | .way w => w.id
  | .relation r => r.id
  | .sentinel => 0

/-- The version of an element. -/
def ever : Element → Int32
  | .node n => n.version
  | .way w => w.version
  | .relation r => r.version
  | .sentinel => 0

/-- Strictly before in the order nodes, ways, relations, then id, then version. -/
def Before (a b : Element) : Prop :=
  rank a < rank b ∨ rank a = rank b ∧ (eid a < eid b ∨ eid a = eid b ∧ ever a < ever b)

instance (a b : Element) : Decidable (Before a b) := by unfold Before; infer_instance

/-- Same type, id and version. -/
def SameKey (a b : Element) : Prop := rank a = rank b ∧ eid a = eid b ∧ ever a = ever b

end OsmIo.Spec
