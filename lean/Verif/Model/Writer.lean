import Verif.Model.FileBlock
/-! # Sequential writer (`src/osm/pbf/writer.rs`, `src/osm/pbf/element_accumulator.rs`) -/
namespace OsmIo

/-- `State`, `element_accumulator.rs:3-7`. -/
inductive AccState where
  | nodes
  | ways
  | relations
  deriving DecidableEq, Repr

/-- `ElementAccumulator`, `element_accumulator.rs:9-14` (the index only feeds metadata and is dropped). -/
structure Accumulator where
  block_size : Nat
  elements : List Element
  state : AccState

namespace Accumulator

/-- `ElementAccumulator::new`, `element_accumulator.rs:17-25`. -/
def new : Accumulator := ⟨8000, [], .nodes⟩

/-- Push and hand out the buffer when full, `element_accumulator.rs:33-37,57-61,80-84`. -/
def push (a : Accumulator) (e : Element) : Option (List Element) × Accumulator :=
  let elements := a.elements ++ [e]
  if elements.length = a.block_size then (some elements, { a with elements := [] })
  else (none, { a with elements })

/-- `ElementAccumulator::add`, `element_accumulator.rs:27-92`. The recursive `self.add(element)` after a change of
state always takes the `push` branch; its result is discarded as in the code. -/
def add (a : Accumulator) (e : Element) : Out (Option (List Element) × Accumulator) :=
  match a.state, e with
  | .nodes, .node _ => .ok (a.push e)
  | .nodes, .way _ => .ok (some a.elements, (push { a with state := .ways, elements := [] } e).2)
  | .nodes, .relation _ => .panic
  | .nodes, .sentinel => .ok (none, a)
  | .ways, .node _ => .panic
  | .ways, .way _ => .ok (a.push e)
  | .ways, .relation _ => .ok (some a.elements, (push { a with state := .relations, elements := [] } e).2)
  | .ways, .sentinel => .ok (none, a)
  | .relations, .node _ => .panic
  | .relations, .way _ => .panic
  | .relations, .relation _ => .ok (a.push e)
  | .relations, .sentinel => .ok (none, a)

/-- `ElementAccumulator::elements`, `element_accumulator.rs:94-97`. -/
def take (a : Accumulator) : List Element × Accumulator := (a.elements, { a with elements := [] })

end Accumulator

/-- `Writer`, `writer.rs:60-66`: configuration, contents of the output file so far, accumulator. -/
structure Writer where
  file_info : FileInfo
  compression : CompressionType
  file : Bytes
  acc : Accumulator

namespace Writer

/-- `Writer::from_file_info`, `writer.rs:70-86` (`File::create` truncates). -/
def fromFileInfo (info : FileInfo) (c : CompressionType) : Writer := ⟨info, c, [], Accumulator.new⟩

/-- `Writer::new`, `writer.rs:90-129`. -/
def new (program source : String) (ts seq : Option Int64) (url : Option String) (c : CompressionType)
    (bbox : Option BoundingBox) (history : Bool) : Writer :=
  let required := ["OsmSchema-V0.6", "DenseNodes"] ++ (if history then ["HistoricalInformation"] else [])
  fromFileInfo
    { bounding_box := bbox, required_features := required, optional_features := ["Sort.Type_then_ID"]
      writingprogram := some program, source := some source, osmosis_replication_timestamp := ts
      osmosis_replication_sequence_number := seq, osmosis_replication_base_url := url } c

/-- `Writer::write_blob`, `writer.rs:151-158`. -/
def writeBlob (w : Writer) (header body : Bytes) : Writer := { w with file := w.file ++ blobBytes header body }

/-- `Writer::write_file_block`, `writer.rs:145-148`. -/
def writeFileBlock (z : Zlib) (w : Writer) (b : FileBlock) : Writer :=
  let (h, body) := b.serialize z w.compression
  w.writeBlob h body

/-- `Writer::write_header`, `writer.rs:136-142`. -/
def writeHeader (z : Zlib) (w : Writer) : Writer := w.writeFileBlock z (.header w.file_info)

/-- `Writer::write_elements`, `writer.rs:178-189`. -/
def writeElements (z : Zlib) (w : Writer) (es : List Element) : Writer := w.writeFileBlock z (.data es)

/-- `Writer::write_element`, `writer.rs:164-173`. -/
def writeElement (z : Zlib) (w : Writer) (e : Element) : Out Writer := do
  let (block, acc) ← w.acc.add e
  match block with
  | none => .ok { w with acc }
  | some es => .ok (writeElements z { w with acc } es)

/-- `Writer::close`, `writer.rs:194-200`. -/
def close (z : Zlib) (w : Writer) : Writer :=
  let (es, acc) := w.acc.take
  if es.isEmpty then { w with acc } else writeElements z { w with acc } es

/-- `write_element` for each element in turn. (calls of `src/osm/pbf/writer.rs:164-176`) -/
def writeAll (z : Zlib) (w : Writer) : List Element → Out Writer
  | [] => .ok w
  | e :: es => do
    let w ← w.writeElement z e
    w.writeAll z es

end Writer
end OsmIo
