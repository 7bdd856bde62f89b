import Verif.Model.Writer
/-!
# Arbitrary sequences of calls on a sequential writer
-/
namespace OsmIo

/-- A call on a `Writer`: `write_header`, `write_file_block`, `write_element`, `write_elements` or `close`.
(`src/osm/pbf/writer.rs:131-200`; `close` does not consume the writer, so that calls may follow it) -/
inductive WriterCall where
  | header
  | block (b : FileBlock)
  | element (e : Element)
  | elements (es : List Element)
  | close

/-- One call. (`src/osm/pbf/writer.rs:131-200`) -/
def Writer.call (z : Zlib) (w : Writer) : WriterCall → Out Writer
  | .header => .ok (w.writeHeader z)
  | .block b => .ok (w.writeFileBlock z b)
  | .element e => w.writeElement z e
  | .elements es => .ok (w.writeElements z es)
  | .close => .ok (w.close z)

/-- The calls in turn. (`src/osm/pbf/writer.rs:131-200`) -/
def Writer.calls (z : Zlib) (w : Writer) : List WriterCall → Out Writer
  | [] => .ok w
  | c :: cs => do
    let w ← w.call z c
    w.calls z cs

end OsmIo
