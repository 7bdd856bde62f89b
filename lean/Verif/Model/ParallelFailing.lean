import Verif.Model.ParallelSystem
/-!
# The parallel writer on a device whose writes may fail (`src/osm/pbf/parallel_writer.rs`)

The commands of the writing thread panic when the file cannot be created or written (`.unwrap()`, `.expect("Failed to write a blob")`). As in
`Model/ParallelSystem.lean` a panic stops the system.
-/
namespace OsmIo.ParSystem

/-- A step of one of the threads (`src/osm/pbf/parallel_writer.rs:27-434`), or of the writing thread into an I/O error: then a beginning of what it was
about to write has reached the file. -/
inductive StepF (g : Config) : ParSystem → ParSystem → Prop
  /-- a step without an error, `parallel_writer.rs:300-434` -/
  | ok (s t : ParSystem) (h : Step g s t) : StepF g s t
  /-- the file cannot be created, `parallel_writer.rs:355-359` -/
  | create (s : ParSystem) (rest) (hf : s.failed = false) (h : s.writeQueue = .header :: rest) (hw : s.writer = none) :
      StepF g s { s with failed := true }
  /-- the header cannot be written in full, `parallel_writer.rs:360` -/
  | header (s : ParSystem) (rest) (p : Bytes) (hf : s.failed = false) (h : s.writeQueue = .header :: rest) (hw : s.writer = none)
      (hp : p <+: ((Writer.fromFileInfo g.info g.c).writeHeader g.z).file) (hp' : p ≠ ((Writer.fromFileInfo g.info g.c).writeHeader g.z).file) :
      StepF g s { s with writer := some { Writer.fromFileInfo g.info g.c with file := p }, failed := true }
  /-- one of the blobs that are ready cannot be written in full, `parallel_writer.rs:267-279` -/
  | blob (s : ParSystem) (k) (b) (rest) (w) (p : Bytes) (hf : s.failed = false) (h : s.writeQueue = .blob k b :: rest) (hw : s.writer = some w)
      (hp : w.file ++ p <+: (writeReady ((mapInsert k b s.held).length + 1) (mapInsert k b s.held) s.next w).2.2.file)
      (hp' : w.file ++ p ≠ (writeReady ((mapInsert k b s.held).length + 1) (mapInsert k b s.held) s.next w).2.2.file) :
      StepF g s { s with writer := some { w with file := w.file ++ p }, failed := true }

/-- Any number of steps. (`src/osm/pbf/parallel_writer.rs:300-434`) -/
abbrev StepsF (g : Config) : ParSystem → ParSystem → Prop := Relation.ReflTransGen (StepF g)

end OsmIo.ParSystem
