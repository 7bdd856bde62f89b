import Verif.Model.ForEach
import Verif.Model.ParallelSystem
/-!
# The program `examples/parallel-pbf-io.rs` as a whole

Threads reading a file, each with its accumulator, hand over batches to a parallel writer protected by a mutex. All threads of the reader and of the
writer run together.
-/
namespace OsmIo

/-- `parallel_for_each` of the program and its parallel writer. The `ops` of the writer are what the main thread still has to do with it before
`close`: at first `write_header`. (`examples/parallel-pbf-io.rs:12-72`) -/
structure ParallelIo (T : Nat) where
  reader : ForEach T (TlState T)
  writer : ParSystem

namespace ParallelIo
variable {T : Nat}

/-- The closure passed to `parallel_for_each`, `parallel-pbf-io.rs:42-66`, without the call of `write_elements`; it returns `Ok`. -/
def closure (keep : Element → Bool) (i : Fin T) (e : Element) (s : TlState T) : TlState T × Bool := (tlAct keep i e s, true)

/-- One step of one of the threads of `examples/parallel-pbf-io.rs:12-72`; each constructor names its lines. `readCap` is the length of the queue of `parallel_for_each`. -/
inductive Step (g : ParSystem.Config) (readCap : Nat) (keep : Element → Bool) : ParallelIo T → ParallelIo T → Prop
  /-- a thread of the writer, or the main thread: `write_header` before reading (`parallel-pbf-io.rs:37-40`) or, after
  `parallel_for_each` has returned, `close` (`parallel-pbf-io.rs:68-69`) -/
  | writer (s : ParallelIo T) (w : ParSystem) (h : ParSystem.Step g s.writer w) (hc : w.stage = s.writer.stage ∨ s.reader.returned = true) :
      Step g readCap keep s { s with writer := w }
  /-- a thread of the reader, or the main thread in `parallel_for_each`, but not the call at the end of a block; only after `write_header` has returned -/
  | read (s : ParallelIo T) (r : ForEach T (TlState T)) (ho : s.writer.ops = []) (h : ForEach.Step (closure keep) readCap s.reader r)
      (hb : r.shared.batches = s.reader.shared.batches) :
      Step g readCap keep s { s with reader := r }
  /-- a thread of the reader, at the end of a block, locks the writer and calls `write_elements`, `parallel-pbf-io.rs:55-59`; it waits while another thread
  does so or while the queue is full. -/
  | handOver (s : ParallelIo T) (r : ForEach T (TlState T)) (b : List Element) (ho : s.writer.ops = []) (h : ForEach.Step (closure keep) readCap s.reader r)
      (hb : r.shared.batches = s.reader.shared.batches ++ [b]) (hf : s.writer.failed = false) (hq : s.writer.orderQueue.length < g.cap) :
      Step g readCap keep s { reader := r, writer := { s.writer with orderQueue := s.writer.orderQueue ++ [.exec (.elements b)] } }

/-- Any number of steps. (`examples/parallel-pbf-io.rs:12-72`) -/
abbrev Steps (g : ParSystem.Config) (readCap : Nat) (keep : Element → Bool) : ParallelIo T → ParallelIo T → Prop :=
  Relation.ReflTransGen (Step g readCap keep)

/-- The program after creating the reader and the writer, `parallel-pbf-io.rs:19-35`. `cmds`: the commands of the blobs of the file. -/
def init (cmds : List (Option (List Element))) : ParallelIo T :=
  ⟨ForEach.init cmds ⟨fun _ => [], []⟩, ParSystem.init [.header]⟩

end ParallelIo

/-- The states of the program on a file whose blobs are `ds` (`examples/parallel-pbf-io.rs:12-72`). -/
inductive ParallelIoOccurs (g : ParSystem.Config) (file : Bytes) {T : Nat} (readCap : Nat) (keep : Element → Bool) (ds : List BlobDesc) :
    ParallelIo T → Prop
  | run (fuel : Nat) (s : ParallelIo T) (hb : takeBlobs file fuel {} = (ds, .done))
      (hs : ParallelIo.Steps g readCap keep (ParallelIo.init (ds.map (iterationCalls g.z file))) s) :
      ParallelIoOccurs g file readCap keep ds s

end OsmIo
