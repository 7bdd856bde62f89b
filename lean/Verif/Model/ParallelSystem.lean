import Verif.Model.ParallelWriter
/-!
# The parallel writer as a whole: caller, ordering thread, encoding threads, writing thread

`Model/ParallelWriter.lean` splits the parallel writer into the sequential program of the ordering thread and the pools behind it. Here
all of them run together, with the bounded queues between them, the locks and the three joins of `close`.

About `command_executor::ThreadPool` (outside of `/repo`) the same is assumed as there, and: `submit` waits while the queue of the pool is full;
`shutdown` followed by `join` waits until all submitted commands are executed. A thread whose command panics stops the system (`failed`); what the
other threads do afterwards is not modelled.
-/
namespace OsmIo

/-- What a program can do with a parallel writer before it closes it: `write_header`, `parallel_writer.rs:345-368`, or one of the calls
in `parallel_writer.rs:371-386`. -/
inductive Op where
  | header
  | write (c : WriteCall)
  deriving DecidableEq, Repr

/-- A command in the queue of the ordering pool: that of `write_element(s)`, `parallel_writer.rs:371-386`, or `flush_all_sorted`,
`parallel_writer.rs:398-401`. -/
inductive OrderCmd where
  | exec (c : WriteCall)
  | flush
  deriving DecidableEq, Repr

/-- A command in the queue of the writing pool: the closure of `write_header`, `parallel_writer.rs:351-366`, or a `WriteBlobCommand`,
`parallel_writer.rs:233-247`. -/
inductive WriteCmd where
  | header
  | blob (k : Nat) (b : Blob)

/-- The state of the caller, of the three pools and of the file.
* `ops`: what the program will still do before `close`;
* `stage`: 0 before `close`; 1 while `close` waits for the ordering pool; 2 for the encoding pool; 3 for the writing pool; 4 when `close` has returned
  (`parallel_writer.rs:389-396`);
* `orderQueue`: the queue of the ordering pool, `orderer`: the thread locals of its thread, `flushing`: it is inside `flush_all_sorted`,
  `sent`: number of blocks it has submitted (`FILE_BLOCK_INDEX` is `sent + 1`); a block made but not yet submitted is in `orderer.blocks`;
* `queue`, `encoding`, `held`, `next`: as in `Pipeline`; `writeQueue`: the queue of the writing pool;
* `writer`: `PBF_WRITER`, `parallel_writer.rs:35`;
* `failed`: a thread has panicked. -/
structure ParSystem where
  ops : List Op
  stage : Nat := 0
  orderQueue : List OrderCmd := []
  orderer : Orderer := {}
  flushing : Bool := false
  sent : Nat := 0
  queue : List (Nat × List Element) := []
  encoding : List (Nat × List Element) := []
  writeQueue : List WriteCmd := []
  held : List (Nat × Blob) := []
  next : Nat := 1
  writer : Option Writer := none
  failed : Bool := false

namespace ParSystem

/-- The configuration of a parallel writer: `ParallelWriter::from_file_info`, `parallel_writer.rs:311-343`. `cap` is the length of the queues
(256 there), `threads` the number of encoding threads (4 there). -/
structure Config where
  z : Zlib
  S : StdSort
  info : FileInfo
  c : CompressionType
  bufferSize : Nat
  blockSize : Nat
  cap : Nat
  threads : Nat

/-- The ordering thread is between two commands, or two rounds of the loop of `flush_all_sorted`: it has submitted the blocks made so far.
(`src/osm/pbf/parallel_writer.rs:46-47,61-62`) -/
def Ready (s : ParSystem) : Prop := s.sent = s.orderer.blocks.length

/-- One step of one of the threads of `src/osm/pbf/parallel_writer.rs:27-434`; each constructor names its lines. -/
inductive Step (g : Config) : ParSystem → ParSystem → Prop
  /-- the program calls `write_header`, `parallel_writer.rs:345-368` -/
  | header (s : ParSystem) (ops) (hf : s.failed = false) (h0 : s.stage = 0) (h : s.ops = .header :: ops) (hc : s.writeQueue.length < g.cap) :
      Step g s { s with ops := ops, writeQueue := s.writeQueue ++ [.header] }
  /-- the program calls `write_element` or `write_elements`, `parallel_writer.rs:371-386` -/
  | call (s : ParSystem) (c) (ops) (hf : s.failed = false) (h0 : s.stage = 0) (h : s.ops = .write c :: ops) (hc : s.orderQueue.length < g.cap) :
      Step g s { s with ops := ops, orderQueue := s.orderQueue ++ [.exec c] }
  /-- the program calls `close`: `flush_element_ordering`, `parallel_writer.rs:390`, `398-401` -/
  | close (s : ParSystem) (hf : s.failed = false) (h0 : s.stage = 0) (h : s.ops = []) (hc : s.orderQueue.length < g.cap) :
      Step g s { s with stage := 1, orderQueue := s.orderQueue ++ [.flush] }
  /-- the ordering pool is joined, `parallel_writer.rs:391` -/
  | joinOrdering (s : ParSystem) (hf : s.failed = false) (h1 : s.stage = 1) (hq : s.orderQueue = []) (hfl : s.flushing = false) (hr : s.Ready) :
      Step g s { s with stage := 2 }
  /-- the encoding pool is joined, `parallel_writer.rs:392` -/
  | joinEncoding (s : ParSystem) (hf : s.failed = false) (h2 : s.stage = 2) (hq : s.queue = []) (he : s.encoding = []) :
      Step g s { s with stage := 3 }
  /-- the writing pool is joined, `parallel_writer.rs:393-395` -/
  | joinWriting (s : ParSystem) (hf : s.failed = false) (h3 : s.stage = 3) (hq : s.writeQueue = []) :
      Step g s { s with stage := 4 }
  /-- the ordering thread executes the command of a call, `parallel_writer.rs:158-170`, `184-198` -/
  | exec (s : ParSystem) (c) (rest) (o) (hf : s.failed = false) (h : s.orderQueue = .exec c :: rest) (hfl : s.flushing = false) (hr : s.Ready)
      (ho : s.orderer.exec g.S g.bufferSize g.blockSize c = .ok o) :
      Step g s { s with orderQueue := rest, orderer := o }
  /-- the same when an element is out of order, `parallel_writer.rs:109-121` -/
  | execPanic (s : ParSystem) (c) (rest) (hf : s.failed = false) (h : s.orderQueue = .exec c :: rest) (hfl : s.flushing = false) (hr : s.Ready)
      (ho : s.orderer.exec g.S g.bufferSize g.blockSize c = .panic) :
      Step g s { s with failed := true }
  /-- the ordering thread begins `flush_all_sorted`, `parallel_writer.rs:52-54` -/
  | flushStart (s : ParSystem) (rest) (hf : s.failed = false) (h : s.orderQueue = .flush :: rest) (hfl : s.flushing = false) (hr : s.Ready) :
      Step g s { s with orderQueue := rest, flushing := true, orderer := { s.orderer with buffer := g.S.sort s.orderer.buffer } }
  /-- a round of its loop, `parallel_writer.rs:55-57` -/
  | flushRound (s : ParSystem) (hf : s.failed = false) (hfl : s.flushing = true) (hr : s.Ready) (hb : s.orderer.buffer ≠ []) :
      Step g s { s with orderer := s.orderer.emit g.blockSize }
  /-- the end of its loop, `parallel_writer.rs:55` -/
  | flushEnd (s : ParSystem) (hf : s.failed = false) (hfl : s.flushing = true) (hr : s.Ready) (hb : s.orderer.buffer = []) :
      Step g s { s with flushing := false }
  /-- the ordering thread submits a block, `parallel_writer.rs:43-48`, `58-63`. Not while `close` holds the lock of the encoding pool
  (`parallel_writer.rs:427-433`), nor to a full queue -/
  | submit (s : ParSystem) (b) (hf : s.failed = false) (hb : s.orderer.blocks[s.sent]? = some b) (hl : s.stage < 2) (hc : s.queue.length < g.cap) :
      Step g s { s with sent := s.sent + 1, queue := s.queue ++ [(s.sent + 1, b)] }
  /-- an idle encoding thread takes a waiting block -/
  | take (s : ParSystem) (l r) (b) (hf : s.failed = false) (h : s.queue = l ++ b :: r) (ht : s.encoding.length < g.threads) :
      Step g s { s with queue := l ++ r, encoding := s.encoding ++ [b] }
  /-- an encoding thread has encoded its block and submits it, `parallel_writer.rs:214-231`; not while `close` holds the lock of the writing pool, nor to a full queue -/
  | encode (s : ParSystem) (l r) (k) (es) (hf : s.failed = false) (h : s.encoding = l ++ (k, es) :: r) (hl : s.stage < 3)
      (hc : s.writeQueue.length < g.cap) :
      Step g s { s with encoding := l ++ r
                        writeQueue := s.writeQueue ++ [.blob k ((FileBlock.data es).serialize g.z g.c)] }
  /-- the writing thread opens the file and writes the header unless that is done, `parallel_writer.rs:351-366` -/
  | writeHeader (s : ParSystem) (rest) (hf : s.failed = false) (h : s.writeQueue = .header :: rest) :
      Step g s { s with writeQueue := rest, writer := some (s.writer.getD ((Writer.fromFileInfo g.info g.c).writeHeader g.z)) }
  /-- the writing thread executes a `WriteBlobCommand`, `parallel_writer.rs:250-289` -/
  | write (s : ParSystem) (k) (b) (rest) (w) (hf : s.failed = false) (h : s.writeQueue = .blob k b :: rest) (hw : s.writer = some w) :
      Step g s
        (let m := mapInsert k b s.held
         let r := writeReady (m.length + 1) m s.next w
         { s with writeQueue := rest, held := r.1, next := r.2.1, writer := some r.2.2 })
  /-- the same without a file, for a blob that has to wait for an earlier one, `parallel_writer.rs:251-272` -/
  | wait (s : ParSystem) (k) (b) (rest) (hf : s.failed = false) (h : s.writeQueue = .blob k b :: rest) (hw : s.writer = none)
      (hn : mapRemove s.next (mapInsert k b s.held) = none) :
      Step g s { s with writeQueue := rest, held := mapInsert k b s.held }
  /-- the same without a file when there is a blob to be written: a panic, `parallel_writer.rs:275` -/
  | writePanic (s : ParSystem) (k) (b) (rest) (hf : s.failed = false) (h : s.writeQueue = .blob k b :: rest) (hw : s.writer = none)
      (hn : mapRemove s.next (mapInsert k b s.held) ≠ none) :
      Step g s { s with failed := true }

/-- Any number of steps, in any order the threads may take. (`src/osm/pbf/parallel_writer.rs:300-434`) -/
abbrev Steps (g : Config) : ParSystem → ParSystem → Prop := Relation.ReflTransGen (Step g)

/-- A new parallel writer, `parallel_writer.rs:311-343`, and a program that will perform `ops` and then call `close`. -/
def init (ops : List Op) : ParSystem := { ops := ops }

/-- The contents of the file. It is created by `write_header`, `parallel_writer.rs:354-361`. -/
def file (s : ParSystem) : Option Bytes := s.writer.map (·.file)

end ParSystem
end OsmIo
