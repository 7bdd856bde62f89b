import Verif.Model.Writer
import Mathlib.Logic.Relation
/-!
# The parallel writer (`src/osm/pbf/parallel_writer.rs`)

Three pools: one ordering thread, four encoding threads, one writing thread.

* The ordering thread executes the commands of `write_element` and `write_elements` in the order of the calls (a single
  thread with a FIFO queue), then `flush_all_sorted` on `close`. It is a sequential program: `Orderer`.
* The encoding and writing threads run concurrently with it: `Pipeline`, a transition system.

`command_executor::ThreadPool` is outside of `/repo`. Assumed: commands submitted to a pool are executed once; a pool with a single thread executes them in
order of submission; a pool of several threads may execute them in any order; `in_all_threads` runs after the commands submitted before it. The bounds of the
queues (256) only delay submissions and are left out.
-/
namespace OsmIo

/-- Comparison used for sorting (`impl Ord for Element`): `a` need not be moved behind `b`.
(`src/osm/model/element.rs:208-317`) -/
def Element.le (a b : Element) : Bool := a.cmp b != .gt

/-- `slice::sort` of the standard library: for elements that are totally ordered it is the stable sort. With sentinels
the comparison is not an order, and the documentation only promises that the result is a permutation (or a panic, not modelled).
(used in `src/osm/pbf/parallel_writer.rs:40,54`) -/
structure StdSort where
  sort : List Element → List Element
  perm : ∀ l, (sort l).Perm l
  stable : ∀ l, (∀ e ∈ l, e ≠ .sentinel) → sort l = l.mergeSort Element.le

/-- The thread locals of the ordering thread, `parallel_writer.rs:22-29`, and the file blocks it has submitted so far
(`FILE_BLOCK_INDEX` starts at 1: the block at position `k` was submitted with index `k + 1`). -/
structure Orderer where
  buffer : List Element := []
  min : Option Element := none
  blocks : List (List Element) := []
  deriving DecidableEq, Repr

/-- The loop of `split_file_block`, `parallel_writer.rs:70-85`; `n` iterations left, `elements` collected. -/
def splitGo : Nat → List Element → List Element → List Element × List Element
  | 0, elements, buffer => (elements, buffer)
  | _ + 1, elements, [] => (elements, [])
  | n + 1, elements, e :: buffer =>
    if elements.isEmpty || (elements.head?.elim false fun f => e.sameType f) then splitGo n (elements ++ [e]) buffer
    else (elements, e :: buffer)

/-- `split_file_block`, `parallel_writer.rs:68-87`. -/
def splitFileBlock (blockSize : Nat) (buffer : List Element) : List Element × List Element := splitGo blockSize [] buffer

/-- Body shared by `flush_sorted_top` and the loop of `flush_all_sorted` after sorting, `parallel_writer.rs:41-48` and
`56-63`: split off a block, remember its first element, submit it. -/
def Orderer.emit (blockSize : Nat) (s : Orderer) : Orderer :=
  let (elements, buffer) := splitFileBlock blockSize s.buffer
  { buffer, min := elements.head?.or s.min, blocks := s.blocks ++ [elements] }

/-- `flush_sorted_top`, `parallel_writer.rs:38-50`. -/
def Orderer.flushTop (S : StdSort) (blockSize : Nat) (s : Orderer) : Orderer :=
  { s with buffer := S.sort s.buffer }.emit blockSize

/-- The loop of `flush_all_sorted`, `parallel_writer.rs:55-64`, as a big-step relation (the loop may not end). -/
inductive Orderer.FlushLoop (blockSize : Nat) : Orderer → Orderer → Prop
  | done (s : Orderer) (h : s.buffer = []) : FlushLoop blockSize s s
  | step (s s' : Orderer) (h : s.buffer ≠ []) (hn : FlushLoop blockSize (s.emit blockSize) s') : FlushLoop blockSize s s'

/-- `flush_all_sorted`, `parallel_writer.rs:52-66`. -/
def Orderer.FlushAll (S : StdSort) (blockSize : Nat) (s s' : Orderer) : Prop :=
  FlushLoop blockSize { s with buffer := S.sort s.buffer } s'

/-- `assert_order` (with `compare_to_current_min_element`), `parallel_writer.rs:109-133`; `false` is the panic. -/
def Orderer.assertOrder (s : Orderer) (e : Element) : Bool :=
  e.isSentinel ||
    match s.min with
    | none => true
    | some m => e.cmp m != .lt

/-- Adding one element to the ordering buffer, `parallel_writer.rs:162-163` and `189-190`. -/
def Orderer.push (s : Orderer) (e : Element) : Out Orderer :=
  if s.assertOrder e then .ok { s with buffer := s.buffer ++ [e] } else .panic

/-- The check for a full buffer, `parallel_writer.rs:164-166` and `192-194`. -/
def Orderer.checkFull (S : StdSort) (bufferSize blockSize : Nat) (s : Orderer) : Orderer :=
  if s.buffer.length > bufferSize then s.flushTop S blockSize else s

/-- A call of `write_element` or `write_elements`, `parallel_writer.rs:370-386`. -/
inductive WriteCall where
  | element (e : Element)
  | elements (es : List Element)
  deriving DecidableEq, Repr

/-- `AddElementCommand::execute` and `AddElementsCommand::execute`, `parallel_writer.rs:158-170`, `184-198`. -/
def Orderer.exec (S : StdSort) (bufferSize blockSize : Nat) (s : Orderer) : WriteCall → Out Orderer
  | .element e => do
    let s ← s.push e
    .ok (s.checkFull S bufferSize blockSize)
  | .elements es => do
    let s ← es.foldlM (fun s e => s.push e) s
    .ok (s.checkFull S bufferSize blockSize)

/-- A sequence of calls. (calls of `src/osm/pbf/parallel_writer.rs:371-396`) -/
def Orderer.run (S : StdSort) (bufferSize blockSize : Nat) (s : Orderer) (calls : List WriteCall) : Out Orderer :=
  calls.foldlM (fun s c => s.exec S bufferSize blockSize c) s

/-- The file blocks produced by a sequence of calls followed by `close` (`parallel_writer.rs:389-401`). -/
def ParallelBlocks (S : StdSort) (bufferSize blockSize : Nat) (calls : List WriteCall) (blocks : List (List Element)) : Prop :=
  ∃ s s', Orderer.run S bufferSize blockSize {} calls = .ok s ∧ s.FlushAll S blockSize s' ∧ s'.blocks = blocks

/-! ## Encoding and writing -/

/-- A blob header and a blob body. (`src/osm/pbf/parallel_writer.rs:32`) -/
abbrev Blob := Bytes × Bytes

/-- State of the encoding and writing pools.
* `todo`: blocks the ordering thread will still submit, with their indices;
* `queue`: blocks waiting for an encoding thread; `encoding`: blocks on an encoding thread;
* `writeQueue`: blobs waiting for the writing thread, oldest first;
* `held` : `BLOB_ORDERING_BUFFER`; `next` : `NEXT_TO_WRITE` (`parallel_writer.rs:32-34`);
* `writer`: the `Writer` of the writing thread, after `write_header` (`parallel_writer.rs:346-368`). -/
structure Pipeline where
  todo : List (Nat × List Element)
  queue : List (Nat × List Element)
  encoding : List (Nat × List Element)
  writeQueue : List (Nat × Blob)
  held : List (Nat × Blob)
  next : Nat
  writer : Writer

/-- `HashMap::remove`. (used in `src/osm/pbf/parallel_writer.rs:260,269`) -/
def mapRemove (k : Nat) (m : List (Nat × Blob)) : Option (Blob × List (Nat × Blob)) :=
  match m.find? fun x => x.1 == k with
  | none => none
  | some x => some (x.2, m.filter fun x => x.1 != k)

/-- `HashMap::insert`: replaces an older entry. (used in `src/osm/pbf/parallel_writer.rs:260,269`) -/
def mapInsert (k : Nat) (b : Blob) (m : List (Nat × Blob)) : List (Nat × Blob) := (k, b) :: m.filter fun x => x.1 != k

/-- The loop of `WriteBlobCommand::execute`, `parallel_writer.rs:267-282`. Each round removes an entry, so `fuel` larger than the
number of entries is enough. -/
def writeReady : Nat → List (Nat × Blob) → Nat → Writer → List (Nat × Blob) × Nat × Writer
  | 0, m, i, w => (m, i, w)
  | fuel + 1, m, i, w =>
    match mapRemove i m with
    | none => (m, i, w)
    | some (b, m') => writeReady fuel m' (i + 1) (w.writeBlob b.1 b.2)

namespace Pipeline

/-- Before the first element: the header is written, `blocks` are still to come, numbered from 1.
(`src/osm/pbf/parallel_writer.rs:201-300`) -/
def init (z : Zlib) (info : FileInfo) (c : CompressionType) (blocks : List (List Element)) : Pipeline :=
  { todo := (blocks.zipIdx 1).map fun x => (x.2, x.1)
    queue := [], encoding := [], writeQueue := [], held := [], next := 1
    writer := (Writer.fromFileInfo info c).writeHeader z }

/-- One step of one of the threads. `threads` is the number of encoding threads (4 in `parallel_writer.rs:322`). -/
inductive Step (z : Zlib) (c : CompressionType) (threads : Nat) : Pipeline → Pipeline → Prop
  /-- the ordering thread submits its next block, `parallel_writer.rs:46-47` -/
  | submit (p : Pipeline) (b) (rest) (h : p.todo = b :: rest) :
      Step z c threads p { p with todo := rest, queue := p.queue ++ [b] }
  /-- an idle encoding thread takes a waiting block -/
  | take (p : Pipeline) (l r) (b) (h : p.queue = l ++ b :: r) (ht : p.encoding.length < threads) :
      Step z c threads p { p with queue := l ++ r, encoding := p.encoding ++ [b] }
  /-- `EncodeFileBlockCommand::execute` ends, `parallel_writer.rs:214-231` -/
  | encode (p : Pipeline) (l r) (k) (es) (h : p.encoding = l ++ (k, es) :: r) :
      Step z c threads p { p with encoding := l ++ r
                                  writeQueue := p.writeQueue ++ [(k, (FileBlock.data es).serialize z c)] }
  /-- `WriteBlobCommand::execute`, `parallel_writer.rs:250-289` -/
  | write (p : Pipeline) (k) (b) (rest) (h : p.writeQueue = (k, b) :: rest) :
      Step z c threads p
        (let m := mapInsert k b p.held
         let r := writeReady (m.length + 1) m p.next p.writer
         { p with writeQueue := rest, held := r.1, next := r.2.1, writer := r.2.2 })

/-- Any number of steps. (`src/osm/pbf/parallel_writer.rs:201-300`) -/
abbrev Steps (z : Zlib) (c : CompressionType) (threads : Nat) : Pipeline → Pipeline → Prop := Relation.ReflTransGen (Step z c threads)

/-- `close` has joined the three pools, `parallel_writer.rs:389-396`. -/
def Drained (p : Pipeline) : Prop := p.todo = [] ∧ p.queue = [] ∧ p.encoding = [] ∧ p.writeQueue = []

end Pipeline
end OsmIo
