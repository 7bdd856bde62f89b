import Mathlib.Logic.Relation
import Mathlib.Logic.Function.Basic
import Verif.Model.Reader
/-!
# Thread pools

`Reader::parallel_for_each` (`src/osm/pbf/reader.rs:183-204`) and `BoundingBoxCalculator::calc`
(`bounding_box_calculator.rs:22-51`) submit one command per blob to a `command_executor::ThreadPool` with `tasks`
threads, then shut it down with `ShutdownMode::CompletePending` and join it.

The crate `command_executor` is not part of `/repo`; the model makes no assumption about the order in which
commands are taken from the queue: an idle thread may take any waiting command. A command is a list of atomic
actions (calls of the user function, or critical sections); the actions of the threads interleave
arbitrarily. What is assumed: each command is executed once, by one thread, without preemption by another command of the same
thread, and `join` returns only when everything has been executed.
-/
namespace OsmIo

/-- State of a pool of `T` threads executing commands made of actions `α` on a shared state `σ`. Commands carry a number.
(command-executor crate, as used in `src/osm/pbf/reader.rs:183-204`, `src/osm/pbf/parallel_writer.rs:405-434`) -/
structure Pool (T : Nat) (α σ : Type) where
  pending : List (Nat × List α)
  running : Fin T → Option (Nat × List α)
  shared : σ
  /-- history: thread, command, action -/
  log : List (Fin T × Nat × α)

namespace Pool
variable {T : Nat} {α σ : Type}

/-- All commands submitted (`for blob_desc in self.blobs()? { pool.submit(..) }`, `reader.rs:191-199`), numbered from 0. -/
def init (cmds : List (List α)) (s : σ) : Pool T α σ :=
  ⟨cmds.zipIdx.map fun c => (c.2, c.1), fun _ => none, s, []⟩

/-- One step of one thread; `act i a` is the effect of action `a` executed by thread `i`.
(command-executor crate, as used in `src/osm/pbf/reader.rs:183-204`, `src/osm/pbf/parallel_writer.rs:405-434`) -/
inductive Step (act : Fin T → α → σ → σ) : Pool T α σ → Pool T α σ → Prop
  | take (p : Pool T α σ) (i : Fin T) (l r : List (Nat × List α)) (c : Nat × List α)
      (hp : p.pending = l ++ c :: r) (hi : p.running i = none) :
      Step act p { p with pending := l ++ r, running := Function.update p.running i (some c) }
  | act (p : Pool T α σ) (i : Fin T) (k : Nat) (a : α) (rest : List α) (hi : p.running i = some (k, a :: rest)) :
      Step act p { p with running := Function.update p.running i (some (k, rest))
                          shared := act i a p.shared
                          log := p.log ++ [(i, k, a)] }
  | finish (p : Pool T α σ) (i : Fin T) (k : Nat) (hi : p.running i = some (k, [])) :
      Step act p { p with running := Function.update p.running i none }

/-- Any number of steps.
(command-executor crate, as used in `src/osm/pbf/reader.rs:183-204`, `src/osm/pbf/parallel_writer.rs:405-434`) -/
abbrev Steps (act : Fin T → α → σ → σ) : Pool T α σ → Pool T α σ → Prop := Relation.ReflTransGen (Step act)

/-- `join` returns: nothing is waiting and all threads are idle.
(command-executor crate, as used in `src/osm/pbf/reader.rs:183-204`, `src/osm/pbf/parallel_writer.rs:405-434`) -/
def Done (p : Pool T α σ) : Prop := p.pending = [] ∧ ∀ i, p.running i = none

end Pool

/-- `reader.parallel_for_each(T, f)` (`reader.rs:183-204`) has returned `Ok`, with `p` the final state of the pool:
the blob iterator was drained, every blob could be read, and the pool has run the commands of the blobs to completion. `act i e` is the effect
of the call `f(e)` on thread `i` on the state the caller shares with `f`. (Calls of `f` that fail, and blobs that cannot be
read: `Model/ForEach.lean`.) -/
inductive ParallelForEach (z : Zlib) (file : Bytes) {T : Nat} {σ : Type} (act : Fin T → Element → σ → σ) (s : σ) :
    Pool T Element σ → Prop
  | run (fuel : Nat) (ds : List BlobDesc) (calls : List (List Element)) (p : Pool T Element σ)
      (hb : takeBlobs file fuel {} = (ds, .done)) (hc : ds.mapM (iterationCalls z file) = some calls)
      (hs : Pool.Steps act (Pool.init calls s) p) (hd : Pool.Done p) : ParallelForEach z file act s p

/-- The closure of `Reader::count_objects`, `reader.rs:247-263`: three atomic counters (`usize`). -/
def countAct {T : Nat} (_ : Fin T) (e : Element) (c : UInt64 × UInt64 × UInt64) : UInt64 × UInt64 × UInt64 :=
  match e with
  | .node _ => (c.1 + 1, c.2.1, c.2.2)
  | .way _ => (c.1, c.2.1 + 1, c.2.2)
  | .relation _ => (c.1, c.2.1, c.2.2 + 1)
  | .sentinel => c

/-- The value returned by `count_objects`, `reader.rs:266-272` (`as i64`). -/
def countResult (c : UInt64 × UInt64 × UInt64) : Int64 × Int64 × Int64 := (c.1.toInt64, c.2.1.toInt64, c.2.2.toInt64)

/-- The critical section of a `CalcBoundingBoxCommand` as an action, `calc_bounding_box_command.rs:47-54`. -/
def boxAct {T : Nat} (_ : Fin T) (b : Option BoundingBox) (result : Option BoundingBox) : Option BoundingBox :=
  mergeResult result b

/-- The actions of one `CalcBoundingBoxCommand`: nothing for a header block (`calc_bounding_box_command.rs:30`), `none` if
the blob cannot be read. -/
def boxCalls (z : Zlib) (file : Bytes) (d : BlobDesc) : Option (List (Option BoundingBox)) :=
  match FileBlock.fromBlobDesc z file d with
  | .ok (.data es) => some [blockBox es]
  | .ok (.header _) => some []
  | _ => none

/-- What `BoundingBoxCalculator::calc` returns, `bounding_box_calculator.rs:48-50`: `take().unwrap()`. -/
def boxResult (result : Option BoundingBox) : Out BoundingBox := Out.unwrap result

/-- `BoundingBoxCalculator::calc` has returned from `tp.join()` (`bounding_box_calculator.rs:36-49`), with `p` the final state of the pool. -/
inductive BoxCalculation (z : Zlib) (file : Bytes) {T : Nat} : Pool T (Option BoundingBox) (Option BoundingBox) → Prop
  | run (fuel : Nat) (ds : List BlobDesc) (calls : List (List (Option BoundingBox))) (p : Pool T (Option BoundingBox) (Option BoundingBox))
      (hb : takeBlobs file fuel {} = (ds, .done)) (hc : ds.mapM (boxCalls z file) = some calls)
      (hs : Pool.Steps boxAct (Pool.init calls none) p) (hd : Pool.Done p) : BoxCalculation z file p

/-- The same when some blobs cannot be read: their commands end with an error before they reach the critical section (`calc_bounding_box_command.rs:29`, `?`), and
`tp.join()` has returned nevertheless (`bounding_box_calculator.rs:48`; the errors of commands are not looked at). -/
inductive BoxReturned (z : Zlib) (file : Bytes) {T : Nat} : Pool T (Option BoundingBox) (Option BoundingBox) → Prop
  | run (fuel : Nat) (ds : List BlobDesc) (p : Pool T (Option BoundingBox) (Option BoundingBox))
      (hb : takeBlobs file fuel {} = (ds, .done))
      (hs : Pool.Steps boxAct (Pool.init (ds.map fun d => (boxCalls z file d).getD []) none) p) (hd : Pool.Done p) : BoxReturned z file p

/-! ## Thread local accumulation (`src/osm/pbf/thread_local_accumulator.rs`) -/

/-- The accumulator of each thread (`ACCUMULATORS[id]`; a missing entry is an empty vector) and the batches handed out so
far, in order. (`src/osm/pbf/thread_local_accumulator.rs:8-54`) -/
structure TlState (T : Nat) where
  acc : Fin T → List Element
  batches : List (List Element)

/-- `ThreadLocalAccumulator::add` on thread `i`, `thread_local_accumulator.rs:27-42`. -/
def TlState.add {T : Nat} (i : Fin T) (e : Element) (s : TlState T) : TlState T :=
  { s with acc := Function.update s.acc i (s.acc i ++ [e]) }

/-- `ThreadLocalAccumulator::elements` on thread `i`, `thread_local_accumulator.rs:44-54`: the batch is handed out and
the accumulator emptied. -/
def TlState.elements {T : Nat} (i : Fin T) (s : TlState T) : TlState T :=
  { acc := Function.update s.acc i [], batches := s.batches ++ [s.acc i] }

/-- The documented use, `examples/parallel-pbf-io.rs:42-66`: elements that pass the filter are accumulated, and on the
Sentinel the batch goes to the writer. -/
def tlAct {T : Nat} (keep : Element → Bool) (i : Fin T) (e : Element) (s : TlState T) : TlState T :=
  match e with
  | .sentinel => s.elements i
  | e => if keep e then s.add i e else s

end OsmIo
