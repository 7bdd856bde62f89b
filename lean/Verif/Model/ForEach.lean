import Verif.Model.Pool
/-!
# `Reader::parallel_for_each` as a whole

`Model/Pool.lean` covers runs in which all goes well, with all commands submitted at once. Here the caller reads blob after blob and submits its command to
a queue of bounded length while the threads work, the user function may fail, blobs may be unreadable, and a thread may die of a failed command.

What `command_executor::ThreadPool` does with a command that returns an error or panics is not known here: the thread may go on with
another command or stop working. Both are possible steps.
-/
namespace OsmIo

/-- State of the caller and of the pool of `T` threads.
* `sent`: number of blobs whose commands have been submitted, `left`: the commands of the following blobs (`none`: an unreadable blob);
* `queue`: commands waiting for a thread; `running`: the calls a thread still has to make for its command; `dead`: threads that work no more;
* `shared`: what the user function works on; `log`: the calls made so far: thread, number of the blob, element, whether it succeeded;
* `returned`: `parallel_for_each` has returned.
(`src/osm/pbf/reader.rs:183-204`) -/
structure ForEach (T : Nat) (σ : Type) where
  sent : Nat
  left : List (Option (List Element))
  queue : List (Nat × Option (List Element))
  running : Fin T → Option (Nat × List Element)
  dead : Fin T → Bool
  shared : σ
  log : List (Fin T × Nat × Element × Bool)
  returned : Bool

namespace ForEach
variable {T : Nat} {σ : Type}

/-- Before the first blob, `reader.rs:184-190`; `cmds` are the commands of the blobs. -/
def init (cmds : List (Option (List Element))) (s : σ) : ForEach T σ :=
  ⟨0, cmds, [], fun _ => none, fun _ => false, s, [], false⟩

/-- One step of the caller or of a thread. `f i e` is the effect of the call of the user function with `e` on thread `i`, and whether it succeeds.
`cap` is the length of the queue (1024 in `reader.rs:186`). -/
inductive Step (f : Fin T → Element → σ → σ × Bool) (cap : Nat) : ForEach T σ → ForEach T σ → Prop
  /-- the caller submits the command of the next blob, `reader.rs:191-199` -/
  | submit (p : ForEach T σ) (c) (rest) (h : p.left = c :: rest) (hc : p.queue.length < cap) :
      Step f cap p { p with sent := p.sent + 1, left := rest, queue := p.queue ++ [(p.sent, c)] }
  /-- a thread takes a command and reads its blob, `parallel_element_iteration_command.rs:26` -/
  | take (p : ForEach T σ) (i : Fin T) (l r) (k) (es) (hq : p.queue = l ++ (k, some es) :: r) (hi : p.running i = none) (hd : p.dead i = false) :
      Step f cap p { p with queue := l ++ r, running := Function.update p.running i (some (k, es)) }
  /-- the same when the blob cannot be read; `d`: the thread works no more -/
  | unreadable (p : ForEach T σ) (i : Fin T) (l r) (k) (d) (hq : p.queue = l ++ (k, none) :: r) (hi : p.running i = none) (hd : p.dead i = false) :
      Step f cap p { p with queue := l ++ r, dead := Function.update p.dead i d }
  /-- a call of the user function, `parallel_element_iteration_command.rs:28-31` -/
  | call (p : ForEach T σ) (i : Fin T) (k) (e) (rest) (hi : p.running i = some (k, e :: rest)) (hf : (f i e p.shared).2 = true) :
      Step f cap p { p with running := Function.update p.running i (some (k, rest)), shared := (f i e p.shared).1
                            log := p.log ++ [(i, k, e, true)] }
  /-- a call that fails ends the command (`?` in `parallel_element_iteration_command.rs:29,31`); `d`: the thread works no more -/
  | fail (p : ForEach T σ) (i : Fin T) (k) (e) (rest) (d) (hi : p.running i = some (k, e :: rest)) (hf : (f i e p.shared).2 = false) :
      Step f cap p { p with running := Function.update p.running i none, shared := (f i e p.shared).1
                            log := p.log ++ [(i, k, e, false)], dead := Function.update p.dead i d }
  /-- a command has ended, `parallel_element_iteration_command.rs:33` -/
  | finish (p : ForEach T σ) (i : Fin T) (k) (hi : p.running i = some (k, [])) :
      Step f cap p { p with running := Function.update p.running i none }
  /-- `shutdown` and `join`, `reader.rs:201-203` -/
  | join (p : ForEach T σ) (hr : p.returned = false) (hl : p.left = []) (hq : p.queue = []) (hi : ∀ i, p.running i = none) :
      Step f cap p { p with returned := true }

/-- Any number of steps. (`src/osm/pbf/reader.rs:183-204`) -/
abbrev Steps (f : Fin T → Element → σ → σ × Bool) (cap : Nat) : ForEach T σ → ForEach T σ → Prop := Relation.ReflTransGen (Step f cap)

end ForEach

/-- The states of `reader.parallel_for_each(T, f)` on a file whose blobs are `ds` (`reader.rs:183-204`). -/
inductive ForEachOccurs (z : Zlib) (file : Bytes) {T : Nat} {σ : Type} (f : Fin T → Element → σ → σ × Bool) (cap : Nat) (s : σ) (ds : List BlobDesc) :
    ForEach T σ → Prop
  | run (fuel : Nat) (p : ForEach T σ) (hb : takeBlobs file fuel {} = (ds, .done))
      (hs : ForEach.Steps f cap (ForEach.init (ds.map (iterationCalls z file)) s) p) : ForEachOccurs z file f cap s ds p

end OsmIo
