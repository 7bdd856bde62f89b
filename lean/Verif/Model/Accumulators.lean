import Verif.Model.Element
/-!
# Thread local accumulators (`src/osm/pbf/thread_local_accumulator.rs`)

Every accumulator of the process keeps its elements in one map of the calling thread, under its own id.
-/
namespace OsmIo

/-- `HashMap<String, Vec<Element>>` of one thread, as an association list without repeated keys. (`src/osm/pbf/thread_local_accumulator.rs:8-10`) -/
abbrev AccMap := List (String × List Element)

/-- `ThreadLocalAccumulator`: only its id matters; `capacity` is a hint for the allocation of memory.
(`src/osm/pbf/thread_local_accumulator.rs:13-25`) -/
structure TlAccumulator where
  id : String
  deriving DecidableEq, Repr

/-- `ThreadLocalAccumulator::add`, `src/osm/pbf/thread_local_accumulator.rs:27-42`. -/
def TlAccumulator.add (a : TlAccumulator) (e : Element) (m : AccMap) : AccMap :=
  match m.lookup a.id with
  | none => (a.id, [e]) :: m
  | some _ => m.map fun p => if p.1 = a.id then (p.1, p.2 ++ [e]) else p

/-- `ThreadLocalAccumulator::elements`, `src/osm/pbf/thread_local_accumulator.rs:44-54`. -/
def TlAccumulator.elements (a : TlAccumulator) (m : AccMap) : List Element × AccMap :=
  match m.lookup a.id with
  | none => ([], m)
  | some es => (es, m.map fun p => if p.1 = a.id then (p.1, []) else p)

/-- `ThreadLocalAccumulator::len`, `src/osm/pbf/thread_local_accumulator.rs:57-67`. -/
def TlAccumulator.len (a : TlAccumulator) (m : AccMap) : Nat :=
  match m.lookup a.id with
  | none => 0
  | some es => es.length

/-- A call on an accumulator. (`src/osm/pbf/thread_local_accumulator.rs:27-67`) -/
inductive AccCall where
  | add (e : Element)
  | elements
  | len
  deriving DecidableEq, Repr

/-- What a call returns. (`src/osm/pbf/thread_local_accumulator.rs:27-67`) -/
inductive AccResult where
  | unit
  | elements (es : List Element)
  | len (n : Nat)
  deriving DecidableEq, Repr

/-- A call on the map of the calling thread, `src/osm/pbf/thread_local_accumulator.rs:27-67`. -/
def TlAccumulator.call (a : TlAccumulator) (m : AccMap) : AccCall → AccResult × AccMap
  | .add e => (.unit, a.add e m)
  | .elements => (.elements (a.elements m).1, (a.elements m).2)
  | .len => (.len (a.len m), m)

/-- The maps of all threads (the type `θ`), empty at first, and calls by any threads in the order in which they happen; the results in that
order. A map belongs to its thread (`thread_local!`). `ids` gives the ids made by `Uuid::new_v4` for the accumulators (the type `α`).
(`src/osm/pbf/thread_local_accumulator.rs:8-67`) -/
def accRun {θ α : Type} [DecidableEq θ] (ids : α → String) : (θ → AccMap) → List (θ × α × AccCall) → List AccResult
  | _, [] => []
  | maps, (t, a, c) :: rest =>
    ((⟨ids a⟩ : TlAccumulator).call (maps t) c).1 ::
      accRun ids (fun u => if u = t then ((⟨ids a⟩ : TlAccumulator).call (maps t) c).2 else maps u) rest

end OsmIo
