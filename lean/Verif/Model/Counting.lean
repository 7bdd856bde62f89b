import Verif.Model.Reader
import Verif.Model.Pool
/-!
# The counting programs of `examples/`
-/
namespace OsmIo

/-- The counters of `examples/count-pbf-elements.rs:17-23` (`usize`). -/
structure Counts where
  nodes : UInt64 := 0
  ways : UInt64 := 0
  relations : UInt64 := 0
  tourismNodes : UInt64 := 0
  tourismWays : UInt64 := 0
  tourismRelations : UInt64 := 0
  deriving DecidableEq, Repr

/-- The loops over the tags, `count-pbf-elements.rs:29-33`, `37-41`, `45-49`. -/
def countTourism (tags : List Tag) (n : UInt64) : UInt64 := tags.foldl (fun n t => if t.k = "tourism" then n + 1 else n) n

/-- The body of the loop, `count-pbf-elements.rs:25-55`. -/
def countElement (c : Counts) : Element → Counts
  | .node n => { c with nodes := c.nodes + 1, tourismNodes := countTourism n.tags c.tourismNodes }
  | .way w => { c with ways := c.ways + 1, tourismWays := countTourism w.tags c.tourismWays }
  | .relation r => { c with relations := c.relations + 1, tourismRelations := countTourism r.tags c.tourismRelations }
  | .sentinel => c

/-- `examples/count-pbf-elements.rs:9-67`: what it reports, or how it ends otherwise. -/
def CountPbf (z : Zlib) (file : Bytes) (r : Out Counts) : Prop :=
  match openReader z file with
  | .err => r = .err
  | .panic => r = .panic
  | .ok _ => ∃ es e, ReadsElements z file es e ∧
      r = match e with
        | .done => .ok (es.foldl countElement {})
        | _ => .panic

/-- `examples/parallel-count-pbf-elements.rs:11-49` with `T` threads (4 there): what it reports, for files all of whose blobs can be read. -/
def ParallelCountPbf (z : Zlib) (file : Bytes) (T : Nat) (r : Out (UInt64 × UInt64 × UInt64)) : Prop :=
  match openReader z file with
  | .err => r = .err
  | .panic => r = .panic
  | .ok _ => ∃ p : Pool T Element (UInt64 × UInt64 × UInt64), ParallelForEach z file countAct (0, 0, 0) p ∧ r = .ok p.shared

end OsmIo
