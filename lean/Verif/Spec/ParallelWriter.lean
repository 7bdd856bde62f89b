import Verif.Model.ParallelWriter
import Verif.Spec.Parallel
/-! # Specification vocabulary for the parallel writer -/
namespace OsmIo.Spec

/-- The elements handed to the writer by a sequence of calls, in order. -/
def submitted (calls : List WriteCall) : List Element :=
  calls.flatMap fun
    | .element e => [e]
    | .elements es => es

/-- Sorted by type, id, version (equal keys allowed). -/
def Sorted (es : List Element) : Prop := es.Pairwise fun a b => ¬ Before b a

/-- There is no Sentinel among the elements. -/
def NoSentinel (es : List Element) : Prop := ∀ e ∈ es, e ≠ .sentinel

/-- No call submits an element that belongs before an element already put into a block. -/
def NoLate (S : StdSort) (bufferSize blockSize : Nat) (calls : List WriteCall) : Prop :=
  ∀ pre call post, calls = pre ++ call :: post → ∀ s, Orderer.run S bufferSize blockSize {} pre = .ok s →
    ∀ e ∈ submitted [call], ∀ x ∈ s.blocks.flatten, ¬ Before e x

/-- Each element is preceded by at most `d` elements that belong after it. -/
def Disorder (d : Nat) (es : List Element) : Prop :=
  ∀ pre e post, es = pre ++ e :: post → (pre.filter fun x => decide (Before e x)).length ≤ d

end OsmIo.Spec
