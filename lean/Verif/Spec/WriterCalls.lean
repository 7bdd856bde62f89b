import Verif.Model.WriterCalls
import Verif.Spec.File
/-!
# Specification vocabulary: sequences of calls on a sequential writer
-/
namespace OsmIo.Spec

/-- The elements given one by one, without Sentinels, in the order of the calls. -/
def singles : List WriterCall → List Element
  | [] => []
  | .element e :: cs => realOnes [e] ++ singles cs
  | _ :: cs => singles cs

/-- The blocks given as such, in the order of the calls: by `write_header` (the metadata `info` of the writer),
`write_file_block` and `write_elements` (one block for each list). -/
def batches (info : FileInfo) : List WriterCall → List FileBlock
  | [] => []
  | .header :: cs => .header info :: batches info cs
  | .block b :: cs => b :: batches info cs
  | .elements es :: cs => .data es :: batches info cs
  | _ :: cs => batches info cs

/-- `c` has the members of `a` and those of `b`, each in their order. -/
inductive Merged {α : Type} : List α → List α → List α → Prop
  | nil : Merged [] [] []
  | left {x : α} {a b c : List α} : Merged a b c → Merged (x :: a) b (x :: c)
  | right {x : α} {a b c : List α} : Merged a b c → Merged a (x :: b) (x :: c)

end OsmIo.Spec
