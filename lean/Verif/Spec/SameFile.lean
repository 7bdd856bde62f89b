import Verif.Spec.ParallelIo
import Verif.Spec.File
/-! # Specification vocabulary: the blocks a sequential and a parallel writer make of the same elements -/
namespace OsmIo.Spec

/-- The empty block a sequential writer puts between the elements `before` of one type and the elements `after` of the next: there is one if the elements
before the change fill their blocks of 8000 exactly (or there are none), and some element follows. -/
def emptyBetween (before after : List Element) : List (List Element) :=
  if after ≠ [] ∧ 8000 ∣ before.length then [[]] else []

end OsmIo.Spec
