import Verif.Spec.ParallelWriter
/-! # Specification vocabulary: stable sorting -/
namespace OsmIo.Spec

instance (a b : Element) : Decidable (SameKey a b) := by unfold SameKey; infer_instance

/-- The elements with the type, id and version of `k`, in their order. -/
def withKey (k : Element) (l : List Element) : List Element := l.filter fun e => decide (SameKey k e)

/-- `m` has the elements of `l` sorted by type, id and version; elements that agree in all three are in the same order as in `l`. -/
structure StablySorted (l m : List Element) : Prop where
  perm : m.Perm l
  sorted : Sorted m
  stable : ∀ k, withKey k m = withKey k l

end OsmIo.Spec
