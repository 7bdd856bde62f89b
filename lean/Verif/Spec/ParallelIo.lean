import Verif.Spec.ParallelWriter
/-! # Specification vocabulary for the parallel copy program -/
namespace OsmIo.Spec

/-- Sorted by type, id and version, and no two elements agree in all three. -/
def Ascending (es : List Element) : Prop := es.Pairwise Before

/-- The blocks are as full as possible: none is empty, none has more than `F` elements, none mixes types, and a block with fewer than `F` elements
is followed by one of another type. -/
def AsFull (F : Nat) (blocks : List (List Element)) : Prop :=
  (∀ b ∈ blocks, 1 ≤ b.length ∧ b.length ≤ F ∧ ∀ e ∈ b, ∀ f ∈ b, rank e = rank f) ∧
  blocks.IsChain fun a b => a.length = F ∨ ∀ e ∈ a, ∀ f ∈ b, rank e ≠ rank f

end OsmIo.Spec
