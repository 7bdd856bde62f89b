import Verif.Spec.ParallelSystem
/-! # Specification vocabulary for the moment a program calls `write_header` of a parallel writer -/
namespace OsmIo.Spec

/-- From the elements handed over by these calls (and no `close`) the ordering thread makes a block. -/
def MakesBlock (g : ParSystem.Config) (calls : List WriteCall) : Prop :=
  ∃ o, Orderer.run g.S g.bufferSize g.blockSize {} calls = .ok o ∧ o.blocks ≠ []

/-- One of these calls brings an element out of order, and the ordering thread panics (C27 says when). -/
def LosesOrder (g : ParSystem.Config) (calls : List WriteCall) : Prop := Orderer.run g.S g.bufferSize g.blockSize {} calls = .panic

end OsmIo.Spec
