import Verif.Model.FailingRead
/-!
# Which reads fail (C80)
-/
namespace OsmIo

/-- No operation on the `k`-th frame header fails. -/
def Spec.ReadFaults.FrameClean (fa : ReadFaults) (k : Nat) : Prop := ∀ j < 4, fa.frame k j = false

/-- No operation on the body of the `k`-th blob fails. -/
def Spec.ReadFaults.BodyClean (fa : ReadFaults) (k : Nat) : Prop := ∀ j < 3, fa.body k j = false

end OsmIo
