import Verif.Model.Header
import Verif.Spec.File
/-! # Specification vocabulary for copying a file again -/
namespace OsmIo.Spec

/-- A side of the bounding box that is written to the header in the same way after it has been read back. Not all sides are: `C16_drift`. -/
def SettledSide (x : F64) : Prop := toNanodeg (fromNanodeg (toNanodeg x)) = toNanodeg x

/-- All sides are settled. -/
def SettledBox (b : BoundingBox) : Prop := SettledSide b.left ∧ SettledSide b.bottom ∧ SettledSide b.right ∧ SettledSide b.top

/-- The box as it is after it has been written to a header and read back (`C15_header_roundtrip`). -/
def backBox (b : BoundingBox) : BoundingBox :=
  ⟨fromNanodeg (toNanodeg b.left), fromNanodeg (toNanodeg b.bottom), fromNanodeg (toNanodeg b.right), fromNanodeg (toNanodeg b.top)⟩

end OsmIo.Spec
