import Verif.Model.ChangingFile
/-! # Files that change while they are read -/
namespace OsmIo.Spec

/-- Everything seen is between these two contents: it begins with the one and is a beginning of the other. -/
def Sight.Between (first last : Bytes) (s : Sight) : Prop :=
  ∀ c ∈ [s.length, s.header, s.body], first <+: c ∧ c <+: last

end OsmIo.Spec
