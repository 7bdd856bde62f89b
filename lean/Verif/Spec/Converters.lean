import Verif.Spec.Calendar
/-! # Specification vocabulary: times as ISO 8601 texts -/
namespace OsmIo.Spec
open OsmIo.Text OsmIo.Sql

/-- `x` is `YYYY-MM-DDTHH:MM:SSZ`, for the time `secs` seconds after the start of 1970 (UTC). -/
def IsoText (x : Text) (secs : Int) : Prop :=
  ∃ (n : Int) (d : Date) (h m s : Nat), DayIs n d ∧ 0 ≤ d.year ∧ d.year ≤ 9999 ∧ h < 24 ∧ m < 60 ∧ s < 60 ∧
    secs = ((n * 24 + h) * 60 + m) * 60 + s ∧
    x = four d.year.toNat ++ ['-'] ++ two d.month ++ ['-'] ++ two d.day ++ ['T'] ++ two h ++ [':'] ++ two m ++ [':'] ++ two s ++ ['Z']

end OsmIo.Spec
