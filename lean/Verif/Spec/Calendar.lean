import Verif.Model.Sql
/-!
# Specification vocabulary: the calendar and the text of a time

Independent of the arithmetic of the model: days are counted one by one from 1 January 1970.
-/
namespace OsmIo.Spec
open OsmIo.Text OsmIo.Sql

/-- Leap years of the Gregorian calendar. -/
def LeapYear (y : Int) : Prop := (4 ∣ y ∧ ¬ 100 ∣ y) ∨ 400 ∣ y

instance (y : Int) : Decidable (LeapYear y) := by unfold LeapYear; infer_instance

/-- Thirty days hath September, April, June and November; all the rest have 31, but February. -/
def monthDays (y : Int) (m : Nat) : Nat :=
  if m = 2 then if LeapYear y then 29 else 28
  else if m = 4 ∨ m = 6 ∨ m = 9 ∨ m = 11 then 30 else 31

/-- A date of the calendar. -/
def RealDate (d : Date) : Prop := 1 ≤ d.month ∧ d.month ≤ 12 ∧ 1 ≤ d.day ∧ d.day ≤ monthDays d.year d.month

/-- The next day. -/
def nextDay (d : Date) : Date :=
  if d.day < monthDays d.year d.month then ⟨d.year, d.month, d.day + 1⟩
  else if d.month < 12 then ⟨d.year, d.month + 1, 1⟩
  else ⟨d.year + 1, 1, 1⟩

/-- Day number `n` after (before, if negative) 1 January 1970 is the date `d`: found by going forward
or back day by day. -/
inductive DayIs : Int → Date → Prop
  | epoch : DayIs 0 ⟨1970, 1, 1⟩
  | forward {n : Int} {d : Date} : DayIs n d → DayIs (n + 1) (nextDay d)
  | back {n : Int} {d : Date} : RealDate d → DayIs (n + 1) (nextDay d) → DayIs n d

/-- Two digits. -/
def two (n : Nat) : Text := [digit (n / 10), digit (n % 10)]

/-- Four digits. -/
def four (n : Nat) : Text := two (n / 100) ++ two (n % 100)

/-- The number a list of digits denotes. -/
def decimal (ds : List Nat) : Nat := ds.foldl (fun a d => 10 * a + d) 0

/-- `x` is `YYYY-MM-DD HH:MM:SS`, for the time `secs` seconds after the start of 1970 (UTC). -/
def SecondText (x : Text) (secs : Int) : Prop :=
  ∃ (n : Int) (d : Date) (h m s : Nat), DayIs n d ∧ 0 ≤ d.year ∧ d.year ≤ 9999 ∧ h < 24 ∧ m < 60 ∧ s < 60 ∧
    secs = ((n * 24 + h) * 60 + m) * 60 + s ∧
    x = four d.year.toNat ++ ['-'] ++ two d.month ++ ['-'] ++ two d.day ++ [' '] ++ two h ++ [':'] ++ two m ++ [':'] ++ two s

/-- As `SecondText`, with or without a fraction of up to nine digits; in nanoseconds. -/
def TimeText (x : Text) (ns : Int) : Prop :=
  ∃ secs y, SecondText y secs ∧ ((x = y ∧ ns = secs * 10 ^ 9) ∨
    ∃ ds : List Nat, ds ≠ [] ∧ ds.length ≤ 9 ∧ (∀ d ∈ ds, d < 10) ∧ x = y ++ '.' :: ds.map digit ∧
      ns = secs * 10 ^ 9 + decimal ds * 10 ^ (9 - ds.length))

end OsmIo.Spec
