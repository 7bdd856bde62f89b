import Verif.Model.Ieee
import Mathlib.Order.Bounds.Basic
import Mathlib.Order.WithBot
/-! # The finite values of IEEE 754 binary64 -/
namespace OsmIo.Spec

/-- A finite double: a significand below 2^53 times a power of two with an exponent from -1074 to 971. -/
def IsBinary64 (q : ℚ) : Prop := ∃ m e : ℤ, |m| < 2 ^ 53 ∧ -1074 ≤ e ∧ e ≤ 971 ∧ q = m * 2 ^ e

/-- All sides are finite, and those of `f`. -/
def Box.IsFinite (b : BoxD) (f : BoundingBox) : Prop :=
  b.left = .fin f.left ∧ b.bottom = .fin f.bottom ∧ b.right = .fin f.right ∧ b.top = .fin f.top

/-- The parser of finite numbers that refuses what `parse` reads as NaN or infinite. -/
def finiteOnly (parse : Text → Option Double) (t : Text) : Option F64 :=
  match parse t with
  | some (.fin q) => some q
  | _ => none

/-- Where a double lies on the number line with both its ends; NaN lies nowhere. -/
def place : Double → Option (WithBot (WithTop ℚ))
  | .nan => none
  | .inf true => some ⊥
  | .inf false => some ↑(⊤ : WithTop ℚ)
  | .fin q => some ↑(↑q : WithTop ℚ)

/-- The places of those that lie somewhere. -/
def places (xs : List Double) : Set (WithBot (WithTop ℚ)) := {v | ∃ x ∈ xs, place x = some v}

/-- Starting from `first`, the lowest of all: it stays NaN if `first` is, otherwise other NaN do not count. -/
def LowestFrom (first : Double) (others : List Double) (result : Double) : Prop :=
  if place first = none then place result = none else ∃ v, place result = some v ∧ IsLeast (places (first :: others)) v

/-- Starting from `first`, the highest of all. -/
def HighestFrom (first : Double) (others : List Double) (result : Double) : Prop :=
  if place first = none then place result = none else ∃ v, place result = some v ∧ IsGreatest (places (first :: others)) v

end OsmIo.Spec
