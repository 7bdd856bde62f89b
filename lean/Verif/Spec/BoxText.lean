import Verif.Model.BoxText
import Verif.Spec.ApidbRow
import Verif.Spec.Ieee
/-! # Specification vocabulary: numbers as text -/
namespace OsmIo.Spec
open OsmIo.Text OsmIo.Sql

/-- A decimal number without a sign and its value: digits with at most one point among them, then possibly `e` or `E` and an integer. -/
def UnsignedText (t : Text) (v : ℚ) : Prop :=
  ∃ (whole frac : List Nat) (point ex : Text) (e : ℤ),
    t = whole.map digit ++ point ++ frac.map digit ++ ex ∧ whole ++ frac ≠ [] ∧ (∀ d ∈ whole ++ frac, d < 10) ∧
    (point = ['.'] ∨ (point = [] ∧ frac = [])) ∧
    ((ex = [] ∧ e = 0) ∨ ∃ c x, (c = 'e' ∨ c = 'E') ∧ ex = c :: x ∧ IntText x e) ∧
    v = (decimal (whole ++ frac) : ℚ) * 10 ^ (e - (frac.length : ℤ))

/-- A text is a word, capital letters or not. -/
def IsWord (t : Text) (word : String) : Prop := t.map Char.toLower = word.toList

/-- What a text without a sign stands for: a number, which is rounded as every number is (C81), or a word. -/
def MagnitudeText (t : Text) (d : Double) : Prop :=
  (∃ v, UnsignedText t v ∧ d = Double.ofRat v) ∨ (IsWord t "nan" ∧ d = .nan) ∨ ((IsWord t "inf" ∨ IsWord t "infinity") ∧ d = .inf false)

/-- A value a double can have. -/
def DoubleValue : Double → Prop
  | .fin q => IsBinary64 q
  | _ => True

/-- All sides are doubles. -/
def ProperBox (b : BoxD) : Prop := DoubleValue b.left ∧ DoubleValue b.bottom ∧ DoubleValue b.right ∧ DoubleValue b.top

/-- A way of showing numbers from which they can be read again. Rust's own (`Display`) is documented to be one. -/
def FaithfulNumbers (shown : Double → Text) : Prop := ∀ x, DoubleValue x → parseDouble (shown x) = some x

end OsmIo.Spec
