import Verif.Model.Ieee
/-!
# Bounding boxes as text

`Model/BoundingBox.lean` and `Model/Ieee.lean` leave `f64::from_str` a parameter; here it is written out, together with the text a box is shown as.
-/
namespace OsmIo

namespace Double

/-- `-a`. (language arithmetic, as used by `f64::from_str` in `src/osm/model/bounding_box.rs:97-100`) -/
def neg : Double → Double
  | .nan => .nan
  | .inf s => .inf (!s)
  | .fin q => .fin (-q)

end Double

namespace Text

/-- The exponent of a decimal number, after its letter. (standard library: `f64::from_str`, as used in `src/osm/model/bounding_box.rs:97-100`) -/
def exponent : Text → Option Int
  | [] => some 0
  | _ :: cs => parseInt cs

/-- A decimal number without a sign: digits with at most one point among them, and an exponent or not.
(standard library: `f64::from_str`, as used in `src/osm/model/bounding_box.rs:97-100`) -/
def parseDecimal (t : Text) : Option ℚ :=
  let mantissa := t.takeWhile fun c => c != 'e' && c != 'E'
  let whole := mantissa.takeWhile (· != '.')
  let frac := (mantissa.dropWhile (· != '.')).drop 1
  if whole ++ frac = [] then none
  else
    match digits 0 (whole ++ frac), exponent (t.dropWhile fun c => c != 'e' && c != 'E') with
    | some n, some e => some ((n : ℚ) * 10 ^ (e - (frac.length : Int)))
    | _, _ => none

/-- What may follow the sign: a number, rounded to the nearest double, or one of three words in any case.
(standard library: `f64::from_str`, as used in `src/osm/model/bounding_box.rs:97-100`) -/
def parseMagnitude (t : Text) : Option Double :=
  let word := t.map Char.toLower
  if word = ['n', 'a', 'n'] then some .nan
  else if word = ['i', 'n', 'f'] ∨ word = ['i', 'n', 'f', 'i', 'n', 'i', 't', 'y'] then some (.inf false)
  else (parseDecimal t).map Double.ofRat

/-- `f64::from_str`. (standard library, as used in `src/osm/model/bounding_box.rs:97-100`) -/
def parseDouble : Text → Option Double
  | '-' :: cs => (parseMagnitude cs).map Double.neg
  | '+' :: cs => parseMagnitude cs
  | cs => parseMagnitude cs

end Text

/-- `Display`, `src/osm/model/bounding_box.rs:83-87`; `shown` is the `Display` of `f64`. -/
def BoxD.display (shown : Double → Text) (b : BoxD) : Text :=
  "left: ".toList ++ shown b.left ++ ", bottom: ".toList ++ shown b.bottom ++ ", right: ".toList ++ shown b.right ++ ", top: ".toList ++ shown b.top

end OsmIo
