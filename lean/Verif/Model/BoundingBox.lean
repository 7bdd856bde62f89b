import Verif.Model.Element
import Verif.Model.Basic
import Verif.Model.Text
/-! # Bounding boxes (`src/osm/model/bounding_box.rs`) -/
namespace OsmIo

/-- `src/osm/model/bounding_box.rs:8-14`. -/
structure BoundingBox where
  left : F64
  bottom : F64
  right : F64
  top : F64
  deriving DecidableEq, Repr

namespace BoundingBox

/-- `BoundingBox::from_point`, `bounding_box.rs:26-28`. -/
def fromPoint (c : Coordinate) : BoundingBox := ⟨c.lon, c.lat, c.lon, c.lat⟩

/-- `BoundingBox::merge_point`, `bounding_box.rs:30-46`. -/
def mergePoint (b : BoundingBox) (c : Coordinate) : BoundingBox :=
  let b := if c.lon < b.left then { b with left := c.lon } else b
  let b := if c.lon > b.right then { b with right := c.lon } else b
  let b := if c.lat > b.top then { b with top := c.lat } else b
  if c.lat < b.bottom then { b with bottom := c.lat } else b

/-- `BoundingBox::merge_bounding_box`, `bounding_box.rs:48-64`. -/
def mergeBox (b o : BoundingBox) : BoundingBox :=
  let b := if o.left < b.left then { b with left := o.left } else b
  let b := if o.right > b.right then { b with right := o.right } else b
  let b := if o.top > b.top then { b with top := o.top } else b
  if o.bottom < b.bottom then { b with bottom := o.bottom } else b

/-- `Default`, `bounding_box.rs:117-121`. -/
def default : BoundingBox := ⟨-180, -90, 180, 90⟩

/-- Characters removed by `str::trim` (Unicode `White_Space`). (used in `src/osm/model/bounding_box.rs:95`) -/
def isWhite (c : Char) : Bool :=
  (9 ≤ c.toNat && c.toNat ≤ 13) || c.toNat = 32 || c.toNat = 0x85 || c.toNat = 0xA0 || c.toNat = 0x1680 ||
  (0x2000 ≤ c.toNat && c.toNat ≤ 0x200A) || c.toNat = 0x2028 || c.toNat = 0x2029 || c.toNat = 0x202F ||
  c.toNat = 0x205F || c.toNat = 0x3000

/-- `str::trim`. (used in `src/osm/model/bounding_box.rs:95`) -/
def trim (t : Text) : Text := ((t.dropWhile isWhite).reverse.dropWhile isWhite).reverse

/-- `FromStr` for the trimmed parts, `bounding_box.rs:97-113`. `parse` is `f64::from_str` of the
standard library, a parameter; infinities and NaN count as not parsable here, which ends in the same
error. -/
def fromParts (parse : Text → Option F64) (parts : List Text) : Out BoundingBox :=
  match parts with
  | p0 :: p1 :: p2 :: p3 :: _ => do
    let left ← Out.orErr (parse p0)
    let bottom ← Out.orErr (parse p1)
    let right ← Out.orErr (parse p2)
    let top ← Out.orErr (parse p3)
    if ¬ (-180 ≤ left ∧ left ≤ 180) ∨ ¬ (-90 ≤ bottom ∧ bottom ≤ 90)
        ∨ ¬ (-180 ≤ right ∧ right ≤ 180) ∨ ¬ (-90 ≤ top ∧ top ≤ 90) then .err
    else .ok ⟨left, bottom, right, top⟩
  | _ => .err

/-- `FromStr`, `bounding_box.rs:92-114`. -/
def fromStr (parse : Text → Option F64) (s : Text) : Out BoundingBox :=
  fromParts parse ((Text.split ',' s).map trim)

end BoundingBox
end OsmIo
