import Verif.Model.Sql
import Verif.Model.OsmData
import Verif.Model.Header
import Verif.Model.BoundingBox
import Verif.Model.ApidbReader
/-!
# Double precision arithmetic with all its values

`Model/F64.lean` leaves out NaN, the infinities and the limits of the exponent. Here they are present, and the places of the code that compute with
`f64` are modelled once more. C81 proves that the two agree for all finite values.

Simplification: the two zeros are not distinguished; the code never divides by a zero and never looks at the sign of one.
-/
namespace OsmIo

/-- A value of type `f64`.
(language arithmetic, as used in `src/osm/pbf/dense_group_builder.rs:42-44,93-96`, `src/osm/model/coordinate.rs:20,28`) -/
inductive Double where
  | nan
  | inf (neg : Bool)
  | fin (q : ℚ)
  deriving DecidableEq, Repr

namespace Double

/-- The distance of neighbouring doubles near `q ≠ 0`: 53 bits of significand, exponents not below -1074.
(language arithmetic, as used in `src/osm/pbf/dense_group_builder.rs:42-44`) -/
def quantum (q : ℚ) : ℚ := (2 : ℚ) ^ max (Int.log 2 |q| - 52) (-1074)

/-- IEEE 754 rounding to binary64, to nearest, ties to even, with subnormal numbers and overflow to infinity.
(language arithmetic, as used in `src/osm/pbf/dense_group_builder.rs:42-44`) -/
def ofRat (q : ℚ) : Double :=
  if q = 0 then .fin 0
  else
    let r := roundEven (q / quantum q) * quantum q
    if |r| < 2 ^ 1024 then .fin r else .inf (q < 0)

/-- `a * b`. (language arithmetic, as used in `src/osm/pbf/dense_group_builder.rs:42-44`) -/
def mul : Double → Double → Double
  | .nan, _ => .nan
  | _, .nan => .nan
  | .inf s, .inf t => .inf (s != t)
  | .inf s, .fin q => if q = 0 then .nan else .inf (s != decide (q < 0))
  | .fin q, .inf s => if q = 0 then .nan else .inf (s != decide (q < 0))
  | .fin p, .fin q => ofRat (p * q)

/-- `a / b`; the sign of a zero divisor is not known, so this is taken to be positive.
(language arithmetic, as used in `src/osm/pbf/dense_group_builder.rs:42-44`, `src/osm/pbf/osm_data.rs:149-150`) -/
def div : Double → Double → Double
  | .nan, _ => .nan
  | _, .nan => .nan
  | .inf _, .inf _ => .nan
  | .inf s, .fin q => .inf (s != decide (q < 0))
  | .fin _, .inf _ => .fin 0
  | .fin p, .fin q => if q = 0 then (if p = 0 then .nan else .inf (p < 0)) else ofRat (p / q)

/-- `a - b`. (language arithmetic, as used in `src/osm/pbf/dense_group_builder.rs:42-44`) -/
def sub : Double → Double → Double
  | .nan, _ => .nan
  | _, .nan => .nan
  | .inf s, .inf t => if s = t then .nan else .inf s
  | .inf s, .fin _ => .inf s
  | .fin _, .inf s => .inf (!s)
  | .fin p, .fin q => ofRat (p - q)

/-- `a + b`. (language arithmetic, as used in `src/osm/apidb_dump/sql.rs:51-52`) -/
def add : Double → Double → Double
  | .nan, _ => .nan
  | _, .nan => .nan
  | .inf s, .inf t => if s = t then .inf s else .nan
  | .inf s, .fin _ => .inf s
  | .fin _, .inf s => .inf s
  | .fin p, .fin q => ofRat (p + q)

/-- `f64::round`. (language arithmetic, as used in `src/osm/pbf/dense_group_builder.rs:42-44`) -/
def round : Double → Double
  | .fin q => .fin (F64.round q)
  | d => d

/-- `d as i64`: saturating, 0 for NaN. (language arithmetic, as used in `src/osm/pbf/dense_group_builder.rs:42-44`) -/
def toI64 : Double → Int64
  | .nan => 0
  | .inf neg => if neg then -9223372036854775808 else 9223372036854775807
  | .fin q => F64.toI64 q

/-- `d as u64`: saturating, 0 for NaN. (language arithmetic, as used in `src/osm/apidb_dump/sql.rs:51-52`) -/
def toU64 : Double → Nat
  | .nan => 0
  | .inf neg => if neg then 0 else 18446744073709551615
  | .fin q => Sql.toU64 q

/-- `n as f64` for an `i64`. (language arithmetic, as used in `src/osm/pbf/dense_group_builder.rs:42-44`) -/
def ofI64 (n : Int64) : Double := ofRat n.toInt

/-- `n as f64` for an `i32`. (language arithmetic, as used in `src/osm/pbf/dense_group_builder.rs:42-44`) -/
def ofI32 (n : Int32) : Double := ofRat n.toInt

/-- `a < b`: never true of NaN. (language arithmetic, as used in `src/osm/model/bounding_box.rs:31-45`) -/
def lt : Double → Double → Bool
  | .nan, _ => false
  | _, .nan => false
  | .inf s, .inf t => s && !t
  | .inf s, .fin _ => s
  | .fin _, .inf s => !s
  | .fin p, .fin q => decide (p < q)

/-- `a <= b`. (language arithmetic, as used in `src/osm/model/bounding_box.rs:101-104`) -/
def le : Double → Double → Bool
  | .nan, _ => false
  | _, .nan => false
  | .inf s, .inf t => s || !t
  | .inf s, .fin _ => s
  | .fin _, .inf s => !s
  | .fin p, .fin q => decide (p ≤ q)

end Double

/-- The coordinate as written to a block, `src/osm/pbf/dense_group_builder.rs:42-44,93-96`. -/
def encodeCoordD (granularity : Int32) (offset : Int64) (c : Double) : Int64 :=
  (((c.mul (.fin 1000000000)).div (.ofI32 granularity)).sub (.ofI64 offset)).round.toI64

/-- The coordinate as read from a block, `src/osm/pbf/osm_data.rs:149-150,173-174`. -/
def decodeCoordD (granularity offset v : Int64) : Double :=
  (Double.ofI64 (offset + granularity * v)).div (.fin 1000000000)

/-- `Coordinate::lat7` and `lon7`, `src/osm/model/coordinate.rs:19-21,27-29`. -/
def coord7D (c : Double) : Int64 := (c.mul (.fin 10000000)).round.toI64

/-- A coordinate of a dump, `src/osm/apidb_dump/read/element_iterator.rs:129-130`. -/
def degreesD (x : Int32) : Double := (Double.ofI32 x).div (.fin 10000000)

/-- `OsmHeader::header_bbox`, `src/osm/pbf/osm_header.rs:63-70`. -/
def toNanodegD (x : Double) : Int64 := (x.mul (.fin 1000000000)).toI64

/-- `OsmHeader::from_bytes`, `src/osm/pbf/osm_header.rs:22-27`. -/
def fromNanodegD (n : Int64) : Double := (Double.ofI64 n).div (.fin 1000000000)

/-- `x` of `calculate_tile`, `src/osm/apidb_dump/sql.rs:51`. -/
def tileXD (lon : Double) : Nat := ((((lon.add (.fin 180)).mul (.fin 65535)).div (.fin 360)).round).toU64

/-- `y` of `calculate_tile`, `src/osm/apidb_dump/sql.rs:52`. -/
def tileYD (lat : Double) : Nat := ((((lat.add (.fin 90)).mul (.fin 65535)).div (.fin 180)).round).toU64

/-- `calculate_tile`, `src/osm/apidb_dump/sql.rs:50-61`. -/
def calculateTileD (lat lon : Double) : Nat := Sql.interleave (tileXD lon) (tileYD lat) 16 0

/-- `src/osm/model/bounding_box.rs:8-14`. -/
structure BoxD where
  left : Double
  bottom : Double
  right : Double
  top : Double
  deriving DecidableEq, Repr

namespace BoxD

/-- `BoundingBox::merge_point`, `src/osm/model/bounding_box.rs:30-46`. -/
def mergePoint (b : BoxD) (lat lon : Double) : BoxD :=
  let b := if lon.lt b.left then { b with left := lon } else b
  let b := if b.right.lt lon then { b with right := lon } else b
  let b := if b.top.lt lat then { b with top := lat } else b
  if lat.lt b.bottom then { b with bottom := lat } else b

/-- `BoundingBox::merge_bounding_box`, `src/osm/model/bounding_box.rs:48-64`. -/
def mergeBox (b o : BoxD) : BoxD :=
  let b := if o.left.lt b.left then { b with left := o.left } else b
  let b := if b.right.lt o.right then { b with right := o.right } else b
  let b := if b.top.lt o.top then { b with top := o.top } else b
  if o.bottom.lt b.bottom then { b with bottom := o.bottom } else b

/-- `(-180.0..=180.0).contains(&x)`, `src/osm/model/bounding_box.rs:101-104`. -/
def within (bound : ℚ) (x : Double) : Bool := (Double.fin (-bound)).le x && x.le (.fin bound)

/-- `FromStr` for the trimmed parts, `src/osm/model/bounding_box.rs:97-113`. `parse` is `f64::from_str`, which also accepts `NaN` and `inf`. -/
def fromParts (parse : Text → Option Double) (parts : List Text) : Out BoxD :=
  match parts with
  | p0 :: p1 :: p2 :: p3 :: _ => do
    let left ← Out.orErr (parse p0)
    let bottom ← Out.orErr (parse p1)
    let right ← Out.orErr (parse p2)
    let top ← Out.orErr (parse p3)
    if ¬ within 180 left ∨ ¬ within 90 bottom ∨ ¬ within 180 right ∨ ¬ within 90 top then .err
    else .ok ⟨left, bottom, right, top⟩
  | _ => .err

/-- `FromStr`, `src/osm/model/bounding_box.rs:92-114`. -/
def fromStr (parse : Text → Option Double) (s : Text) : Out BoxD :=
  fromParts parse ((Text.split ',' s).map BoundingBox.trim)

end BoxD
end OsmIo
