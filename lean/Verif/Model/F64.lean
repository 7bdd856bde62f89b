import Mathlib.Data.Int.Log
import Mathlib.Data.Rat.Floor
/-!
# Double precision arithmetic

`f64` values are modelled by the rational number they denote. Each arithmetic operation of the Rust
code is the exact operation followed by `rnd`, IEEE 754 round-to-nearest, ties-to-even, to a 53 bit
significand.

Simplifications: NaN, infinities, the sign of zero and the limits of the exponent range
(subnormals, overflow) are not represented.
-/
namespace OsmIo

/-- The type of `f64` values.
(language arithmetic, as used in `src/osm/pbf/dense_group_builder.rs:42-44,93-96`, `src/osm/pbf/osm_data.rs:149-150,173-174`, `src/osm/pbf/osm_header.rs:23-26,65-68`) -/
abbrev F64 := ℚ

/-- Nearest integer, ties to even.
(language arithmetic, as used in `src/osm/pbf/dense_group_builder.rs:42-44,93-96`, `src/osm/pbf/osm_data.rs:149-150,173-174`, `src/osm/pbf/osm_header.rs:23-26,65-68`) -/
def roundEven (q : ℚ) : ℤ :=
  let f := ⌊q⌋
  let d := q - f
  if d < 1/2 then f
  else if 1/2 < d then f + 1
  else if f % 2 = 0 then f else f + 1

/-- Unit in the last place of a double of the magnitude of `q ≠ 0`: `2^(⌊log₂|q|⌋ - 52)`.
(language arithmetic, as used in `src/osm/pbf/dense_group_builder.rs:42-44,93-96`, `src/osm/pbf/osm_data.rs:149-150,173-174`, `src/osm/pbf/osm_header.rs:23-26,65-68`) -/
def ulp (q : ℚ) : ℚ := (2 : ℚ) ^ (Int.log 2 |q| - 52)

/-- IEEE 754 binary64 rounding (round to nearest, ties to even), without exponent limits.
(language arithmetic, as used in `src/osm/pbf/dense_group_builder.rs:42-44,93-96`, `src/osm/pbf/osm_data.rs:149-150,173-174`, `src/osm/pbf/osm_header.rs:23-26,65-68`) -/
def rnd (q : ℚ) : F64 :=
  if q = 0 then 0 else roundEven (q / ulp q) * ulp q

namespace F64

/-- `a * b` on `f64`.
(language arithmetic, as used in `src/osm/pbf/dense_group_builder.rs:42-44,93-96`, `src/osm/pbf/osm_data.rs:149-150,173-174`, `src/osm/pbf/osm_header.rs:23-26,65-68`) -/
def mul (a b : F64) : F64 := rnd (a * b)
/-- `a / b` on `f64` (nonzero `b`).
(language arithmetic, as used in `src/osm/pbf/dense_group_builder.rs:42-44,93-96`, `src/osm/pbf/osm_data.rs:149-150,173-174`, `src/osm/pbf/osm_header.rs:23-26,65-68`) -/
def div (a b : F64) : F64 := rnd (a / b)
/-- `a - b` on `f64`.
(language arithmetic, as used in `src/osm/pbf/dense_group_builder.rs:42-44,93-96`, `src/osm/pbf/osm_data.rs:149-150,173-174`, `src/osm/pbf/osm_header.rs:23-26,65-68`) -/
def sub (a b : F64) : F64 := rnd (a - b)
/-- `a + b` on `f64`.
(language arithmetic, as used in `src/osm/pbf/dense_group_builder.rs:42-44,93-96`, `src/osm/pbf/osm_data.rs:149-150,173-174`, `src/osm/pbf/osm_header.rs:23-26,65-68`) -/
def add (a b : F64) : F64 := rnd (a + b)
/-- `n as f64` for an `i64`.
(language arithmetic, as used in `src/osm/pbf/dense_group_builder.rs:42-44,93-96`, `src/osm/pbf/osm_data.rs:149-150,173-174`, `src/osm/pbf/osm_header.rs:23-26,65-68`) -/
def ofI64 (n : Int64) : F64 := rnd n.toInt
/-- `n as f64` for an `i32` (always exact).
(language arithmetic, as used in `src/osm/pbf/dense_group_builder.rs:42-44,93-96`, `src/osm/pbf/osm_data.rs:149-150,173-174`, `src/osm/pbf/osm_header.rs:23-26,65-68`) -/
def ofI32 (n : Int32) : F64 := rnd n.toInt

/-- `f64::round`: nearest integer, ties away from zero.
(language arithmetic, as used in `src/osm/pbf/dense_group_builder.rs:42-44,93-96`, `src/osm/pbf/osm_data.rs:149-150,173-174`, `src/osm/pbf/osm_header.rs:23-26,65-68`) -/
def round (q : F64) : F64 :=
  if 0 ≤ q then (⌊q + 1/2⌋ : ℤ) else (⌈q - 1/2⌉ : ℤ)

/-- Truncation toward zero.
(language arithmetic, as used in `src/osm/pbf/dense_group_builder.rs:42-44,93-96`, `src/osm/pbf/osm_data.rs:149-150,173-174`, `src/osm/pbf/osm_header.rs:23-26,65-68`) -/
def trunc (q : F64) : ℤ := if 0 ≤ q then ⌊q⌋ else ⌈q⌉

/-- `q as i64`: truncation toward zero, saturating.
(language arithmetic, as used in `src/osm/pbf/dense_group_builder.rs:42-44,93-96`, `src/osm/pbf/osm_data.rs:149-150,173-174`, `src/osm/pbf/osm_header.rs:23-26,65-68`) -/
def toI64 (q : F64) : Int64 :=
  Int64.ofInt (max (-9223372036854775808) (min 9223372036854775807 (trunc q)))

end F64
end OsmIo
