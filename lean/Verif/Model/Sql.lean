import Verif.Model.Text
import Verif.Model.F64
/-!
# SQL values of a dump (`src/osm/apidb_dump/sql.rs`)

The calendar arithmetic and the timestamp formats are those of the `chrono` crate, which is not part
of the repository: this file models what the crate is documented to do.
-/
namespace OsmIo.Sql
open OsmIo.Text

/-- `to_sql_bool`, `src/osm/apidb_dump/sql.rs:20-25`. -/
def toSqlBool : Bool → Text
  | true => ['t']
  | false => ['f']

/-- `parse_sql_bool`, `src/osm/apidb_dump/sql.rs:10-18`. -/
def parseSqlBool (t : Text) : Option Bool :=
  if t = ['t'] then some true else if t = ['f'] then some false else none

/-- `parse_sql_null_string`, `src/osm/apidb_dump/sql.rs:27-36`. -/
def parseSqlNullString (t : Text) : Option Text :=
  if t = ['\\', 'N'] then none else some t

/-! ### Calendar -/

/-- Gregorian leap years. (chrono crate, outside the repository, as used in `src/osm/apidb_dump/sql.rs:38-48`) -/
def isLeap (y : Int) : Bool := (y % 4 = 0 && y % 100 ≠ 0) || y % 400 = 0

/-- Days from 1 January of year 1 to 1 January of year `y` (proleptic Gregorian).
(chrono crate, outside the repository, as used in `src/osm/apidb_dump/sql.rs:38-48`) -/
def daysBeforeYear (y : Int) : Int := 365 * (y - 1) + (y - 1) / 4 - (y - 1) / 100 + (y - 1) / 400

/-- Length of a month (1 to 12).
(chrono crate, outside the repository, as used in `src/osm/apidb_dump/sql.rs:38-48`) -/
def daysInMonth (leap : Bool) : Nat → Nat
  | 1 => 31
  | 2 => if leap then 29 else 28
  | 3 => 31
  | 4 => 30
  | 5 => 31
  | 6 => 30
  | 7 => 31
  | 8 => 31
  | 9 => 30
  | 10 => 31
  | 11 => 30
  | 12 => 31
  | _ => 0

/-- Days of the year before a month.
(chrono crate, outside the repository, as used in `src/osm/apidb_dump/sql.rs:38-48`) -/
def daysBeforeMonth (leap : Bool) (m : Nat) : Nat := ((List.range m).map (daysInMonth leap)).sum

/-- A calendar date. (chrono crate, outside the repository, as used in `src/osm/apidb_dump/sql.rs:38-48`) -/
structure Date where
  year : Int
  month : Nat
  day : Nat
  deriving DecidableEq, Repr

/-- Day number of 1 January 1970 counted from 1 January of year 1.
(chrono crate, outside the repository, as used in `src/osm/apidb_dump/sql.rs:38-48`) -/
def epochDay : Int := 719162

/-- Days since 1 January 1970. (chrono crate, outside the repository, as used in `src/osm/apidb_dump/sql.rs:38-48`) -/
def Date.toDays (d : Date) : Int :=
  daysBeforeYear d.year + daysBeforeMonth (isLeap d.year) d.month + (d.day - 1) - epochDay

/-- Find the month containing day-of-year `n` (0-based), starting from month `m`.
(chrono crate, outside the repository, as used in `src/osm/apidb_dump/sql.rs:38-48`) -/
def findMonth (leap : Bool) : Nat → Nat → Nat → Nat × Nat
  | 0, m, n => (m, n + 1)
  | fuel + 1, m, n =>
    if n < daysInMonth leap m then (m, n + 1) else findMonth leap fuel (m + 1) (n - daysInMonth leap m)

/-- The calendar date of a day number since 1 January 1970: whole 400-year, 100-year, 4-year and
1-year cycles, then the month. (chrono crate, outside the repository, as used in `src/osm/apidb_dump/sql.rs:38-48`) -/
def Date.ofDays (days : Int) : Date :=
  let n := days + epochDay
  let n400 := n / 146097
  let r400 := n % 146097
  let n100 := min (r400 / 36524) 3
  let r100 := r400 - n100 * 36524
  let n4 := r100 / 1461
  let r4 := r100 % 1461
  let n1 := min (r4 / 365) 3
  let doy := r4 - n1 * 365
  let year := 400 * n400 + 100 * n100 + 4 * n4 + n1 + 1
  let md := findMonth (isLeap year) 11 1 doy.toNat
  ⟨year, md.1, md.2⟩

/-! ### Formatting -/

/-- Decimal with at least `w` digits.
(chrono crate, outside the repository, as used in `src/osm/apidb_dump/sql.rs:38-48`) -/
def padNat (w n : Nat) : Text := List.replicate (w - (showNat n).length) '0' ++ showNat n

/-- The year in RFC 3339 form: four digits, or a sign and at least four digits outside 0 to 9999.
(chrono crate, outside the repository, as used in `src/osm/apidb_dump/sql.rs:38-48`) -/
def showYear (y : Int) : Text :=
  if 0 ≤ y ∧ y ≤ 9999 then padNat 4 y.toNat
  else if y < 0 then '-' :: padNat 4 y.natAbs else '+' :: padNat 4 y.natAbs

/-- `YYYY-MM-DD HH:MM:SS` of a number of seconds since the epoch: RFC 3339 with the `T` and `Z`
replaced, `src/osm/apidb_dump/sql.rs:40-41`. -/
def showSeconds (secs : Int) : Text :=
  let d := Date.ofDays (secs / 86400)
  let s := (secs % 86400).toNat
  showYear d.year ++ '-' :: padNat 2 d.month ++ '-' :: padNat 2 d.day ++ ' ' ::
    padNat 2 (s / 3600) ++ ':' :: padNat 2 (s / 60 % 60) ++ ':' :: padNat 2 (s % 60)

/-- Smallest and largest second `chrono` represents (years -262143 to 262142).
(chrono crate, outside the repository, as used in `src/osm/apidb_dump/sql.rs:38-48`) -/
def inRange (secs : Int) : Bool :=
  (Date.mk (-262143) 1 1).toDays * 86400 ≤ secs && secs < (Date.mk 262143 1 1).toDays * 86400

/-- `to_sql_time_millis`, `src/osm/apidb_dump/sql.rs:38-42`. -/
def toSqlTimeMillis (t : Int64) : Out Text :=
  let secs := t.toInt / 1000
  if inRange secs then .ok (showSeconds secs) else .panic

/-- `to_sql_time_micros`, `src/osm/apidb_dump/sql.rs:44-48`. -/
def toSqlTimeMicros (t : Int64) : Out Text :=
  let secs := t.toInt / 1000000
  if inRange secs then .ok (showSeconds secs ++ '.' :: padNat 6 (t.toInt % 1000000).toNat) else .panic

/-! ### Parsing -/

/-- Read between 1 and `max` decimal digits (greedily); the value and the rest.
(chrono crate, outside the repository, as used in `src/osm/apidb_dump/sql.rs:6-8`) -/
def scanNumGo : Nat → Nat → Bool → Text → Option (Nat × Text)
  | 0, acc, seen, t => if seen then some (acc, t) else none
  | _ + 1, acc, seen, [] => if seen then some (acc, []) else none
  | max + 1, acc, seen, c :: cs =>
    match digitVal c with
    | some d => scanNumGo max (acc * 10 + d) true cs
    | none => if seen then some (acc, c :: cs) else none

/-- Read a number of 1 to `max` digits.
(chrono crate, outside the repository, as used in `src/osm/apidb_dump/sql.rs:6-8`) -/
def scanNum (max : Nat) (t : Text) : Option (Nat × Text) := scanNumGo max 0 false t

/-- `%Y`: up to four digits, or a sign and any number of digits.
(chrono crate, outside the repository, as used in `src/osm/apidb_dump/sql.rs:6-8`) -/
def scanYear : Text → Option (Int × Text)
  | '-' :: cs => (scanNum cs.length cs).map (fun p => (-(p.1 : Int), p.2))
  | '+' :: cs => (scanNum cs.length cs).map (fun p => ((p.1 : Int), p.2))
  | cs => (scanNum 4 cs).map (fun p => ((p.1 : Int), p.2))

/-- A literal character of the format.
(chrono crate, outside the repository, as used in `src/osm/apidb_dump/sql.rs:6-8`) -/
def scanChar (c : Char) : Text → Option Text
  | [] => none
  | d :: ds => if d = c then some ds else none

/-- `%.f`: nothing, or a dot and digits; nanoseconds (further digits dropped). Must end the text.
(chrono crate, outside the repository, as used in `src/osm/apidb_dump/sql.rs:6-8`) -/
def scanFrac : Text → Option Nat
  | [] => some 0
  | '.' :: cs =>
    if cs = [] then none else
    match digits 0 (cs ++ List.replicate 9 '0') with
    | some _ => digits 0 ((cs ++ List.replicate 9 '0').take 9)
    | none => none
  | _ => none

/-- `parse_sql_time`, `src/osm/apidb_dump/sql.rs:6-8` (`"%Y-%m-%d %H:%M:%S%.f"`), as nanoseconds
since the epoch. Simplifications: extra white space and leap seconds, which the crate tolerates, are
rejected. -/
def parseSqlTime (t : Text) : Option Int := do
  let (y, t) ← scanYear t
  let t ← scanChar '-' t
  let (m, t) ← scanNum 2 t
  let t ← scanChar '-' t
  let (d, t) ← scanNum 2 t
  let t ← scanChar ' ' t
  let (h, t) ← scanNum 2 t
  let t ← scanChar ':' t
  let (mi, t) ← scanNum 2 t
  let t ← scanChar ':' t
  let (s, t) ← scanNum 2 t
  let ns ← scanFrac t
  if 1 ≤ m ∧ m ≤ 12 ∧ 1 ≤ d ∧ d ≤ daysInMonth (isLeap y) m ∧ h < 24 ∧ mi < 60 ∧ s < 60 ∧
      -262143 ≤ y ∧ y ≤ 262142 then
    some (((Date.mk y m d).toDays * 86400 + h * 3600 + mi * 60 + s) * 1000000000 + ns)
  else none

/-- `timestamp.and_utc().timestamp_millis()`, `src/osm/apidb_dump/read/element_iterator.rs:127`. -/
def toMillis (ns : Int) : Int64 := Int64.ofInt (ns / 1000000)

/-! ### Tiles -/

/-- `q as u64`: truncation, saturating at 0 and `2^64 - 1`. (used in `src/osm/apidb_dump/sql.rs:51-52`) -/
def toU64 (q : F64) : Nat := (max 0 (min 18446744073709551615 (F64.trunc q))).toNat

/-- `x` of `calculate_tile`, `src/osm/apidb_dump/sql.rs:51`. -/
def tileX (lon : F64) : Nat := toU64 (F64.round (F64.div (F64.mul (F64.add lon 180) 65535) 360))

/-- `y` of `calculate_tile`, `src/osm/apidb_dump/sql.rs:52`. -/
def tileY (lat : F64) : Nat := toU64 (F64.round (F64.div (F64.mul (F64.add lat 90) 65535) 180))

/-- The loop of `calculate_tile` for `i` from `n - 1` down to 0, `src/osm/apidb_dump/sql.rs:56-59`
(`u64` shifts: no bit is lost because `n ≤ 16`). -/
def interleave (x y : Nat) : Nat → Nat → Nat
  | 0, tile => tile
  | i + 1, tile =>
    interleave x y i ((((tile <<< 1) ||| ((x >>> i) &&& 1)) <<< 1) ||| ((y >>> i) &&& 1))

/-- `calculate_tile`, `src/osm/apidb_dump/sql.rs:50-61`. -/
def calculateTile (lat lon : F64) : Nat := interleave (tileX lon) (tileY lat) 16 0

end OsmIo.Sql
