import Verif.Model.Basic
/-!
# Text

Table data files of an apidb dump are text; the model uses lists of characters. This file models the
parts of the Rust standard library the apidb modules use on text. Text that is not valid UTF-8 is
not represented (`read_line` answers `Err` for it, which ends the table).
-/
namespace OsmIo

/-- The characters of a `String` / `&str`.
(standard library, as used in `src/osm/apidb_dump/write/writer.rs:70-480`) -/
abbrev Text := List Char

namespace Text

/-- A decimal digit. (standard library, as used in `src/osm/apidb_dump/write/writer.rs:70-480`) -/
def digit (n : Nat) : Char := Char.ofNat (48 + n)

/-- Value of a decimal digit. (standard library, as used in `src/osm/apidb_dump/write/writer.rs:70-480`) -/
def digitVal (c : Char) : Option Nat :=
  if 48 ≤ c.toNat ∧ c.toNat ≤ 57 then some (c.toNat - 48) else none

/-- `format!("{}", n)` for an unsigned integer.
(standard library, as used in `src/osm/apidb_dump/write/writer.rs:70-480`) -/
def showNat (n : Nat) : Text :=
  if _h : n < 10 then [digit n] else showNat (n / 10) ++ [digit (n % 10)]
termination_by n
decreasing_by omega

/-- `format!("{}", n)` for a signed integer.
(standard library, as used in `src/osm/apidb_dump/write/writer.rs:70-480`) -/
def showInt (n : Int) : Text :=
  if n < 0 then '-' :: showNat n.natAbs else showNat n.natAbs

/-- Digits only, most significant first; `none` on any other character.
(standard library, as used in `src/osm/apidb_dump/read/table_reader.rs:137-471`) -/
def digits : Nat → Text → Option Nat
  | acc, [] => some acc
  | acc, c :: cs =>
    match digitVal c with
    | some d => digits (acc * 10 + d) cs
    | none => none

/-- The integer denoted by an optional sign and at least one digit; `none` for anything else: what
`i64::from_str` accepts before its range check.
(standard library, as used in `src/osm/apidb_dump/read/table_reader.rs:137-471`) -/
def parseInt : Text → Option Int
  | [] => none
  | ['-'] => none
  | ['+'] => none
  | '-' :: cs => (digits 0 cs).map (fun n => -(n : Int))
  | '+' :: cs => (digits 0 cs).map (fun n => (n : Int))
  | cs => (digits 0 cs).map (fun n => (n : Int))

/-- `i64::from_str`. (standard library, as used in `src/osm/apidb_dump/read/table_reader.rs:137-471`) -/
def parseI64 (t : Text) : Option Int64 :=
  match parseInt t with
  | some n => if -9223372036854775808 ≤ n ∧ n ≤ 9223372036854775807 then some (Int64.ofInt n) else none
  | none => none

/-- `i32::from_str`. (standard library, as used in `src/osm/apidb_dump/read/table_reader.rs:137-471`) -/
def parseI32 (t : Text) : Option Int32 :=
  match parseInt t with
  | some n => if -2147483648 ≤ n ∧ n ≤ 2147483647 then some (Int32.ofInt n) else none
  | none => none

/-- `i16::from_str`, as the integer.
(standard library, as used in `src/osm/apidb_dump/read/table_reader.rs:137-471`) -/
def parseI16 (t : Text) : Option Int :=
  match parseInt t with
  | some n => if -32768 ≤ n ∧ n ≤ 32767 then some n else none
  | none => none

/-- `str::split(sep)`: the pieces between separators (always at least one).
(standard library, as used in `src/osm/apidb_dump/read/table_reader.rs:137-471`) -/
def split (sep : Char) : Text → List Text
  | [] => [[]]
  | c :: cs =>
    if c = sep then [] :: split sep cs
    else match split sep cs with
      | [] => [[c]]
      | p :: ps => (c :: p) :: ps

/-- The successive results of `read_line` on a file, each without its final `'\n'`. A last line
without a `'\n'` is a line; nothing after a final `'\n'` is not.
(used in `src/osm/apidb_dump/read/table_reader.rs:508`) -/
def lines (t : Text) : List Text :=
  match split '\n' t with
  | [] => []
  | ps => if ps.getLast? = some [] then ps.dropLast else ps

/-- Fields separated by a tab: `format!("{}\t{}..", ..)`.
(standard library, as used in `src/osm/apidb_dump/write/writer.rs:70-480`) -/
def tabbed : List Text → Text
  | [] => []
  | [f] => f
  | f :: fs => f ++ '\t' :: tabbed fs

/-- A row of a table file: `format!("{}\t..\t{}\n", ..)`.
(standard library, as used in `src/osm/apidb_dump/write/writer.rs:70-480`) -/
def row (fields : List Text) : Text := tabbed fields ++ ['\n']

end Text
end OsmIo
