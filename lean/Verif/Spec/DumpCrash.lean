import Verif.Spec.BufWriter
import Verif.Spec.ApidbRoundTrip
import Verif.Model.FailingTables
/-!
# Specification vocabulary: a dump whose writing was interrupted (C94)
-/
namespace OsmIo
open Spec
open OsmIo.Text OsmIo.Sql OsmIo.Apidb

/-- The first read of a table does not give a row. -/
def Spec.NoRow (ls : List (Option Text)) : Prop := ∀ l rest, ls = some l :: rest → l = [] ∨ ['\\', '.'] <+: l

/-- The files of the tables, on the disk, when the writer of a dump is stopped before its `close` after `ops` of the operations `rows`, on
a device with any faults: `rows` is any cutting of what was written so far into calls of `write_all`. -/
def Spec.StoppedUnclosed (z : Codec) (es : List Element) (disk : Table → Bytes) : Prop :=
  ∃ w, Apidb.Writer.new.writeAll z es = .ok w ∧ ∃ rows ops faults, (∀ t, writtenTo t rows = Wire.strBytes (String.ofList (w.files t))) ∧
    ops <+: rows ∧ disk = fun t => ((tableOps (freshFiles faults) ops).2 t).disk.file

/-- The tables of ways. -/
def Spec.wayTables : List Table := [.wayNodes, .wayTags, .ways]

/-- All tables but those of ways as they are, and these empty. -/
def Spec.withoutWayTables {α : Type} (files : Table → List α) : Table → List α := fun t => if t ∈ wayTables then [] else files t

end OsmIo
