import Verif.Spec.ApidbRead
/-!
# Specification vocabulary for the order of columns
-/
namespace OsmIo.Spec
open OsmIo.Text OsmIo.Sql OsmIo.Apidb

/-- The two lines hold the same values under the same column names: the first in the order `cols`, the
second in the order `cols'`. Neither looks like the end of a table. -/
structure SameRow (cols cols' : List Text) (line line' : Text) : Prop where
  length : (split '\t' line).length = cols.length
  length' : (split '\t' line').length = cols'.length
  values : (cols.zip (split '\t' line)).Perm (cols'.zip (split '\t' line'))
  stop : ¬ (['\\', '.'] <+: line)
  stop' : ¬ (['\\', '.'] <+: line')

/-- The two dumps list the same tables with the same data, only with their columns in another order. -/
def SameDump (columns columns' : Table → List Text) (sorted sorted' : Table → Text) : Prop :=
  ∀ t, (columns t).Nodup ∧ (columns' t).Perm (columns t) ∧
    List.Forall₂ (SameRow (columns t) (columns' t)) (lines (sorted t)) (lines (sorted' t))

/-- The table definitions made of column names. -/
def defines (columns : Table → List Text) (tables : Tables) : Prop :=
  ∀ t d f, tables t = some (d, f) → TableDef.new t (columns t) = .ok d

end OsmIo.Spec
