import Verif.Model.ApidbToc
/-! The table definitions the reader finds in a dump of the writer. -/
namespace OsmIo.Apidb
open OsmIo.Text

/-- Positions and sort keys, written out. -/
def dumpDef : Table → TableDef
  | .nodes => ⟨List.range 9, [(1, .integer), (8, .integer)]⟩
  | .nodeTags => ⟨List.range 4, [(1, .integer), (2, .integer), (3, .string)]⟩
  | .ways => ⟨List.range 6, [(1, .integer), (4, .integer)]⟩
  | .wayNodes => ⟨List.range 4, [(1, .integer), (3, .integer), (4, .integer)]⟩
  | .wayTags => ⟨List.range 4, [(1, .integer), (4, .integer), (2, .string)]⟩
  | .relations => ⟨List.range 6, [(1, .integer), (4, .integer)]⟩
  | .relationMembers => ⟨List.range 6, [(1, .integer), (5, .integer), (2, .string), (3, .integer), (4, .string), (6, .integer)]⟩
  | .relationTags => ⟨List.range 4, [(1, .integer), (4, .integer), (2, .string)]⟩
  | .changesets => ⟨List.range 9, [(1, .integer)]⟩
  | .users => ⟨List.range 29, [(2, .integer)]⟩
  | _ => ⟨[], []⟩

theorem dumpTables_eq : ∀ t ∈ ofInterest, dumpTables t = some (dumpDef t, tocFile t) := by decide +kernel

end OsmIo.Apidb
