import Verif.Spec.FormatFile
/-! # Files put one after another (`cat a.osm.pbf b.osm.pbf`) -/
namespace OsmIo.Spec.Format

/-- The bytes are those of published files, one after another: the information and the blocks of each. -/
def IsFiles (inflates : Inflates) (files : List (FileInfo × List (List Element))) (bytes : Bytes) : Prop :=
  ∃ parts, bytes = parts.flatten ∧ List.Forall₂ (fun f b => IsFile inflates f.1 f.2 b) files parts

/-- All elements of the files, file by file. -/
def allElements (files : List (FileInfo × List (List Element))) : List Element := files.flatMap fun f => f.2.flatten

/-- How many data blocks the files have. -/
def dataBlocks (files : List (FileInfo × List (List Element))) : Nat := (files.map fun f => f.2.length).sum

end OsmIo.Spec.Format
