import Verif.Model.Reader
import Verif.Model.Writer
import Verif.Model.ApidbWriter
import Verif.Model.ApidbReader
import Verif.Spec.ApidbRead
/-!
# The conversion programs of `examples/`

Each program is a relation between its input and how it ends: with the contents of what it wrote, with an error
or with a panic. The reader and the writer it uses work in alternation; as they do not share anything, the
elements are read first here. A panic while reading stops the program wherever the writer is then.
-/
namespace OsmIo

/-- `examples/pbf-io.rs:15-54` and `writer.rs:30-58`: read the elements of a file, write those that are kept to a new file with the
same metadata but for the name of the program. -/
def PbfIo (z : Zlib) (keep : Element → Bool) (program : String) (c : CompressionType) (file : Bytes) (r : Out Bytes) : Prop :=
  match openReader z file with
  | .err => r = .err
  | .panic => r = .panic
  | .ok info => ∃ es e, ReadsElements z file es e ∧
      r = (do
        let w ← ((Writer.fromFileInfo { info with writingprogram := some program } c).writeHeader z).writeAll z (es.filter keep)
        match e with
        | .done => .ok (w.close z).file
        | _ => .panic)

/-- `examples/pbf-to-apidb.rs:10-29`: write the elements of a file to a dump. -/
def PbfToApidb (z : Zlib) (cod : Apidb.Codec) (userClock changesetClock : Int64 → Int64) (file : Bytes) (r : Out (Apidb.Table → Text)) : Prop :=
  match openReader z file with
  | .err => r = .err
  | .panic => r = .panic
  | .ok _ => ∃ es e, ReadsElements z file es e ∧
      r = (do
        let w ← Apidb.Writer.new.writeAll cod es
        match e with
        | .done => do
          let w' ← w.close userClock changesetClock
          .ok w'.files
        | _ => .panic)

/-- `examples/apidb-to-pbf.rs:19-46`: write the elements of a dump, whose tables have been sorted, to a file. -/
def ApidbToPbf (z : Zlib) (cod : Apidb.Codec) (tables : Apidb.Tables) (sorted : Apidb.Table → Text) (info : FileInfo) (c : CompressionType)
    (r : Out Bytes) : Prop :=
  match Apidb.ElementIterator.new tables sorted with
  | .err => r = .err
  | .panic => r = .panic
  | .ok it =>
    (∃ es it', Spec.Iterates (Apidb.ElementIterator.next cod) it es it' ∧
      r = (do
        let w ← ((Writer.fromFileInfo info c).writeHeader z).writeAll z es
        .ok (w.close z).file)) ∨
    (∃ es s, Spec.Yields (Apidb.ElementIterator.next cod) it es s ∧ (Apidb.ElementIterator.next cod s = .panic ∨ Apidb.ElementIterator.next cod s = .err) ∧
      r = .panic)

end OsmIo
