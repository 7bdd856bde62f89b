import Verif.Model.Pipelines
import Verif.Model.ParallelSystem
/-!
# From a dump into a file through the parallel writer

The program of `tests/test_apidb_dump_reader_parallel_pbf_writer_pipe.rs:13-52`.
-/
namespace OsmIo

/-- The calls the program makes for the elements it reads: `write_header`, then `write_element` for each,
`test_apidb_dump_reader_parallel_pbf_writer_pipe.rs:43-46` (the sentinels between the types are passed on, too). -/
def dumpOps (es : List Element) : List Op := .header :: es.map fun e => .write (.element e)

/-- The states of the parallel writer while the program runs, for a dump that can be read; the reader shares nothing with the writer, so that the moments at
which it reads do not matter. (`test_apidb_dump_reader_parallel_pbf_writer_pipe.rs:24-47`) -/
inductive DumpParallelOccurs (g : ParSystem.Config) (cod : Apidb.Codec) (tables : Apidb.Tables) (sorted : Apidb.Table → Text) : ParSystem → Prop
  | run (it it' : Apidb.ElementIterator) (es : List Element) (s : ParSystem) (h1 : Apidb.ElementIterator.new tables sorted = .ok it)
      (h2 : Spec.Iterates (Apidb.ElementIterator.next cod) it es it') (h3 : ParSystem.Steps g (ParSystem.init (dumpOps es)) s) :
      DumpParallelOccurs g cod tables sorted s

end OsmIo
