import Verif.Props.Size
import Verif.Props.ParallelIo
import Verif.Props.DumpParallel
/-! # C83: the programs that write in parallel, for elements that are not too heavy -/
namespace OsmIo
open Spec

/-- C83, C70. The parallel copy reads back if no element kept weighs too much for the block size: with the usual 8000 elements in a block, 250000. -/
theorem C83_parallel_copy (g : ParSystem.Config) (hz : g.z.Lossless) (hm : Modest g.z) (hF : 0 < g.blockSize) (file : Bytes) (bs : List FileBlock)
    (hb : HasBlocks g.z file bs) {T : Nat} (hT : 0 < T) (readCap : Nat) (hcap : 0 < readCap) (keep : Element → Bool) (kept : List Element)
    (hk : kept = (bs.flatMap elementsOf).filter keep) (ha : Ascending kept) (hl : kept.length ≤ g.bufferSize) (hx : ∀ e ∈ kept, Exact e)
    (hn : ¬ EmptyInfo g.info) (hi : infoWeight g.info ≤ 2000000000) (W : Nat) (hW : g.blockSize * W ≤ 2000000000) (hw : ∀ e ∈ kept, weight e ≤ W)
    (ds : List BlobDesc) (s : ParallelIo T) (hs : ParallelIoOccurs g file readCap keep ds s) (hc : Closed s.writer) :
    ∃ out, s.writer.file = some out ∧ ∀ es r, ReadsElements g.z out es r ↔ es = kept ∧ r = .done :=
  C70_reads_back g hz hF file bs hb hT readCap hcap keep kept hk ha hl hx hn (C83_header_fits g.z hm g.c g.info hi)
    (fun run hr hlen => C83_each g.z hm g.c run g.blockSize W hlen (fun e he => hw e (hr.subset he)) hW) ds s hs hc

/-- C83, C73. And so does a dump written through the parallel writer. -/
theorem C83_parallel_dump (g : ParSystem.Config) (hz : g.z.Lossless) (hm : Modest g.z) (hF : 0 < g.blockSize) (cod : Apidb.Codec) (tables : Apidb.Tables)
    (sorted : Apidb.Table → Text) (dump : Content) (hread : dump.ReadFrom cod tables sorted) (hwf : dump.WellFormed) (ns : List Node) (ws : List Way)
    (rs : List Relation) (hel : dump.Elements ns ws rs) (hn : ¬ EmptyInfo g.info) (hi : infoWeight g.info ≤ 2000000000) (W : Nat)
    (hW : g.blockSize * W ≤ 2000000000) (hw : ∀ e ∈ withSentinels ns ws rs, weight e ≤ W)
    (s : ParSystem) (hs : DumpParallelOccurs g cod tables sorted s) (hc : Closed s) :
    ∃ out es es', s.file = some out ∧ (∀ es'' r, ReadsElements g.z out es'' r ↔ es'' = es' ∧ r = .done) ∧ es.Perm (together ns ws rs) ∧
      List.Forall₂ Truncated es es' :=
  C73_reads_back g hz hF cod tables sorted dump hread hwf ns ws rs hel hn (C83_header_fits g.z hm g.c g.info hi)
    (fun b hlen hsub _ => C83_each g.z hm g.c b g.blockSize W hlen (fun e he => hw e (hsub.subset he)) hW) s hs hc

open DumpParallelExample in
/-- The hypotheses are met by the dump of `Props/DumpParallel.lean`. -/
example (s : ParSystem) (hs : DumpParallelOccurs (config 7) ReadExample.plain Apidb.dumpTables ReadExample.sorted s) (hc : Closed s) :
    ∃ out es, s.file = some out ∧ ReadsElements exZ out es .done ∧ es.length = 4 := by
  obtain ⟨out, es, es', h1, h2, h3, h4⟩ := C83_parallel_dump (config 7) exZ_lossless exZ_modest Nat.one_pos ReadExample.plain Apidb.dumpTables ReadExample.sorted
    ReadExample.content ReadExample.readFrom ReadExample.wellFormed nodes ways relations elements exInfo_nonempty (by decide +kernel) 100000 (by decide +kernel)
    (by decide +kernel) s hs hc
  refine ⟨out, es', h1, (h2 _ _).mpr ⟨rfl, rfl⟩, ?_⟩
  rw [← h4.length_eq, h3.length_eq]
  rfl

end OsmIo
