import Verif.Props.ApidbShown
import Verif.Props.DumpParallel
import Verif.Props.Refusals
/-!
# Dumps by the names of their columns: the parallel converter (C73), missing tables (C45), refused dumps (C63)

The theorems of `DumpParallel`, `Refusals` and `Pipelines` for dumps given by the values that stand under the names of their columns
(`Spec/ApidbRow`) instead of by the records that are parsed from their lines.
-/
namespace OsmIo
open Text Sql Apidb Spec

/-- C73 for a dump given by the values under the names of its columns: when `close` has returned, the file holds exactly the elements of the
dump, each once, in blocks of one type and bounded size. -/
theorem C73_complete_shown (g : ParSystem.Config) (hF : 0 < g.blockSize) (cod : Apidb.Codec) (columns : Table → List Text) (tables : Apidb.Tables)
    (hn : Names columns tables) (sorted : Apidb.Table → Text) (dump : Content) (hread : dump.Shown cod columns sorted) (hwf : dump.WellFormed)
    (ns : List Node) (ws : List Way) (rs : List Relation) (hel : dump.Elements ns ws rs)
    (s : ParSystem) (hs : DumpParallelOccurs g cod tables sorted s) (hc : Closed s) :
    ∃ blocks : List (List Element), s.file = some (blockBytes g.z g.c (.header g.info :: blocks.map .data)) ∧
      (realOnes blocks.flatten).Perm (together ns ws rs) ∧
      ∀ b ∈ blocks, 1 ≤ b.length ∧ b.length ≤ g.blockSize ∧ ∀ e ∈ b, ∀ f ∈ b, rank e = rank f :=
  C73_complete g hF cod tables sorted dump (hn.readFrom hread) hwf ns ws rs hel s hs hc

/-- C73 for a dump given by the values under the names of its columns: a reader of the file gets the elements of the dump, each once, with
timestamps truncated to seconds. -/
theorem C73_reads_back_shown (g : ParSystem.Config) (hz : g.z.Lossless) (hF : 0 < g.blockSize) (cod : Apidb.Codec) (columns : Table → List Text)
    (tables : Apidb.Tables) (hn : Names columns tables) (sorted : Apidb.Table → Text) (dump : Content) (hread : dump.Shown cod columns sorted)
    (hwf : dump.WellFormed) (ns : List Node) (ws : List Way) (rs : List Relation) (hel : dump.Elements ns ws rs)
    (hi : ¬ EmptyInfo g.info) (hh : HeaderFits g.z g.c g.info)
    (hfit : ∀ b : List Element, b.length ≤ g.blockSize → b.Subperm (withSentinels ns ws rs) → (∀ e ∈ b, ∀ f ∈ b, rank e = rank f) → Fits g.z g.c b)
    (s : ParSystem) (hs : DumpParallelOccurs g cod tables sorted s) (hc : Closed s) :
    ∃ out es es', s.file = some out ∧ (∀ es'' r, ReadsElements g.z out es'' r ↔ es'' = es' ∧ r = .done) ∧ es.Perm (together ns ws rs) ∧
      List.Forall₂ Truncated es es' :=
  C73_reads_back g hz hF cod tables sorted dump (hn.readFrom hread) hwf ns ws rs hel hi hh hfit s hs hc

/-- C73 for a dump given by the values under the names of its columns: with room for the elements and three sentinels the program ends. -/
theorem C73_ends_shown (g : ParSystem.Config) (hF : 0 < g.blockSize) (hq : 0 < g.cap) (ht : 0 < g.threads)
    (cod : Apidb.Codec) (columns : Table → List Text) (tables : Apidb.Tables) (hn : Names columns tables) (sorted : Apidb.Table → Text)
    (dump : Content) (hread : dump.Shown cod columns sorted) (hwf : dump.WellFormed) (ns : List Node) (ws : List Way) (rs : List Relation)
    (hel : dump.Elements ns ws rs) (hl : ns.length + ws.length + rs.length + 3 ≤ g.bufferSize)
    (s : ParSystem) (hs : DumpParallelOccurs g cod tables sorted s) :
    ¬ Panicked s ∧ (¬ Closed s → ¬ Stuck g s) ∧ ∃ t, ParSystem.Steps g s t ∧ Closed t :=
  C73_ends g hF hq ht cod tables sorted dump (hn.readFrom hread) hwf ns ws rs hel hl s hs

/-- C45 for a dump given by the values under the names of its columns: reading it with one table taken away. -/
theorem C45_missing_table_shown (cod : Apidb.Codec) (columns : Table → List Text) (tables : Apidb.Tables) (hn : Names columns tables)
    (sorted : Apidb.Table → Text) (dump : Content) (hread : dump.Shown cod columns sorted) (t : Apidb.Table) (ht : t ∈ usedTables) :
    Apidb.ElementIterator.new (without t tables) sorted = if t = .users ∨ t = .changesets then .panic else .err :=
  C45_missing_table cod tables sorted dump (hn.readFrom hread) t ht

/-- C63 for a dump given by the values under the names of its columns: relations without a way make the program panic. -/
theorem C63_refused_shown (z : Zlib) (cod : Apidb.Codec) (columns : Table → List Text) (tables : Apidb.Tables) (hn : Names columns tables)
    (sorted : Apidb.Table → Text) (dump : Content) (hread : dump.Shown cod columns sorted) (hwf : dump.WellFormed)
    (ns : List Node) (rs : List Relation) (hel : dump.Elements ns [] rs) (hr : rs ≠ []) (info : FileInfo) (c : CompressionType) (r : Out Bytes) :
    ApidbToPbf z cod tables sorted info c r ↔ r = .panic :=
  C63_refused z cod tables sorted dump (hn.readFrom hread) hwf ns rs hel hr info c r

/-- C63 for a dump given by the values under the names of its columns: an object whose changeset has no owner makes the program panic. -/
theorem C63_unowned_shown (z : Zlib) (cod : Apidb.Codec) (columns : Table → List Text) (tables : Apidb.Tables) (hn : Names columns tables)
    (sorted : Apidb.Table → Text) (dump : Content) (hread : dump.Shown cod columns sorted) (ho : ¬ dump.AllOwned)
    (info : FileInfo) (c : CompressionType) (r : Out Bytes) : ApidbToPbf z cod tables sorted info c r ↔ r = .panic :=
  C63_unowned z cod tables sorted dump (hn.readFrom hread) ho info c r

theorem RowExample.names : Names RowExample.columns RowExample.tables :=
  ⟨RowExample.meets.1, RowExample.meets.2.1, by
    intro t ht
    simp only [List.mem_cons, List.not_mem_nil, or_false] at ht
    rcases ht with rfl | rfl | rfl | rfl | rfl | rfl | rfl | rfl | rfl | rfl <;> decide +kernel⟩

/-- The hypotheses of the theorems on the parallel converter are met by the sample dump: the program ends, with its one node in the file. -/
example : ∃ s, DumpParallelOccurs (DumpParallelExample.config 4) RowExample.z RowExample.tables RowExample.sorted s ∧ Closed s ∧
    ∃ blocks : List (List Element), s.file = some (blockBytes exZ (DumpParallelExample.config 4).c (.header (DumpParallelExample.config 4).info :: blocks.map .data)) ∧
      (realOnes blocks.flatten).length = 1 := by
  obtain ⟨-, -, -, hwf, hel⟩ := RowExample.meets
  have hr := RowExample.names.readFrom RowExample.shown
  have h0 : DumpParallelOccurs (DumpParallelExample.config 4) RowExample.z RowExample.tables RowExample.sorted _ :=
    (dump_elements hr hwf hel).mpr .refl
  obtain ⟨-, -, s, hs, hc⟩ := C73_ends_shown (DumpParallelExample.config 4) Nat.one_pos Nat.one_pos Nat.two_pos RowExample.z RowExample.columns
    RowExample.tables RowExample.names RowExample.sorted RowExample.content RowExample.shown hwf _ _ _ hel (Nat.le_refl 4) _ h0
  have hs' : DumpParallelOccurs (DumpParallelExample.config 4) RowExample.z RowExample.tables RowExample.sorted s :=
    (dump_elements hr hwf hel).mpr hs
  obtain ⟨blocks, h1, h2, -⟩ := C73_complete_shown (DumpParallelExample.config 4) Nat.one_pos RowExample.z RowExample.columns
    RowExample.tables RowExample.names RowExample.sorted RowExample.content RowExample.shown hwf _ _ _ hel s hs' hc
  refine ⟨s, hs', hc, blocks, h1, ?_⟩
  rw [h2.length_eq]
  rfl

/-- The hypotheses of `C45_missing_table_shown` are met by the sample dump. -/
example : Apidb.ElementIterator.new (without .nodes RowExample.tables) RowExample.sorted = .err :=
  C45_missing_table_shown RowExample.z RowExample.columns RowExample.tables RowExample.names RowExample.sorted RowExample.content RowExample.shown
    .nodes (by decide)

end OsmIo
