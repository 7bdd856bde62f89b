import Verif.Props.Pipelines
import Verif.Props.Damaged
/-!
# Refusals: changesets in blocks (C31), missing tables (C45), and the conversion programs on such input (C61 to C63)
-/
namespace OsmIo
open Wire Spec Spec.Protobuf

/-! ## C31 -/

theorem mapM_mem_ok {α β : Type} {f : α → Out β} {as : List α} {bs : List β} (h : as.mapM f = .ok bs) :
    ∀ a ∈ as, ∃ b ∈ bs, f a = .ok b := by
  induction as generalizing bs with
  | nil => simp
  | cons a as ih =>
    simp only [List.mapM_cons, Out.bind_eq_ok, Out.pure_eq] at h
    obtain ⟨b, hb, bs', hbs, he⟩ := h
    injection he with he; subst he
    intro c hc
    simp at hc
    rcases hc with rfl | hc
    · exact ⟨b, by simp, hb⟩
    · obtain ⟨b', h1, h2⟩ := ih hbs c hc
      exact ⟨b', by simp [h1], h2⟩

/-- C31. A block with a changeset in one of its groups never yields elements: the changesets are not silently dropped. -/
theorem C31_changesets (z : Zlib) (inflates : Format.Inflates) (hz : ∀ c d, inflates c d → z.stream c = d)
    (p : Pb.PrimitiveBlock) (data b : Bytes) (h : IsPrimitiveBlock p data) (hb : Format.IsBlob inflates data b)
    (g : Pb.PrimitiveGroup) (hg : g ∈ p.primitivegroup) (hc : g.changesets ≠ []) (fb : FileBlock) :
    FileBlock.deserialize z "OSMData" b ≠ .ok fb := by
  have key : FileBlock.new "OSMData" data ≠ .ok fb := by
    intro hn
    simp only [FileBlock.new, parseData, PrimitiveBlock.decode_of h] at hn
    simp only [String.reduceEq, if_false, if_true, Out.bind_eq_ok] at hn
    obtain ⟨es, hn, _⟩ := hn
    simp only [fromPrimitiveBlock, Out.bind_eq_ok] at hn
    obtain ⟨tbl, _, groups, hn, _⟩ := hn
    obtain ⟨x, _, hx⟩ := mapM_mem_ok hn g hg
    simp only [readGroup, Out.bind_eq_ok] at hx
    obtain ⟨_, _, _, _, _, _, _, _, hx⟩ := hx
    have : g.changesets.isEmpty = false := by cases hh : g.changesets with | nil => exact absurd hh hc | cons => rfl
    simp [this] at hx
  obtain ⟨hn, h1 | ⟨c, h1, h2⟩⟩ := hb
  · obtain ⟨r, hd⟩ := Blob.decode_raw h1
    simpa [FileBlock.deserialize, hd, readBlobData] using key
  · rw [C31_zlib_size z inflates hz _ data.length c data b hn h2 h1, if_pos le_rfl, List.take_length]
    exact key

/-- A block with a changeset (5) in its only group. -/
theorem exChangesets_is : IsPrimitiveBlock { primitivegroup := [{ changesets := [{ id := 5 }] }], stringtable := ⟨[[]]⟩ }
    [18, 4, 42, 2, 8, 5, 10, 2, 10, 0] := by
  have hg : IsPrimitiveGroup { changesets := [{ id := 5 }] } [42, 2, 8, 5] := by
    refine ⟨[(5, .bytes [8, 5])], .mk1 (b := [2, 8, 5]) 42 rfl (by decide) (by decide) (.bytes1 2 rfl (by decide)) .nil,
      ⟨[], rfl, .nil⟩, rfl, ⟨[], rfl, .nil⟩, ⟨[], rfl, .nil⟩, ⟨[_], rfl, .cons ?_ .nil⟩⟩
    exact ⟨[(1, .int 5)], .mk1 (b := [5]) 8 rfl (by decide) (by decide) (.int1 5 rfl (by decide)) .nil, ⟨[5], rfl, rfl⟩⟩
  have hs : IsStringTable ⟨[[]]⟩ [10, 0] :=
    ⟨[(1, .bytes [])], .mk1 (b := [0]) 10 rfl (by decide) (by decide) (.bytes1 0 rfl (by decide)) .nil, rfl⟩
  refine ⟨[(2, .bytes [42, 2, 8, 5]), (1, .bytes [10, 0])], ?_, ⟨_, rfl, hs⟩,
    ⟨[_], rfl, .cons hg .nil⟩, ⟨[], rfl, rfl⟩, ⟨[], rfl, rfl⟩, ⟨[], rfl, rfl⟩, ⟨[], rfl, rfl⟩⟩
  exact .mk1 (b := [4, 42, 2, 8, 5]) 18 rfl (by decide) (by decide) (.bytes1 4 rfl (by decide))
    (.mk1 (b := [2, 10, 0]) 10 rfl (by decide) (by decide) (.bytes1 2 rfl (by decide)) .nil)

/-! ## C45 -/

/-- The tables of a dump but one. -/
def without (t : Apidb.Table) (tables : Apidb.Tables) : Apidb.Tables := fun t' => if t' = t then none else tables t'

/-- The tables that are read. -/
def usedTables : List Apidb.Table :=
  [.users, .changesets, .nodes, .nodeTags, .ways, .wayNodes, .wayTags, .relations, .relationMembers, .relationTags]

/-- C45. Reading a dump in which one table is missing: a panic if it is `users` or `changesets`, an error if it is another one. -/
theorem C45_missing_table (cod : Apidb.Codec) (tables : Apidb.Tables) (sorted : Apidb.Table → Text) (dump : Content)
    (hread : dump.ReadFrom cod tables sorted) (t : Apidb.Table) (ht : t ∈ usedTables) :
    Apidb.ElementIterator.new (without t tables) sorted = if t = .users ∨ t = .changesets then .panic else .err := by
  obtain ⟨d1, f1, e1, h1⟩ := hread.users
  obtain ⟨d2, f2, e2, h2⟩ := hread.changesets
  have h1 := Apidb.tableAll_reads (Apidb.holds_iff.1 h1)
  have h2 := Apidb.tableAll_reads (Apidb.holds_iff.1 h2)
  obtain ⟨d3, f3, e3, _⟩ := hread.nodes
  obtain ⟨d4, f4, e4, _⟩ := hread.nodeTags
  obtain ⟨d5, f5, e5, _⟩ := hread.ways
  obtain ⟨d6, f6, e6, _⟩ := hread.wayNodes
  obtain ⟨d7, f7, e7, _⟩ := hread.wayTags
  obtain ⟨d8, f8, e8, _⟩ := hread.relations
  obtain ⟨d9, f9, e9, _⟩ := hread.relationMembers
  obtain ⟨d10, f10, e10, _⟩ := hread.relationTags
  simp only [usedTables, List.mem_cons, List.not_mem_nil, or_false] at ht
  rcases ht with rfl | rfl | rfl | rfl | rfl | rfl | rfl | rfl | rfl | rfl <;>
    simp [Apidb.ElementIterator.new, without, e1, e2, e3, e4, e5, e6, e7, e8, e9, e10, Out.unwrap, Out.orErr,
      h1, h2]

/-! ## The programs -/

/-- C63. `apidb-to-pbf` on such a dump ends in the same way. -/
theorem C63_missing_table (z : Zlib) (cod : Apidb.Codec) (tables : Apidb.Tables) (sorted : Apidb.Table → Text) (dump : Content)
    (hread : dump.ReadFrom cod tables sorted) (t : Apidb.Table) (ht : t ∈ usedTables) (info : FileInfo) (c : CompressionType) (r : Out Bytes) :
    ApidbToPbf z cod (without t tables) sorted info c r ↔ r = if t = .users ∨ t = .changesets then .panic else .err := by
  unfold ApidbToPbf
  rw [C45_missing_table cod tables sorted dump hread t ht]
  by_cases h : t = .users ∨ t = .changesets <;> simp [h]

/-- C61. `pbf-io` on a file that requires a feature that is not supported ends with an error, whatever follows the header. -/
theorem C61_unsupported (z : Zlib) (inflates : Format.Inflates) (hz : ∀ c d, inflates c d → z.stream c = d)
    (info : FileInfo) (head rest : Bytes) (h : Format.IsHeaderFrame inflates info head) (hs : ∃ f ∈ info.required_features, ¬ Supported f)
    (keep : Element → Bool) (program : String) (c : CompressionType) (r : Out Bytes) :
    PbfIo z keep program c (head ++ rest) r ↔ r = .err := by
  unfold PbfIo
  rw [(C17_published z inflates hz info head rest h).2 hs]

/-- C62. So does `pbf-to-apidb`. -/
theorem C62_unsupported (z : Zlib) (inflates : Format.Inflates) (hz : ∀ c d, inflates c d → z.stream c = d)
    (info : FileInfo) (head rest : Bytes) (h : Format.IsHeaderFrame inflates info head) (hs : ∃ f ∈ info.required_features, ¬ Supported f)
    (cod : Apidb.Codec) (userClock changesetClock : Int64 → Int64) (r : Out (Apidb.Table → Text)) :
    PbfToApidb z cod userClock changesetClock (head ++ rest) r ↔ r = .err := by
  unfold PbfToApidb
  rw [(C17_published z inflates hz info head rest h).2 hs]

/-- C61. `pbf-io` on a file that is damaged after some blocks panics. -/
theorem C61_damaged (z : Zlib) (inflates : Format.Inflates) (hz : ∀ c d, inflates c d → z.stream c = d)
    (info : FileInfo) (blocks : List (List Element)) (good bad rest : Bytes) (h : Format.IsFile inflates info blocks good)
    (hs : ∀ f ∈ info.required_features, Supported f) (hbad : Format.IsDamagedFrame inflates bad)
    (keep : Element → Bool) (program : String) (c : CompressionType) (r : Out Bytes) :
    PbfIo z keep program c (good ++ (bad ++ rest)) r → r = .panic := by
  have ho : openReader z (good ++ (bad ++ rest)) = .ok info := by
    obtain ⟨head, frames, rfl, h1, _⟩ := h
    rw [List.append_assoc]
    exact (C17_published z inflates hz info head _ h1).1 hs
  unfold PbfIo
  rw [ho]
  rintro ⟨es, e, h1, rfl⟩
  obtain ⟨rfl, rfl⟩ := (C31_stops_at_damaged z inflates hz info blocks good bad rest h hbad es e).1 h1
  cases hw : ((Writer.fromFileInfo { info with writingprogram := some program } c).writeHeader z).writeAll z (blocks.flatten.filter keep) with
  | ok w => rfl
  | err =>
    by_cases hl : Layered (realOnes (blocks.flatten.filter keep))
    · obtain ⟨w, hw'⟩ := (C13_writer_accepts_iff z c { info with writingprogram := some program } (blocks.flatten.filter keep)).1.2 hl
      rw [hw] at hw'; cases hw'
    · rw [(C13_writer_accepts_iff z c { info with writingprogram := some program } (blocks.flatten.filter keep)).2 hl] at hw
      cases hw
  | panic => rfl

/-- The example of `C43` without its table of ways: an error. -/
example (info : FileInfo) (c : CompressionType) : ApidbToPbf exZ ReadExample.plain (without .ways Apidb.dumpTables) ReadExample.sorted info c .err :=
  (C63_missing_table exZ ReadExample.plain _ _ _ ReadExample.readFrom .ways (by decide) info c .err).2 (by decide)

/-- The example of `C31`: its required features are supported, so that `pbf-io` starts copying, and panics. -/
example (keep : Element → Bool) (program : String) (c : CompressionType) : PbfIo exZ keep program c (exForeignFile ++ (exDamaged ++ [])) .panic := by
  have hbad := exDamaged_is
  have hgood := exForeignFile_is
  generalize exDamaged = bad at hbad ⊢
  generalize exForeignFile = good at hgood ⊢
  obtain ⟨r, h, -⟩ := C61_total exZ keep program c (good ++ (bad ++ []))
  have := C61_damaged exZ _ (fun _ _ h => h) _ _ _ _ _ hgood (by simp [exForeignInfo, Supported]) hbad keep program c r h
  rwa [this] at h

end OsmIo
