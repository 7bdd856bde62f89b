import Verif.Props.FormatFile
import Verif.Props.ParallelWriter
import Verif.Props.Box
/-!
# Published files, continued: opening (C17), unsupported content (C31), parallel reading and counting (C58), the parallel writer (C57)
-/
set_option linter.unusedSimpArgs false
set_option linter.flexible false
namespace OsmIo
open Wire Spec Spec.Protobuf

/-! ## C17 -/

theorem nextBlock_header {z : Zlib} {inflates : Format.Inflates} (hz : Decodes z inflates) {info : FileInfo} {head : Bytes}
    (h : Format.IsHeaderFrame inflates info head) (rest : Bytes) :
    ∃ it, nextBlock z (head ++ rest) {} = .ok (some (.header info, it)) ∧ it.pos + it.jump = head.length := by
  obtain ⟨data, hd, h1, h2, h3⟩ := h
  obtain ⟨it', hn, hp⟩ := nextBlock_published hz h1 (new_header_of h2 h3) (file := head ++ rest) (pre := []) (post := rest) (by simp) (it := {}) (by simp)
  exact ⟨it', hn, by simpa using hp⟩

/-- C17. A file starting with a header that says `info` by the published format, whatever follows, is opened with `info` if all required features it
lists are supported, and refused with an error if not. -/
theorem C17_published (z : Zlib) (inflates : Format.Inflates) (hz : ∀ c d, inflates c d → z.stream c = d)
    (info : FileInfo) (head rest : Bytes) (h : Format.IsHeaderFrame inflates info head) :
    ((∀ f ∈ info.required_features, Supported f) → openReader z (head ++ rest) = .ok info) ∧
    ((∃ f ∈ info.required_features, ¬ Supported f) → openReader z (head ++ rest) = .err) := by
  obtain ⟨it, hn, _⟩ := nextBlock_header hz h rest
  exact ⟨fun hs => (C17_open_iff z _ info).2 ⟨⟨it, hn⟩, hs⟩, fun ⟨f, hf, hs⟩ => C17_unsupported_refused z _ info it f hn hf hs⟩

/-! ## C31 -/

theorem foreign_refused {z : Zlib} {b : Bytes} (h : IsForeignBlob b) (t : String) : FileBlock.deserialize z t b = .err := by
  obtain ⟨fs, hf, h1, h3⟩ := h
  obtain ⟨raw, hp, hr⟩ := parse_of 100 hf
  have key : ∀ (raw : List Field) (m m' : Pb.Blob), (∀ f ∈ raw, f.tag ≠ 1 ∧ f.tag ≠ 3) → (∀ x, m.data ≠ some (.raw x) ∧ m.data ≠ some (.zlib x)) →
      raw.foldlM Pb.Blob.step m = some m' → ∀ x, m'.data ≠ some (.raw x) ∧ m'.data ≠ some (.zlib x) := by
    intro raw
    induction raw with
    | nil => intro m m' _ hm h; simp at h; subst h; exact hm
    | cons f raw ih =>
      intro m m' ht hm h
      rw [List.foldlM_cons, Option.bind_eq_bind, Option.bind_eq_some_iff] at h
      obtain ⟨m1, h1, h2⟩ := h
      refine ih m1 m' (fun g hg => ht g (by simp [hg])) ?_ h2
      have hf := ht f (by simp)
      simp only [Pb.Blob.step] at h1
      split at h1
      · exact absurd ‹_› hf.1
      · simp only [Option.map_eq_some_iff] at h1; obtain ⟨x, _, rfl⟩ := h1; exact hm
      · exact absurd ‹_› hf.2
      · simp only [Option.map_eq_some_iff] at h1; obtain ⟨x, _, rfl⟩ := h1; simp
      · simp only [Option.map_eq_some_iff] at h1; obtain ⟨x, _, rfl⟩ := h1; simp
      · simp only [Option.map_eq_some_iff] at h1; obtain ⟨x, _, rfl⟩ := h1; simp
      · simp only [Option.map_eq_some_iff] at h1; obtain ⟨x, _, rfl⟩ := h1; simp
      · simp at h1; subst h1; exact hm
  unfold FileBlock.deserialize
  split
  · rfl
  · rename_i blob hd
    rw [Pb.Blob.decode, hp, Option.bind_some] at hd
    have := key raw {} blob (fun f hf => ⟨mem_raw_tag hr h1 hf, mem_raw_tag hr h3 hf⟩) (by simp) hd
    unfold readBlobData
    split
    · rfl
    · rename_i x hx; exact absurd hx (this x).1
    · rename_i x hx; exact absurd hx (this x).2
    · rfl
    · rfl
    · rfl
    · rfl

/-- C31. A block compressed with zlib is taken to be the first `raw_size` bytes of what its data decompresses to; if there are fewer, it is refused. -/
theorem C31_zlib_size (z : Zlib) (inflates : Format.Inflates) (hz : ∀ c d, inflates c d → z.stream c = d)
    (t : String) (n : Nat) (c d b : Bytes) (hn : n < 2 ^ 31) (h : IsZlibBlob n c b) (hd : inflates c d) :
    FileBlock.deserialize z t b = if n ≤ d.length then FileBlock.new t (d.take n) else .err := by
  simp only [FileBlock.deserialize, Blob.decode_zlib hn h, readBlobData, Out.unwrap, zlibDecode, hz c d hd]
  have h1 : (Int32.ofNat n).toInt = n := toInt_ofNat32 hn
  have h2 : ¬ Int32.ofNat n < 0 := by rw [Int32.lt_iff_toInt_lt, h1]; simp
  rw [Out.ok_bind, h1, Int.toNat_natCast]
  by_cases h : n ≤ d.length
  · have h' : ¬ d.length < n := by omega
    simp [h, h', h2]
  · have h' : d.length < n := by omega
    simp [h, h', h2]

theorem nextBlock_unsupported {z : Zlib} {inflates : Format.Inflates} (hz : Decodes z inflates) {b : Bytes}
    (h : Format.IsUnsupportedFrame b ∨ Format.IsShortFrame inflates b) {file pre post : Bytes} (hf : file = pre ++ (b ++ post))
    {it : BlobIter} (hp : it.pos + it.jump = pre.length) : nextBlock z file it = .panic ∧
      ∃ d it', it.next file = .ok (some (d, it')) ∧ d.index = it.index ∧ iterationCalls z file d = none := by
  obtain ⟨t, blob, h1, h2⟩ : ∃ t blob, Format.IsFrameOf t blob b ∧ ∀ fb, FileBlock.deserialize z t blob ≠ .ok fb := by
    rcases h with ⟨t, blob, h1, ⟨h2, h3⟩ | h2⟩ | ⟨t, blob, c, d, n, h1, h2, h3, h4, h5⟩
    · exact ⟨t, blob, h1, C31_unknown_type z t blob h2 h3⟩
    · exact ⟨t, blob, h1, by rw [foreign_refused h2]; simp⟩
    · refine ⟨t, blob, h1, ?_⟩
      rw [C31_zlib_size z inflates hz t n c d blob h5 h2 h3, if_neg (by omega)]
      simp
  obtain ⟨d, it', k1, k2, k3, _, _, _, k4, k5⟩ := next_frameOf h1 hf hp
  have hlt : ¬ 2 ^ 63 ≤ d.length := by omega
  have hno : ∀ fb, FileBlock.fromBlobDesc z file d ≠ .ok fb := by
    intro fb
    simp only [FileBlock.fromBlobDesc, hlt, if_false, k4, k2]
    exact h2 fb
  obtain ⟨g1, g2⟩ := C31_no_elements z file d hno
  exact ⟨g2 it it' k1, d, it', k1, k3, g1⟩

theorem takeBlocks_until {z : Zlib} {inflates : Format.Inflates} (hz : Decodes z inflates) {blocks : List (List Element)} {frames : List Bytes}
    (h : List.Forall₂ (Format.IsDataFrame inflates) blocks frames) {bad rest : Bytes}
    (hbad : Format.IsUnsupportedFrame bad ∨ Format.IsShortFrame inflates bad) {file : Bytes} (pre : Bytes)
    (hf : file = pre ++ (frames.flatten ++ (bad ++ rest)))
    (it : BlobIter) (hp : it.pos + it.jump = pre.length) : takeBlocks z file (blocks.length + 1) it = (blocks.map .data, .panic) := by
  induction h generalizing pre it with
  | nil =>
    have := (nextBlock_unsupported hz hbad (by simpa using hf) hp).1
    simp [takeBlocks, this]
  | @cons b fr blocks frames h1 _ ih =>
    obtain ⟨data, p, h1, h2, h3⟩ := h1
    obtain ⟨it', hn, hp'⟩ := nextBlock_published hz h1 (new_data_of h2 h3) (file := file) (pre := pre) (post := frames.flatten ++ (bad ++ rest))
      (by rw [hf]; simp) hp
    have := ih (pre ++ fr) (by rw [hf]; simp) it' hp'
    simp [takeBlocks, hn, this]

/-- C31. A file with some good blocks and then one that is not supported (unknown type, other compression, no data) or shorter
than announced: iteration
over its elements delivers exactly those of the blocks before, then panics. Nothing after that block is delivered. -/
theorem C31_stops_at_unsupported (z : Zlib) (inflates : Format.Inflates) (hz : ∀ c d, inflates c d → z.stream c = d)
    (info : FileInfo) (blocks : List (List Element)) (good bad rest : Bytes) (h : Format.IsFile inflates info blocks good)
    (hbad : Format.IsUnsupportedFrame bad ∨ Format.IsShortFrame inflates bad) (es : List Element) (r : End) :
    ReadsElements z (good ++ (bad ++ rest)) es r ↔ es = blocks.flatten ∧ r = .panic := by
  obtain ⟨head, frames, rfl, h1, h2⟩ := h
  obtain ⟨it, hn, hp⟩ := nextBlock_header hz h1 (frames.flatten ++ (bad ++ rest))
  rw [List.append_assoc]
  have h3 := takeBlocks_until hz h2 hbad (file := head ++ (frames.flatten ++ (bad ++ rest))) (rest := rest) head rfl it hp
  have : takeBlocks z (head ++ (frames.flatten ++ (bad ++ rest))) (blocks.length + 1 + 1) {} = (.header info :: blocks.map .data, .panic) := by
    generalize blocks.length + 1 = n at h3 ⊢
    simp only [takeBlocks, hn, h3]
  rw [reads_iff this (by simp)]
  have hs : ∀ bs : List (List Element), stream (bs.map FileBlock.data) .panic = (bs.flatten, .panic) := by
    intro bs
    induction bs with
    | nil => rfl
    | cons b bs ih => simp [stream, ih]
  simp [streamAll, hs]

/-- A data block compressed with lzma. -/
def exUnsupported : Bytes := [0, 0, 0, 11] ++ ([10, 7] ++ utf8 "OSMData" ++ [24, 3]) ++ [34, 1, 7]

theorem exUnsupported_is : Format.IsUnsupportedFrame exUnsupported := by
  refine ⟨"OSMData", [34, 1, 7], ⟨0, 0, 0, 11, [10, 7] ++ utf8 "OSMData" ++ [24, 3], { type := "OSMData", datasize := 3 }, rfl, rfl, by decide, ?_, rfl, rfl⟩, .inr ?_⟩
  · exact ⟨[(1, .bytes (utf8 "OSMData")), (3, .int 3)], .mk1 (b := 7 :: utf8 "OSMData") 10 rfl (by decide) (by decide) (.bytes1 7 rfl (by decide))
      (.mk1 (b := [3]) 24 rfl (by decide) (by decide) (.int1 3 rfl (by decide)) .nil), ⟨["OSMData"], rfl, rfl⟩, ⟨[], rfl, rfl⟩, ⟨[3], rfl, rfl⟩⟩
  · exact ⟨[(4, .bytes [7])], .mk1 (b := [1, 7]) 34 rfl (by decide) (by decide) (.bytes1 1 rfl (by decide)) .nil, rfl, rfl⟩

/-- The example of `C58` followed by it: its way is delivered, then iteration panics. -/
example : ReadsElements exZ (exForeignFile ++ (exUnsupported ++ [1, 2])) [.way exForeignFileWay] .panic :=
  (C31_stops_at_unsupported exZ _ (fun _ _ h => h) _ _ _ _ _ exForeignFile_is (.inl exUnsupported_is) _ _).2 ⟨rfl, rfl⟩

example : openReader exZ (exForeignFile ++ exUnsupported) = .ok exForeignInfo := by
  obtain ⟨head, frames, h0, h1, _⟩ := exForeignFile_is
  rw [h0, List.append_assoc]
  exact (C17_published exZ _ (fun _ _ h => h) _ _ _ h1).1 (by simp [exForeignInfo, Supported])

/-! ## C58: other ways of reading -/

theorem flatMap_published (info : FileInfo) (blocks : List (List Element)) :
    (FileBlock.header info :: blocks.map .data).flatMap elementsOf = blocks.flatten := by
  have : ∀ bs : List (List Element), (bs.map FileBlock.data).flatMap elementsOf = bs.flatten := by
    intro bs
    induction bs with
    | nil => rfl
    | cons b bs ih => simp only [List.map_cons, List.flatMap_cons, List.flatten_cons, ih]; rfl
  rw [List.flatMap_cons, this]; rfl

/-- C58. `parallel_for_each` on a published file calls the function, for every number of threads and schedule, with each element of the
file once and with one Sentinel for each data block. -/
theorem C58_parallel (z : Zlib) (inflates : Format.Inflates) (hz : ∀ c d, inflates c d → z.stream c = d)
    (info : FileInfo) (blocks : List (List Element)) (file : Bytes) (h : Format.IsFile inflates info blocks file)
    (T : Nat) (σ : Type) (act : Fin T → Element → σ → σ) (s : σ) (p : Pool T Element σ) (hp : ParallelForEach z file act s p) :
    (p.log.map (·.2.2)).Perm (blocks.flatten ++ List.replicate blocks.length .sentinel) := by
  have hb : HasBlocks z file (.header info :: blocks.map .data) :=
    ⟨blocks.length + 2, C58_blocks_read_as_published z inflates hz info blocks file h _ (by omega)⟩
  refine (C19_parallel_each_once z file _ hb T σ act s p hp).1.trans (List.Perm.of_eq ?_)
  have hc : ((FileBlock.header info :: blocks.map .data).countP isData) = blocks.length := by
    have : ∀ bs : List (List Element), (bs.map FileBlock.data).countP isData = bs.length := by
      intro bs
      induction bs with
      | nil => rfl
      | cons b bs ih => simp [isData, List.countP_cons, ih]
    simp [List.countP_cons, isData, this]
  rw [flatMap_published, hc]

/-- Such a run exists. -/
theorem C58_parallel_runs (z : Zlib) (inflates : Format.Inflates) (hz : ∀ c d, inflates c d → z.stream c = d)
    (info : FileInfo) (blocks : List (List Element)) (file : Bytes) (h : Format.IsFile inflates info blocks file)
    (T : Nat) (hT : 0 < T) (σ : Type) (act : Fin T → Element → σ → σ) (s : σ) : ∃ p, ParallelForEach z file act s p :=
  forEach_exists ⟨blocks.length + 2, C58_blocks_read_as_published z inflates hz info blocks file h _ (by omega)⟩ hT act s

/-- C58. `count_objects` on a published file gives the numbers of its nodes, ways and relations. -/
theorem C58_counts (z : Zlib) (inflates : Format.Inflates) (hz : ∀ c d, inflates c d → z.stream c = d)
    (info : FileInfo) (blocks : List (List Element)) (file : Bytes) (h : Format.IsFile inflates info blocks file)
    (hlen : blocks.flatten.length < 2 ^ 63) (T : Nat) (p : Pool T Element (UInt64 × UInt64 × UInt64)) (hp : ParallelForEach z file countAct (0, 0, 0) p) :
    (countResult p.shared).1.toInt = blocks.flatten.countP (·.isNode) ∧
    (countResult p.shared).2.1.toInt = blocks.flatten.countP (·.isWay) ∧
    (countResult p.shared).2.2.toInt = blocks.flatten.countP (·.isRelation) := by
  have hb : HasBlocks z file (.header info :: blocks.map .data) :=
    ⟨blocks.length + 2, C58_blocks_read_as_published z inflates hz info blocks file h _ (by omega)⟩
  have := C20_counts_exact z file _ hb T p hp
  rw [flatMap_published] at this
  exact this hlen

/-- C58. The computed bounding box of a published file is the smallest that contains its nodes, if in each block nodes come first. -/
theorem C58_box (z : Zlib) (inflates : Format.Inflates) (hz : ∀ c d, inflates c d → z.stream c = d)
    (info : FileInfo) (blocks : List (List Element)) (file : Bytes) (h : Format.IsFile inflates info blocks file)
    (hn : ∀ b ∈ blocks, NodesFirst b) (hc : coordinates blocks.flatten ≠ [])
    (T : Nat) (p : Pool T (Option BoundingBox) (Option BoundingBox)) (hp : BoxCalculation z file p) :
    ∃ b, boxResult p.shared = .ok b ∧ Tight b (coordinates blocks.flatten) := by
  have hb : HasBlocks z file (.header info :: blocks.map .data) :=
    ⟨blocks.length + 2, C58_blocks_read_as_published z inflates hz info blocks file h _ (by omega)⟩
  have := (C21_box_is_tight z file _ hb (by
    intro b hb
    simp at hb
    rcases hb with rfl | ⟨a, ha, rfl⟩
    · exact ⟨[], [], rfl, by simp, by simp⟩
    · exact hn a ha) T p hp).1
  rw [flatMap_published] at this
  exact this hc

/-! ## C57: the parallel writer -/

/-- C57. What the parallel writer has written after `close` is, by the published format, a file with the given metadata whose blocks together hold
exactly the submitted elements (rounded); each block holds at most `F` elements of one kind. As to numbers, only the differences that are
stored must be representable. -/
theorem C57_parallel_written_as_published (S : StdSort) (z : Zlib) (inflates : Format.Inflates) (hz : ∀ l d, inflates (z.deflate l d) d)
    (c : CompressionType) (info : FileInfo) (B F : Nat) (hF : 0 < F) (calls : List WriteCall) (blocks : List (List Element))
    (hp : ParallelBlocks S B F calls blocks) (hr : NoSentinel (submitted calls))
    (hn : ¬ EmptyInfo info) (hh : HeaderFits z c info) (hb : ∀ b, info.bounding_box = some b → BoxInRange b)
    (hm : ∀ b ∈ blocks, Format.Steps b) (hi : ∀ e ∈ submitted calls, InRange e) (hfit : ∀ b ∈ blocks, Fits z c b)
    (threads : Nat) (p : Pipeline) (hs : Pipeline.Steps z c threads (.init z info c blocks) p) (hd : p.Drained) :
    ∃ info' blocks', Format.IsFile inflates info' blocks' p.writer.file ∧ SameInfo info' info ∧
      List.Forall₂ (List.Forall₂ Rounded) blocks blocks' ∧ blocks.flatten.Perm (submitted calls) ∧
      ∀ b ∈ blocks', b.length ≤ F ∧ Homogeneous b := by
  have hperm := C25_permutation S B F calls blocks hp
  have hshape := C35_block_shape S B F hF calls blocks hp
  have hmem : ∀ b ∈ blocks, ∀ e ∈ b, e ∈ submitted calls := fun b hb e he => hperm.mem_iff.1 (List.mem_flatten.2 ⟨b, hb, he⟩)
  obtain ⟨info', blocks', h1, h2, h3⟩ := blocks_written_as_published (c := c) (blocks := blocks) hz hn hh hb
    (fun b hb => homogeneous_of_oneType (hshape b hb).2.2 fun e he => hr e (hmem b hb e he))
    hm (fun b hb e he => hi e (hmem b hb e he)) hfit
  refine ⟨info', blocks', ?_, h3, h2.imp fun _ _ h => h.1, hperm, ?_⟩
  · rw [((C24_blocks_in_order z info c threads blocks p hs).2 hd).1]; exact h1
  · intro b' hb'
    obtain ⟨i, hi, rfl⟩ := List.mem_iff_getElem.1 hb'
    have hil : i < blocks.length := h2.length_eq ▸ hi
    have h3 := h2.get hil hi
    simp only [List.get_eq_getElem] at h3
    exact ⟨h3.1.length_eq ▸ (hshape blocks[i] (List.getElem_mem hil)).2.1, h3.2⟩

/-- The hypotheses of the theorem hold for three nodes handed over out of order: buffer for five, blocks of two. -/
example : ∃ blocks, ParallelBlocks mergeSortStd 5 2 [.element (nodeN 2), .element (nodeN 1), .element (nodeN 4)] blocks ∧
    NoSentinel (submitted [.element (nodeN 2), .element (nodeN 1), .element (nodeN 4)]) ∧
    (∀ b ∈ blocks, Format.Steps b) ∧ (∀ b ∈ blocks, Fits exZ .zlib b) ∧
    (∀ e ∈ submitted [.element (nodeN 2), .element (nodeN 1), .element (nodeN 4)], InRange e) ∧
    ∃ p, Pipeline.Steps exZ .zlib 2 (.init exZ exInfo .zlib blocks) p ∧ p.Drained := by
  refine ⟨[[nodeN 1, nodeN 2], [nodeN 4]], ?_, ?_, ?_, ?_, ?_, ?_⟩
  · refine ⟨⟨[nodeN 2, nodeN 1, nodeN 4], none, []⟩, ⟨[], some (nodeN 4), [[nodeN 1, nodeN 2], [nodeN 4]]⟩, by decide +kernel, ?_, rfl⟩
    unfold Orderer.FlushAll
    simp only
    have e : mergeSortStd.sort [nodeN 2, nodeN 1, nodeN 4] = [nodeN 1, nodeN 2, nodeN 4] := by
      have h12 : Element.le (nodeN 2) (nodeN 1) = false := by decide +kernel
      have h14 : Element.le (nodeN 1) (nodeN 4) = true := by decide +kernel
      have h24 : Element.le (nodeN 2) (nodeN 4) = true := by decide +kernel
      show List.mergeSort _ _ = _
      simp [List.mergeSort, List.MergeSort.Internal.splitInTwo, List.splitAt, List.splitAt.go, List.merge, h12, h14, h24]
    rw [e]
    exact .step _ _ (by simp) (.step _ _ (by decide +kernel) (.done _ (by decide +kernel)))
  · intro e he; simp [submitted] at he; rcases he with rfl | rfl | rfl <;> simp [nodeN]
  · intro b hb
    simp only [List.mem_cons, List.not_mem_nil, or_false] at hb
    rcases hb with rfl | rfl
    · refine ⟨?_, by simp [nodeN], by simp [nodeN]⟩
      show List.IsChain Format.NodeStep [{ exNode with id := 1 }, { exNode with id := 2 }]
      unfold Format.NodeStep Format.Fits64 Format.Fits32
      decide +kernel
    · exact ⟨.singleton _, by simp [nodeN], by simp [nodeN]⟩
  · unfold Fits; decide +kernel
  · intro e he
    simp [submitted] at he
    rcases he with rfl | rfl | rfl <;> exact ⟨by decide +kernel, by decide +kernel⟩
  · exact (C24_pipeline_terminates exZ exInfo .zlib 2 (by norm_num) _ _ .refl).2.2

end OsmIo
