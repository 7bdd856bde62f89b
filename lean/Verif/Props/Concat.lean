import Verif.Props.FormatMore
import Verif.Spec.Concat
/-!
# C97: files put one after another
-/
set_option linter.unusedSimpArgs false
set_option linter.flexible false
namespace OsmIo
open Wire Spec Spec.Protobuf

/-- A frame that is read as this block. -/
def FrameIs (inflates : Format.Inflates) (fb : FileBlock) (b : Bytes) : Prop :=
  ∃ t data, Format.IsFrame inflates t data b ∧ FileBlock.new t data = .ok fb

theorem takeBlocks_frames {z : Zlib} {inflates : Format.Inflates} (hz : Decodes z inflates) {fbs : List FileBlock} {frames : List Bytes}
    (h : List.Forall₂ (FrameIs inflates) fbs frames) {file : Bytes} (pre : Bytes) (hf : file = pre ++ frames.flatten)
    (it : BlobIter) (hp : it.pos + it.jump = pre.length) (fuel : Nat) (hfuel : fbs.length < fuel) :
    takeBlocks z file fuel it = (fbs, .done) := by
  induction h generalizing pre it fuel with
  | nil =>
    obtain _ | fuel := fuel
    · simp at hfuel
    · have := next_end (file := file) (it := it) (by rw [hp, hf]; simp)
      simp [takeBlocks, nextBlock, this]
  | @cons fb b fbs frames hb _ ih =>
    obtain _ | fuel := fuel
    · simp at hfuel
    · obtain ⟨t, data, h1, h2⟩ := hb
      obtain ⟨it', hn, hp'⟩ := nextBlock_published hz h1 h2 (file := file) (pre := pre) (post := frames.flatten)
        (by rw [hf]; simp) hp
      have := ih (pre ++ b) (by rw [hf]; simp) it' hp' fuel (by simpa using hfuel)
      simp [takeBlocks, hn, this]

/-- The blocks of files one after another. -/
def blocksOfFiles (files : List (FileInfo × List (List Element))) : List FileBlock :=
  files.flatMap fun f => .header f.1 :: f.2.map .data

theorem frames_of_file {inflates : Format.Inflates} {i : FileInfo} {blocks : List (List Element)} {b : Bytes}
    (h : Format.IsFile inflates i blocks b) :
    ∃ frames, b = frames.flatten ∧ List.Forall₂ (FrameIs inflates) (.header i :: blocks.map .data) frames := by
  obtain ⟨head, frames, rfl, ⟨data, hd, h1, h2, h3⟩, h4⟩ := h
  refine ⟨head :: frames, by simp, .cons ⟨_, _, h1, new_header_of h2 h3⟩ ?_⟩
  rw [List.forall₂_map_left_iff]
  exact h4.imp fun es fr ⟨data, p, k1, k2, k3⟩ => ⟨_, _, k1, new_data_of k2 k3⟩

theorem frames_of_files {inflates : Format.Inflates} {files : List (FileInfo × List (List Element))} {bytes : Bytes}
    (h : Format.IsFiles inflates files bytes) :
    ∃ frames, bytes = frames.flatten ∧ List.Forall₂ (FrameIs inflates) (blocksOfFiles files) frames := by
  obtain ⟨parts, rfl, h⟩ := h
  induction h with
  | nil => exact ⟨[], rfl, .nil⟩
  | @cons f b files parts h1 _ ih =>
    obtain ⟨fr, hb, k⟩ := frames_of_file h1
    obtain ⟨frs, hbs, ks⟩ := ih
    exact ⟨fr ++ frs, by rw [List.flatten_cons, hbs, hb, List.flatten_append], List.rel_append k ks⟩

theorem files_blocks {z : Zlib} {inflates : Format.Inflates} (hz : Decodes z inflates)
    {files : List (FileInfo × List (List Element))} {bytes : Bytes} (h : Format.IsFiles inflates files bytes) (fuel : Nat)
    (hfuel : (blocksOfFiles files).length < fuel) : takeBlocks z bytes fuel {} = (blocksOfFiles files, .done) := by
  obtain ⟨frames, rfl, hf⟩ := frames_of_files h
  exact takeBlocks_frames hz hf [] (by simp) {} (by simp) fuel hfuel

theorem blocksOfFiles_length (files : List (FileInfo × List (List Element))) :
    (blocksOfFiles files).length = files.length + Format.dataBlocks files := by
  induction files with
  | nil => rfl
  | cons f fs ih =>
    simp only [blocksOfFiles, List.flatMap_cons, List.length_append, List.length_cons, List.length_map, Format.dataBlocks,
      List.map_cons, List.sum_cons] at ih ⊢
    omega

theorem blocksOfFiles_elements (files : List (FileInfo × List (List Element))) :
    (blocksOfFiles files).flatMap elementsOf = Format.allElements files := by
  induction files with
  | nil => rfl
  | cons f fs ih =>
    simp only [blocksOfFiles, Format.allElements, List.flatMap_cons, List.flatMap_append] at ih ⊢
    rw [ih]
    congr 1
    rw [← List.flatMap_cons]
    exact flatMap_published f.1 f.2

theorem blocksOfFiles_data (files : List (FileInfo × List (List Element))) :
    (blocksOfFiles files).countP isData = Format.dataBlocks files := by
  have h0 : ∀ bs : List (List Element), (bs.map FileBlock.data).countP isData = bs.length := by
    intro bs
    induction bs with
    | nil => rfl
    | cons b bs ih => simp [isData, List.countP_cons, ih]
  induction files with
  | nil => rfl
  | cons f fs ih =>
    simp only [blocksOfFiles, List.flatMap_cons, List.countP_append, List.countP_cons, Format.dataBlocks, List.map_cons, List.sum_cons, h0] at ih ⊢
    rw [ih]
    simp [isData]

theorem files_has {z : Zlib} {inflates : Format.Inflates} (hz : Decodes z inflates)
    {files : List (FileInfo × List (List Element))} {bytes : Bytes} (h : Format.IsFiles inflates files bytes) :
    HasBlocks z bytes (blocksOfFiles files) := ⟨_, files_blocks hz h _ (Nat.lt_succ_self _)⟩

/-- C97. `blocks()` on files put one after another gives the blocks of all of them, the header of each followed by its data blocks, and ends. -/
theorem C97_blocks (z : Zlib) (inflates : Format.Inflates) (hz : ∀ c d, inflates c d → z.stream c = d)
    (files : List (FileInfo × List (List Element))) (bytes : Bytes) (h : Format.IsFiles inflates files bytes) (n : Nat)
    (hn : files.length + Format.dataBlocks files < n) :
    takeBlocks z bytes n {} = (files.flatMap fun f => FileBlock.header f.1 :: f.2.map .data, .done) :=
  files_blocks hz h n (by rw [blocksOfFiles_length]; exact hn)

/-- C97. Sequential iteration with `elements()` delivers the elements of the first file only and then ends as at the end of a file, whatever
files follow. -/
theorem C97_elements_first_only (z : Zlib) (inflates : Format.Inflates) (hz : ∀ c d, inflates c d → z.stream c = d)
    (info : FileInfo) (blocks : List (List Element)) (more : List (FileInfo × List (List Element))) (bytes : Bytes)
    (h : Format.IsFiles inflates ((info, blocks) :: more) bytes) (es : List Element) (r : End) :
    ReadsElements z bytes es r ↔ es = blocks.flatten ∧ r = .done := by
  rw [reads_iff (files_blocks hz h _ (Nat.lt_succ_self _)) (by simp)]
  have hs : ∀ (bs : List (List Element)), stream (bs.map FileBlock.data ++ blocksOfFiles more) .done = (bs.flatten, .done) := by
    intro bs
    induction bs with
    | nil =>
      obtain _ | ⟨f, more⟩ := more
      · rfl
      · rfl
    | cons b bs ih => simp [stream, ih]
  have e : blocksOfFiles ((info, blocks) :: more) = .header info :: (blocks.map .data ++ blocksOfFiles more) := by simp [blocksOfFiles]
  rw [e]
  simp only [streamAll, hs, Prod.mk.injEq]

/-- C97. They are opened with the information of the first file if the features it requires are supported, and refused if not; what the others
require does not matter. -/
theorem C97_open (z : Zlib) (inflates : Format.Inflates) (hz : ∀ c d, inflates c d → z.stream c = d)
    (info : FileInfo) (blocks : List (List Element)) (more : List (FileInfo × List (List Element))) (bytes : Bytes)
    (h : Format.IsFiles inflates ((info, blocks) :: more) bytes) :
    ((∀ f ∈ info.required_features, Supported f) → openReader z bytes = .ok info) ∧
    ((∃ f ∈ info.required_features, ¬ Supported f) → openReader z bytes = .err) := by
  obtain ⟨_, rfl, _ | @⟨_, b, _, parts, ⟨head, frames, rfl, h1, _⟩, _⟩⟩ := h
  rw [List.flatten_cons, List.append_assoc]
  exact C17_published z inflates hz info head _ h1

/-- C97. `parallel_for_each` calls the function with each element of all the files once, and with one Sentinel for each data block of all the
files, for every number of threads and schedule. -/
theorem C97_parallel_all (z : Zlib) (inflates : Format.Inflates) (hz : ∀ c d, inflates c d → z.stream c = d)
    (files : List (FileInfo × List (List Element))) (bytes : Bytes) (h : Format.IsFiles inflates files bytes)
    (T : Nat) (σ : Type) (act : Fin T → Element → σ → σ) (s : σ) (p : Pool T Element σ) (hp : ParallelForEach z bytes act s p) :
    (p.log.map (·.2.2)).Perm (Format.allElements files ++ List.replicate (Format.dataBlocks files) .sentinel) := by
  have := (C19_parallel_each_once z bytes _ (files_has hz h) T σ act s p hp).1
  rwa [blocksOfFiles_elements, blocksOfFiles_data] at this

/-- Such a run exists. -/
theorem C97_parallel_runs (z : Zlib) (inflates : Format.Inflates) (hz : ∀ c d, inflates c d → z.stream c = d)
    (files : List (FileInfo × List (List Element))) (bytes : Bytes) (h : Format.IsFiles inflates files bytes)
    (T : Nat) (hT : 0 < T) (σ : Type) (act : Fin T → Element → σ → σ) (s : σ) : ∃ p, ParallelForEach z bytes act s p :=
  forEach_exists (files_has hz h) hT act s

/-- C97. `count_objects` gives the numbers of nodes, ways and relations of all the files together. -/
theorem C97_counts_all (z : Zlib) (inflates : Format.Inflates) (hz : ∀ c d, inflates c d → z.stream c = d)
    (files : List (FileInfo × List (List Element))) (bytes : Bytes) (h : Format.IsFiles inflates files bytes)
    (hlen : (Format.allElements files).length < 2 ^ 63) (T : Nat) (p : Pool T Element (UInt64 × UInt64 × UInt64))
    (hp : ParallelForEach z bytes countAct (0, 0, 0) p) :
    (countResult p.shared).1.toInt = (Format.allElements files).countP (·.isNode) ∧
    (countResult p.shared).2.1.toInt = (Format.allElements files).countP (·.isWay) ∧
    (countResult p.shared).2.2.toInt = (Format.allElements files).countP (·.isRelation) := by
  have := C20_counts_exact z bytes _ (files_has hz h) T p hp
  rw [blocksOfFiles_elements] at this
  exact this hlen

/-- C97. The computed bounding box is the smallest that contains the nodes of all the files, if in each block nodes come first. -/
theorem C97_box_all (z : Zlib) (inflates : Format.Inflates) (hz : ∀ c d, inflates c d → z.stream c = d)
    (files : List (FileInfo × List (List Element))) (bytes : Bytes) (h : Format.IsFiles inflates files bytes)
    (hn : ∀ f ∈ files, ∀ b ∈ f.2, NodesFirst b) (hc : coordinates (Format.allElements files) ≠ [])
    (T : Nat) (p : Pool T (Option BoundingBox) (Option BoundingBox)) (hp : BoxCalculation z bytes p) :
    ∃ b, boxResult p.shared = .ok b ∧ Tight b (coordinates (Format.allElements files)) := by
  have := (C21_box_is_tight z bytes _ (files_has hz h) (by
    intro b hb
    simp only [blocksOfFiles, List.mem_flatMap, List.mem_cons, List.mem_map] at hb
    obtain ⟨f, hf, rfl | ⟨a, ha, rfl⟩⟩ := hb
    · exact ⟨[], [], rfl, by simp, by simp⟩
    · exact hn f hf a ha) T p hp).1
  rw [blocksOfFiles_elements] at this
  exact this hc

/-- C97. Files whose headers are left out but for the first are one file with the blocks of all of them (so that everything said about files holds,
for example that all elements are delivered in this order). -/
theorem C97_headers_left_out (z : Zlib) (inflates : Format.Inflates) (hz : ∀ c d, inflates c d → z.stream c = d)
    (info info' : FileInfo) (blocks blocks' : List (List Element)) (bytes head rest : Bytes) (h : Format.IsFile inflates info blocks bytes)
    (hh : Format.IsHeaderFrame inflates info' head) (frames : List Bytes) (hr : rest = frames.flatten)
    (h' : List.Forall₂ (Format.IsDataFrame inflates) blocks' frames) :
    Format.IsFile inflates info' blocks' (head ++ rest) ∧ Format.IsFile inflates info (blocks ++ blocks') (bytes ++ rest) ∧
      ∀ es r, ReadsElements z (bytes ++ rest) es r ↔ es = blocks.flatten ++ blocks'.flatten ∧ r = .done := by
  have hf : Format.IsFile inflates info (blocks ++ blocks') (bytes ++ rest) := by
    obtain ⟨hd, fr, rfl, h1, h2⟩ := h
    exact ⟨hd, fr ++ frames, by rw [hr, List.flatten_append, List.append_assoc], h1, List.rel_append h2 h'⟩
  refine ⟨⟨head, frames, by rw [hr], hh, h'⟩, hf, fun es r => ?_⟩
  have := C97_elements_first_only z inflates hz info (blocks ++ blocks') [] (bytes ++ rest)
    ⟨[bytes ++ rest], by simp, .cons hf .nil⟩ es r
  rwa [List.flatten_append] at this

/-- The example of `C58` twice. -/
theorem exTwice_is : Format.IsFiles (fun c d => exZ.stream c = d)
    [(exForeignInfo, [[.way exForeignFileWay]]), (exForeignInfo, [[.way exForeignFileWay]])] (exForeignFile ++ exForeignFile) :=
  ⟨[exForeignFile, exForeignFile], by simp, .cons exForeignFile_is (.cons exForeignFile_is .nil)⟩

/-- One way is delivered, two are counted. -/
example : ReadsElements exZ (exForeignFile ++ exForeignFile) [.way exForeignFileWay] .done :=
  (C97_elements_first_only exZ _ (fun _ _ h => h) _ _ _ _ exTwice_is _ _).2 ⟨rfl, rfl⟩

example : ∃ p : Pool 3 Element (UInt64 × UInt64 × UInt64), ParallelForEach exZ (exForeignFile ++ exForeignFile) countAct (0, 0, 0) p ∧
    (countResult p.shared).2.1.toInt = 2 := by
  obtain ⟨p, hp⟩ := C97_parallel_runs exZ _ (fun _ _ h => h) _ _ exTwice_is 3 (by decide) _ countAct (0, 0, 0)
  exact ⟨p, hp, (C97_counts_all exZ _ (fun _ _ h => h) _ _ exTwice_is (by decide) 3 p hp).2.1⟩

end OsmIo
