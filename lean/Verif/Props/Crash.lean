import Verif.Props.ParallelWriter
/-! # C59, C60: what a crash leaves behind -/
set_option linter.unusedSimpArgs false
set_option linter.flexible false
namespace OsmIo
open Wire Spec

/-! ## Appending to a written file -/

theorem blocks_reads {z : Zlib} (hz : z.Lossless) {c : CompressionType} {info : FileInfo} {blocks : List (List Element)}
    (hn : ¬ EmptyInfo info) (hh : HeaderFits z c info) (hg : ∀ b ∈ blocks, Homogeneous b) (hfit : ∀ b ∈ blocks, Fits z c b) :
    ReadsElements z (blockBytes z c (.header info :: blocks.map .data)) (blocks.flatten.map Element.quant) .done := by
  have ok : ∀ b ∈ FileBlock.header info :: blocks.map .data, BlockOk z c b := by
    intro b hb
    simp at hb
    rcases hb with rfl | ⟨b, hb, rfl⟩
    · exact headerOk hn hh
    · exact ⟨serializeData_ne_nil b, (hfit b hb).1, (hfit b hb).2⟩
  have ht := takeBlocks_written hz _ ok (file := blockBytes z c (.header info :: blocks.map .data)) [] (by simp) {} (by simp)
    (blocks.length + 2) (by simp)
  rw [reads_iff ht (by simp)]
  simp only [List.map_cons, streamAll]
  rw [stream_data blocks hg]

/-- Reading is monotone: bytes appended to a file, whatever they are, only add elements at the end. -/
theorem reads_append (z : Zlib) (file more : Bytes) (es es' : List Element) (r r' : End)
    (h : ReadsElements z file es r) (h' : ReadsElements z (file ++ more) es' r') : es <+: es' := by
  obtain ⟨es₀, r₀, h₀, hp, _⟩ := C10_truncated_prefix z (file ++ more) file.length es' r' h'
  rw [List.take_left] at h₀
  obtain ⟨rfl, _⟩ := reads_det h h₀
  exact hp

/-! ## C59: the sequential writer -/

/-- C59. The writer only ever appends to its file. -/
theorem C59_append_only (z : Zlib) (w : Writer) :
    w.file <+: (w.writeHeader z).file ∧ (∀ es, w.file <+: (w.writeElements z es).file) ∧ w.file <+: (w.close z).file ∧
    (∀ es w', w.writeAll z es = .ok w' → w.file <+: w'.file) := by
  have h2 : ∀ (w : Writer) es, w.file <+: (w.writeElements z es).file := fun w es => by rw [writeElements_file]; exact ⟨_, rfl⟩
  refine ⟨⟨_, rfl⟩, h2 w, ?_, ?_⟩
  · unfold Writer.close
    simp only
    split
    · exact List.prefix_refl _
    · exact h2 { w with acc := _ } _
  · intro es
    induction es generalizing w with
    | nil => intro w' h; simp [Writer.writeAll] at h; subst h; exact List.prefix_refl _
    | cons e es ih =>
      intro w' h
      rw [Writer.writeAll, Out.bind_eq_ok] at h
      obtain ⟨w₁, h₁, h⟩ := h
      refine List.IsPrefix.trans ?_ (ih w₁ w' h)
      rw [Writer.writeElement, Out.bind_eq_ok] at h₁
      obtain ⟨⟨block, acc⟩, _, h₁⟩ := h₁
      cases block with
      | none => simp at h₁; subst h₁; exact List.prefix_refl _
      | some es => simp only at h₁; obtain rfl := Out.ok.inj h₁; exact h2 { w with acc } es

/-- C59. After the elements `es` have been written, without `close`, and whatever bytes follow in the file (a block written in part, garbage,
or the rest of the data): reading delivers all of `es` except at most the last 7999, first and in order. -/
theorem C59_survives (z : Zlib) (hz : z.Lossless) (c : CompressionType) (info : FileInfo) (es : List Element) (w : Writer)
    (hn : ¬ EmptyInfo info) (hh : HeaderFits z c info) (hfit : RunsFit z c (realOnes es)) (hx : ∀ e ∈ es, Exact e)
    (hw : ((Writer.fromFileInfo info c).writeHeader z).writeAll z es = .ok w) (more : Bytes) (es' : List Element) (r : End)
    (hr : ReadsElements z (w.file ++ more) es' r) :
    ∃ n, (realOnes es).length < n + 8000 ∧ (realOnes es).take n <+: es' := by
  obtain ⟨blocks, ok⟩ := writeAll_wrote es (w := (Writer.fromFileInfo info c).writeHeader z) accInv_new hw
  have hc : blocks.flatten ++ w.acc.elements = realOnes es := by simpa [Writer.writeHeader, Writer.writeFileBlock, Writer.writeBlob, Writer.fromFileInfo, Accumulator.new] using ok.content
  have hfile : w.file = blockBytes z c (.header info :: blocks.map .data) := by
    rw [ok.file]
    simp [Writer.writeHeader, Writer.writeFileBlock, Writer.writeBlob, Writer.fromFileInfo, blockBytes]
  have hinf : ∀ b ∈ blocks, b <:+: realOnes es := fun b hb =>
    (infix_of_mem_flatten hb).trans ⟨[], w.acc.elements, by simpa using hc⟩
  have h1 := blocks_reads hz hn hh (fun b hb => (ok.good b hb).1) (fun b hb => hfit b (hinf b hb) (ok.good b hb).2)
  rw [map_quant_exact (es := blocks.flatten) fun e he => by
    have : e ∈ realOnes es := by rw [← hc]; exact List.mem_append_left _ he
    exact hx e (List.mem_of_mem_filter this)] at h1
  rw [hfile] at hr
  refine ⟨blocks.flatten.length, ?_, ?_⟩
  · have := ok.inv.len
    rw [← hc, List.length_append]; omega
  · rw [← hc, List.take_left]
    exact reads_append z _ more _ _ _ _ h1 hr

example : ∃ w, ((Writer.fromFileInfo exInfo .zlib).writeHeader exZ).writeAll exZ exStream = .ok w ∧
    ∃ es' r, ReadsElements exZ (w.file ++ [0, 0, 0, 9, 1]) es' r := by
  obtain ⟨w, hw⟩ := (C13_writer_accepts_iff exZ .zlib exInfo exStream).1.mpr exStream_layered
  obtain ⟨es', r, h, _⟩ := C32_sequential_terminates exZ (w.file ++ [0, 0, 0, 9, 1])
  exact ⟨w, hw, es', r, h⟩

/-! ## C60: the parallel writer -/

/-- C60. If the process stops at any moment while the parallel writer encodes and writes `blocks`, and then any part of the file is lost at its
end, iteration over what is left delivers a beginning of the elements of the blocks in order (up to rounding), then ends or panics. -/
theorem C60_crash_prefix (z : Zlib) (hz : z.Lossless) (c : CompressionType) (info : FileInfo) (blocks : List (List Element)) (threads : Nat)
    (hn : ¬ EmptyInfo info) (hh : HeaderFits z c info) (hg : ∀ b ∈ blocks, Homogeneous b) (hfit : ∀ b ∈ blocks, Fits z c b)
    (hx : ∀ b ∈ blocks, ∀ e ∈ b, Exact e)
    (p : Pipeline) (hs : Pipeline.Steps z c threads (.init z info c blocks) p) (cut : Nat) :
    ∃ es' r, ReadsElements z (p.writer.file.take cut) es' r ∧ es' <+: blocks.flatten ∧ (r = .done ∨ r = .panic) := by
  obtain ⟨⟨k, hk, hf⟩, _⟩ := C24_blocks_in_order z info c threads blocks p hs
  have h := blocks_reads (z := z) hz (blocks := blocks.take k) hn hh (fun b hb => hg b (List.mem_of_mem_take hb)) (fun b hb => hfit b (List.mem_of_mem_take hb))
  rw [map_quant_exact (es := (blocks.take k).flatten) (by
    intro e he
    obtain ⟨b, hb, he⟩ := List.mem_flatten.1 he
    exact hx b (List.mem_of_mem_take hb) e he), ← hf] at h
  obtain ⟨es', r, h1, h2, h3⟩ := C10_truncated_prefix z p.writer.file cut _ _ h
  refine ⟨es', r, h1, h2.trans ?_, h3⟩
  conv_rhs => rw [← List.take_append_drop k blocks]
  rw [List.flatten_append]
  exact ⟨_, rfl⟩

/-- C60. Blocks once written stay: whatever is in the file after them, reading delivers their elements first. -/
theorem C60_survives (z : Zlib) (hz : z.Lossless) (c : CompressionType) (info : FileInfo) (blocks : List (List Element)) (threads : Nat)
    (hn : ¬ EmptyInfo info) (hh : HeaderFits z c info) (hg : ∀ b ∈ blocks, Homogeneous b) (hfit : ∀ b ∈ blocks, Fits z c b)
    (hx : ∀ b ∈ blocks, ∀ e ∈ b, Exact e)
    (p : Pipeline) (hs : Pipeline.Steps z c threads (.init z info c blocks) p) (more : Bytes) (es' : List Element) (r : End)
    (hr : ReadsElements z (p.writer.file ++ more) es' r) :
    ∃ k ≤ blocks.length, (blocks.take k).flatten <+: es' ∧ p.writer.file = blockBytes z c (.header info :: (blocks.take k).map .data) := by
  obtain ⟨⟨k, hk, hf⟩, _⟩ := C24_blocks_in_order z info c threads blocks p hs
  have h := blocks_reads (z := z) hz (blocks := blocks.take k) hn hh (fun b hb => hg b (List.mem_of_mem_take hb)) (fun b hb => hfit b (List.mem_of_mem_take hb))
  rw [map_quant_exact (es := (blocks.take k).flatten) (by
    intro e he
    obtain ⟨b, hb, he⟩ := List.mem_flatten.1 he
    exact hx b (List.mem_of_mem_take hb) e he), ← hf] at h
  exact ⟨k, hk, reads_append z _ more _ _ _ _ h hr, hf⟩

/-- C60. The file only grows: what is in it at one moment is the beginning of what is in it at any later one. -/
theorem C60_append_only (z : Zlib) (c : CompressionType) (threads : Nat) (p q : Pipeline) (h : Pipeline.Steps z c threads p q) :
    p.writer.file <+: q.writer.file := by
  have ready : ∀ fuel m i (w : Writer), w.file <+: (writeReady fuel m i w).2.2.file := by
    intro fuel
    induction fuel with
    | zero => intro m i w; exact List.prefix_refl _
    | succ fuel ih =>
      intro m i w
      simp only [writeReady]
      split
      · exact List.prefix_refl _
      · rename_i b m' _
        exact List.IsPrefix.trans (l₂ := (w.writeBlob b.1 b.2).file) ⟨_, rfl⟩ (ih _ _ _)
  induction h with
  | refl => exact List.prefix_refl _
  | tail _ hs ih =>
    refine ih.trans ?_
    cases hs with
    | submit => exact List.prefix_refl _
    | take => exact List.prefix_refl _
    | encode => exact List.prefix_refl _
    | write => exact ready _ _ _ _

/-- C60. The same in terms of calls: a sorted stream, handed to the parallel writer in any calls. Stop it at any moment, cut the file anywhere: what
can be read is a beginning of the stream. -/
theorem C60_crash_sorted (S : StdSort) (z : Zlib) (hz : z.Lossless) (c : CompressionType) (info : FileInfo)
    (B F : Nat) (hF : 0 < F) (calls : List WriteCall) (hr : NoSentinel (submitted calls)) (hs : Sorted (submitted calls))
    (hx : ∀ e ∈ submitted calls, Exact e) (hn : ¬ EmptyInfo info) (hh : HeaderFits z c info)
    (hfit : ∀ run, run <:+: submitted calls → run.length ≤ F → Fits z c run)
    (blocks : List (List Element)) (hb : ParallelBlocks S B F calls blocks) (threads : Nat)
    (p : Pipeline) (hp : Pipeline.Steps z c threads (.init z info c blocks) p) (cut : Nat) :
    ∃ es' r, ReadsElements z (p.writer.file.take cut) es' r ∧ es' <+: submitted calls ∧ (r = .done ∨ r = .panic) := by
  have hflat := blocks_sorted hr hs hb
  have hshape := C35_block_shape S B F hF calls blocks hb
  have hmem : ∀ b ∈ blocks, ∀ e ∈ b, e ∈ submitted calls := fun b hb e he => by
    rw [← hflat]; exact List.mem_flatten.mpr ⟨b, hb, he⟩
  rw [← hflat]
  exact C60_crash_prefix z hz c info blocks threads hn hh
    (fun b hb => homogeneous_of_oneType (hshape b hb).2.2 fun e he => hr e (hmem b hb e he))
    (fun b hb => hfit b (hflat ▸ infix_of_mem_flatten hb) (hshape b hb).2.1) (fun b hb e he => hx e (hmem b hb e he)) p hp cut

/-- The hypotheses on blocks hold for two blocks; the writer is stopped after the second block has been encoded before the first. -/
example : (∀ b ∈ [[Element.node exNode, .node { exNode with id := 8 }], [.way exWay]], Homogeneous b ∧ Fits exZ .zlib b ∧ ∀ e ∈ b, Exact e) ∧
    ∃ p, Pipeline.Steps exZ .zlib 4 (.init exZ exInfo .zlib [[.node exNode, .node { exNode with id := 8 }], [.way exWay]]) p ∧ p.writeQueue ≠ [] := by
  constructor
  · intro b hb
    simp only [List.mem_cons, List.not_mem_nil, or_false] at hb
    have he : ∀ e ∈ exStream, Exact e := exStream_exact
    rcases hb with rfl | rfl
    · exact ⟨.inl (by simp), exStream_fits _ ⟨[], [.way exWay, .relation exRelation], rfl⟩ (by decide), fun e h => he e (by simp [exStream] at h ⊢; tauto)⟩
    · exact ⟨.inr (.inl (by simp)), exStream_fits _ ⟨[.node exNode, .node { exNode with id := 8 }], [.relation exRelation], rfl⟩ (by decide),
        fun e h => he e (by simp [exStream] at h ⊢; tauto)⟩
  · exact ⟨_, .tail (.tail (.tail (.tail (.tail .refl (.submit _ _ _ rfl)) (.submit _ _ _ rfl)) (.take _ [] _ _ rfl (by simp [Pipeline.init])))
      (.take _ [] _ _ rfl (by simp [Pipeline.init]))) (.encode _ [(1, _)] [] 2 _ rfl), by simp⟩

end OsmIo
