import Verif.Lemmas.Size
import Verif.Props.File
import Verif.Props.Parallel
import Verif.Props.ParallelWriter
/-!
# Sizes of blocks (C83)

The theorems on files suppose that blocks fit the format (`Fits`: below 2 GiB, since sizes are 32 bit numbers). Here that is
derived from what is in the elements.
-/
namespace OsmIo
open Wire Spec

/-- C83. The bytes of a data block are bounded by the weight of its elements. -/
theorem C83_block (es : List Element) (h : weightOf es < 2 ^ 63) : (serializeData es).length ≤ weightOf es + 528 :=
  Size.serializeData_le es (by omega)

/-- C83. And the bytes of a header block by that of the metadata. -/
theorem C83_header (i : FileInfo) (h : infoWeight i < 2 ^ 63) : (serializeHeader i).length ≤ infoWeight i + 256 :=
  Size.header_le i (by omega)

/-- C83. Elements of a weight of at most 2000000000 fit in a block, compressed or not. -/
theorem C83_fits (z : Zlib) (hm : Modest z) (c : CompressionType) (es : List Element) (h : weightOf es ≤ 2000000000) : Fits z c es := by
  have h1 := C83_block es (by omega)
  have h2 := hm true (serializeData es)
  refine ⟨by omega, ?_⟩
  have h3 := Size.blob_le z c true (serializeData es) 2100000000 (by omega) (by omega) (by norm_num)
  simp only [FileBlock.serialize, FileBlock.payload]
  omega

/-- C83. Metadata of a weight of at most 2000000000 fits in a header block. -/
theorem C83_header_fits (z : Zlib) (hm : Modest z) (c : CompressionType) (i : FileInfo) (h : infoWeight i ≤ 2000000000) : HeaderFits z c i := by
  have h1 := C83_header i (by omega)
  have h2 := hm false (serializeHeader i)
  refine ⟨by omega, ?_⟩
  have h3 := Size.blob_le z c false (serializeHeader i) 2100000000 (by omega) (by omega) (by norm_num)
  simp only [FileBlock.serialize, FileBlock.payload]
  omega

theorem weightOf_sublist {a b : List Element} (h : a.Sublist b) : weightOf a ≤ weightOf b := by
  induction h with
  | slnil => exact le_rfl
  | cons x _ ih => simp only [weightOf, List.map_cons, List.sum_cons] at ih ⊢; omega
  | cons_cons x _ ih => simp only [weightOf, List.map_cons, List.sum_cons] at ih ⊢; omega

theorem weightOf_perm {a b : List Element} (h : a.Perm b) : weightOf a = weightOf b := (h.map weight).sum_eq

theorem weightOf_le {es : List Element} {W : Nat} (h : ∀ e ∈ es, weight e ≤ W) : weightOf es ≤ es.length * W := by
  induction es with
  | nil => simp [weightOf]
  | cons e es ih =>
    have h1 := h e (by simp)
    have h2 := ih fun f hf => h f (by simp [hf])
    simp only [weightOf, List.map_cons, List.sum_cons, List.length_cons] at h2 ⊢
    rw [Nat.add_mul]
    omega

/-- C83. Blocks of at most `F` elements fit if no element weighs more than 2000000000 / F: 250000 for the 8000 elements of a block of the sequential writer. -/
theorem C83_each (z : Zlib) (hm : Modest z) (c : CompressionType) (es : List Element) (F W : Nat) (hl : es.length ≤ F) (hw : ∀ e ∈ es, weight e ≤ W)
    (h : F * W ≤ 2000000000) : Fits z c es :=
  C83_fits z hm c es ((weightOf_le hw).trans ((Nat.mul_le_mul_right W hl).trans h))

/-- C83. All blocks a writer can form of a stream fit if no element weighs more than 250000 (about 250 kB of texts, 4000 tags or 24000 way
nodes): this is what the properties about whole files ask for. -/
theorem C83_runs (z : Zlib) (hm : Modest z) (c : CompressionType) (es : List Element) (hw : ∀ e ∈ es, weight e ≤ 250000) : RunsFit z c es :=
  fun run hr hl => C83_each z hm c run 8000 250000 hl (fun e he => hw e (hr.subset he)) (by norm_num)

theorem realOnes_sublist (es : List Element) : (realOnes es).Sublist es := List.filter_sublist

/-- C83, C09. A file written from elements of which no 8000 together are too heavy reads back. -/
theorem C83_roundtrip (z : Zlib) (hz : z.Lossless) (hm : Modest z) (c : CompressionType) (info : FileInfo) (es : List Element) (w : Writer)
    (hn : ¬ EmptyInfo info) (hi : infoWeight info ≤ 2000000000)
    (hwt : ∀ run, run.Sublist es → run.length ≤ 8000 → weightOf run ≤ 2000000000) (hx : ∀ e ∈ es, Exact e)
    (hw : ((Writer.fromFileInfo info c).writeHeader z).writeAll z es = .ok w) :
    ∀ es' r, ReadsElements z (w.close z).file es' r ↔ es' = realOnes es ∧ r = .done :=
  C09_file_roundtrip z hz c info es w hn (C83_header_fits z hm c info hi)
    (fun run hr hl => C83_fits z hm c run (hwt run (hr.sublist.trans (realOnes_sublist es)) hl)) hx hw

/-- C83, C34. The same for the parallel writer, with its own block size `F`. -/
theorem C83_parallel (S : StdSort) (z : Zlib) (hz : z.Lossless) (hm : Modest z) (c : CompressionType) (info : FileInfo)
    (B F : Nat) (hF : 0 < F) (calls : List WriteCall) (hr : NoSentinel (submitted calls)) (hs : Sorted (submitted calls))
    (hx : ∀ e ∈ submitted calls, Exact e) (hn : ¬ EmptyInfo info) (hi : infoWeight info ≤ 2000000000)
    (hwt : ∀ run, run.Sublist (submitted calls) → run.length ≤ F → weightOf run ≤ 2000000000) :
    ∃ blocks, ParallelBlocks S B F calls blocks ∧ (∀ blocks', ParallelBlocks S B F calls blocks' → blocks' = blocks) ∧
      ∀ threads p, Pipeline.Steps z c threads (.init z info c blocks) p → p.Drained →
        ∀ es' r, ReadsElements z p.writer.file es' r ↔ es' = submitted calls ∧ r = .done :=
  C34_parallel_write_sequential_read S z hz c info B F hF calls hr hs hx hn (C83_header_fits z hm c info hi)
    fun run h hl => C83_fits z hm c run (hwt run h.sublist hl)

/-- C83. The published format asks for blocks of less than 32 MiB; elements that weigh less, by 528, stay below. -/
theorem C83_published (es : List Element) (h : weightOf es + 528 < 32 * 1024 * 1024) : (serializeData es).length < 32 * 1024 * 1024 := by
  have := C83_block es (by omega)
  omega

theorem long_text (N : Nat) : ∃ s : String, N ≤ s.utf8ByteSize := by
  induction N with
  | zero => exact ⟨"", Nat.zero_le _⟩
  | succ N ih =>
    obtain ⟨s, hs⟩ := ih
    refine ⟨s ++ "a", ?_⟩
    rw [String.utf8ByteSize_append]
    have : "a".utf8ByteSize = 1 := by decide
    omega

/-- C83. No limit is enforced: for every size there is a node that the writer takes and whose block is larger. -/
theorem C83_no_limit (N : Nat) : ∃ n : Node, N ≤ (serializeData [.node n]).length ∧
    ∀ z c info, ∃ w, ((Writer.fromFileInfo info c).writeHeader z).writeAll z [.node n] = .ok w := by
  obtain ⟨s, hs⟩ := long_text N
  refine ⟨⟨0, 0, ⟨0, 0⟩, 0, 0, 0, s, true, []⟩, ?_, fun z c info => ?_⟩
  · have h1 : (toPrimitiveBlock [.node ⟨0, 0, ⟨0, 0⟩, 0, 0, 0, s, true, []⟩]).stringtable = { s := [strBytes "", strBytes s] } := rfl
    have h2 : (strBytes s).length ≤ (encFields (Pb.StringTable.fields { s := [strBytes "", strBytes s] })).length :=
      (encField_len_le 1 (strBytes s)).trans (encField_mem_le (by simp [Pb.StringTable.fields, repF]))
    have h3 : (encFields (Pb.StringTable.fields { s := [strBytes "", strBytes s] })).length ≤ (serializeData [.node ⟨0, 0, ⟨0, 0⟩, 0, 0, 0, s, true, []⟩]).length := by
      refine (encField_len_le 1 _).trans (encField_mem_le (fs := (toPrimitiveBlock [.node ⟨0, 0, ⟨0, 0⟩, 0, 0, 0, s, true, []⟩]).fields) ?_)
      unfold Pb.PrimitiveBlock.fields
      rw [h1]
      simp
    rw [Size.strBytes_length] at h2
    omega
  · refine (C13_writer_accepts_iff z c info _).1.2 ⟨[.node ⟨0, 0, ⟨0, 0⟩, 0, 0, 0, s, true, []⟩], [], [], ?_, ?_, by simp, by simp, by simp⟩
    · simp [realOnes, Element.isSentinel]
    · simp

/-! ## Sample data -/

theorem exZ_modest : Modest exZ := by
  intro level b
  simp [exZ]
  omega

/-- The hypotheses of `C83_roundtrip` are met by the sample stream. -/
example : weightOf exStream ≤ 2000000000 ∧ infoWeight exInfo ≤ 2000000000 ∧
    (∀ run, run.Sublist exStream → run.length ≤ 8000 → weightOf run ≤ 2000000000) ∧ Fits exZ .zlib exStream := by
  have h : weightOf exStream ≤ 2000000000 := by decide +kernel
  exact ⟨h, by decide +kernel, fun run hr _ => (weightOf_sublist hr).trans h, C83_fits exZ exZ_modest .zlib _ h⟩

end OsmIo
