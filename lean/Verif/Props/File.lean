import Verif.Lemmas.Reader
import Verif.Lemmas.Writer
import Verif.Props.Block
/-!
# Properties of files: C08-C18, C31-C33, C39

The crate reads and writes files; a file is a byte list here. `takeBlobs`, `ReadsElements`, `openReader` model
`Reader::blobs`, a loop over `Reader::elements`, and `Reader::new`; `Writer.*` models the sequential writer.
-/
set_option linter.unusedSimpArgs false
set_option linter.flexible false
namespace OsmIo
open Wire Spec

/-! ## Sample data -/

/-- A lossless "compressor" for the examples. -/
def exZ : Zlib := ⟨fun _ b => 7 :: b, fun b => b.drop 1⟩
theorem exZ_lossless : exZ.Lossless := fun _ _ => rfl

/-- A header with a box. -/
def exInfo : FileInfo :=
  { FileInfo.default with bounding_box := some ⟨rnd (-4819 / 1000), rnd (52 + 1 / 3), rnd (201 / 100), 53⟩
                          source := some "src", osmosis_replication_sequence_number := some (-5) }

/-- A stream with all kinds of elements and sentinels. -/
def exStream : List Element :=
  [.node exNode, .sentinel, .node { exNode with id := 8 }, .way exWay, .sentinel, .relation exRelation]

/-! ## C08: framing -/

/-- C08. The blobs of a file made of frames are found at their places, in order, numbered from 0, and the
iteration then ends; the bytes at the reported place are the blob. -/
theorem C08_framing (frames : List (Pb.BlobHeader × Bytes)) (ok : ∀ f ∈ frames, FrameOk f.1 f.2)
    (fuel : Nat) (hfuel : frames.length < fuel) :
    ∃ ds, takeBlobs (frameBytes frames) fuel {} = (ds, .done) ∧ ds.length = frames.length ∧
      ∀ k f, frames[k]? = some f →
        ∃ start, ds[k]? = some ⟨k, start, f.2.length, f.1.type⟩ ∧
          start = (frameBytes (frames.take k)).length + 4 + f.1.encode.length ∧
          ((frameBytes frames).drop start).take f.2.length = f.2 := by
  refine ⟨_, takeBlobs_frames (frameBytes frames) frames ok [] (by simp) {} (by simp) fuel hfuel, descs_length _ _ _, ?_⟩
  intro k f hk
  refine ⟨_, ?_, rfl, ?_⟩
  · have := descs_get frames 0 0 k f hk
    simpa using this
  · have hsplit : frames = frames.take k ++ f :: frames.drop (k + 1) := by
      have hlt : k < frames.length := by
        by_contra hc
        rw [List.getElem?_eq_none (by omega)] at hk; simp at hk
      rw [List.getElem?_eq_getElem hlt, Option.some.injEq] at hk
      rw [← hk, List.getElem_cons_drop, List.take_append_drop]
    have : frameBytes frames = (frameBytes (frames.take k) ++ beBytes (Int32.ofNat f.1.encode.length) ++ f.1.encode) ++
        (f.2 ++ frameBytes (frames.drop (k + 1))) := by
      conv_lhs => rw [hsplit]
      simp [frameBytes, blobBytes]
    rw [this, List.drop_left' (by simp [beBytes_length]; omega)]
    simp

example : ∀ f ∈ [((⟨"OSMHeader", none, 3⟩ : Pb.BlobHeader), ([1, 2, 3] : Bytes)), (⟨"OSMData", some [9], 0⟩, [])],
    FrameOk f.1 f.2 := by
  intro f hf
  simp at hf
  rcases hf with rfl | rfl
  · exact ⟨by decide +kernel, by decide, rfl⟩
  · exact ⟨by decide +kernel, by decide, rfl⟩

/-! ## C11-C14, C33: the sequential writer -/

/-- C11, C12. Whatever is written between `write_header` and `close` ends up in the file as data blocks whose
concatenation is the sequence of non-sentinel elements; each block holds elements of one kind, at most 8000. -/
theorem C11_C12_writer_blocks (z : Zlib) (c : CompressionType) (info : FileInfo) (es : List Element) (w : Writer)
    (hw : ((Writer.fromFileInfo info c).writeHeader z).writeAll z es = .ok w) :
    ∃ blocks : List (List Element),
      (w.close z).file = blockBytes z c (.header info :: blocks.map .data) ∧
      blocks.flatten = realOnes es ∧
      ∀ b ∈ blocks, Homogeneous b ∧ b.length ≤ 8000 := by
  obtain ⟨bs, hf, hc, hg, _⟩ := close_wrote es accInv_new rfl hw
  refine ⟨bs, ?_, hc, hg⟩
  rw [hf]
  simp [Writer.writeHeader, Writer.writeFileBlock, Writer.writeBlob, Writer.fromFileInfo, blockBytes]

/-- C13. The sequential writer accepts exactly the streams of nodes, then ways, then relations in which relations
are preceded by at least one way (sentinels ignored); any other stream panics. -/
theorem C13_writer_accepts_iff (z : Zlib) (c : CompressionType) (info : FileInfo) (es : List Element) :
    ((∃ w, ((Writer.fromFileInfo info c).writeHeader z).writeAll z es = .ok w) ↔ Layered (realOnes es)) ∧
    (¬ Layered (realOnes es) → ((Writer.fromFileInfo info c).writeHeader z).writeAll z es = .panic) := by
  have := writeAll_accepts (z := z) es ((Writer.fromFileInfo info c).writeHeader z)
  rw [show ((Writer.fromFileInfo info c).writeHeader z).acc.state = .nodes from rfl] at this
  have ha := accepts_nodes es
  rcases this with ⟨h1, h2⟩ | ⟨h1, h2⟩
  · exact ⟨⟨fun _ => ha.mp h1, fun _ => h2⟩, fun hn => absurd (ha.mp h1) hn⟩
  · have hn : ¬ Layered (realOnes es) := fun h => by rw [ha.mpr h] at h1; simp at h1
    exact ⟨⟨fun ⟨w, hw⟩ => by rw [h2] at hw; simp at hw, fun h => absurd h hn⟩, fun _ => h2⟩

/-- C13. A sorted stream of nodes followed by relations is refused. -/
theorem C13_nodes_then_relations_refused (z : Zlib) (c : CompressionType) (info : FileInfo) (n : Node) (r : Relation) :
    ((Writer.fromFileInfo info c).writeHeader z).writeAll z [.node n, .relation r] = .panic :=
  (writeAll_accepts (z := z) [.node n, .relation r] ((Writer.fromFileInfo info c).writeHeader z)).elim
    (fun h => by have := h.1; simp [accepts, Writer.fromFileInfo, Writer.writeHeader, Writer.writeFileBlock, Writer.writeBlob,
      Accumulator.new] at this) (·.2)

theorem exStream_layered : Layered (realOnes exStream) :=
  ⟨[.node exNode, .node { exNode with id := 8 }], [.way exWay], [.relation exRelation], rfl, by simp, by simp, by simp, by simp⟩

example : ∃ w, ((Writer.fromFileInfo exInfo .zlib).writeHeader exZ).writeAll exZ exStream = .ok w :=
  (C13_writer_accepts_iff exZ .zlib exInfo exStream).1.mpr exStream_layered

/-- C14. Sentinels have no effect on the writer, and a sentinel inside a block does not change its bytes. -/
theorem C14_sentinels_ignored (z : Zlib) (w : Writer) (es : List Element) :
    w.writeAll z es = w.writeAll z (realOnes es) ∧ serializeData es = serializeData (realOnes es) := by
  refine ⟨writeAll_realOnes es w, ?_⟩
  have : ∀ s : SerState, es.foldl SerState.step s = (realOnes es).foldl SerState.step s := by
    induction es with
    | nil => intro s; rfl
    | cons e es ih =>
      intro s
      cases e
      case sentinel => exact ih s
      all_goals exact ih _
  unfold serializeData toPrimitiveBlock
  rw [this]

/-- C33. A second `close` changes nothing. -/
theorem C33_close_idempotent (z : Zlib) (w : Writer) : (w.close z).close z = w.close z := by
  have key : ∀ w : Writer, w.acc.elements = [] → w.close z = w := by
    intro w h
    unfold Writer.close Accumulator.take
    simp [h]
    cases w with | mk a b c d => cases d; simp at h; simp [h]
  apply key
  unfold Writer.close Accumulator.take
  simp only
  split <;> rfl

/-! ## C09: write and read back -/

theorem serializeData_ne_nil (es : List Element) : serializeData es ≠ [] := by
  unfold serializeData Pb.PrimitiveBlock.encode Pb.PrimitiveBlock.fields
  have := encField_length_pos ⟨1, .len (encFields (Pb.StringTable.fields (toPrimitiveBlock es).stringtable))⟩
  intro h
  simp only [List.append_assoc, encFields_append, List.append_eq_nil_iff, encFields_cons, encFields_nil] at h
  rw [h.1] at this
  simp at this

theorem encFields_eq_nil (fs : List Field) : encFields fs = [] ↔ fs = [] := by
  constructor
  · intro h
    cases fs with
    | nil => rfl
    | cons f fs =>
      have := encField_length_pos f
      simp at h
      rw [h.1] at this; simp at this
  · rintro rfl; rfl

theorem serializeHeader_eq_nil (i : FileInfo) : serializeHeader i = [] ↔ EmptyInfo i := by
  unfold serializeHeader Pb.HeaderBlock.encode
  rw [encFields_eq_nil]
  obtain ⟨a, b, c, d, e, f, g, h⟩ := i
  simp only [Pb.HeaderBlock.fields, toHeaderBlock, EmptyInfo, List.append_eq_nil_iff, repF, List.map_eq_nil_iff]
  rcases a with _ | a <;> rcases d with _ | d <;> rcases e with _ | e <;> rcases f with _ | f <;> rcases g with _ | g <;>
    rcases h with _ | h <;> simp [optF]

theorem headerOk {z : Zlib} {c : CompressionType} {i : FileInfo} (hn : ¬ EmptyInfo i) (hf : HeaderFits z c i) :
    BlockOk z c (.header i) :=
  ⟨fun h => hn ((serializeHeader_eq_nil i).mp h), hf.1, hf.2⟩

theorem stream_data (blocks : List (List Element)) (hg : ∀ b ∈ blocks, Homogeneous b) :
    stream ((blocks.map FileBlock.data).map FileBlock.readBack) .done = ((blocks.flatten).map Element.quant, .done) := by
  induction blocks with
  | nil => rfl
  | cons b bs ih =>
    have := ih fun b hb => hg b (by simp [hb])
    simp [FileBlock.readBack, stream, kept_homogeneous (hg b (by simp))] at this ⊢
    rw [this]; simp

theorem infix_of_mem_flatten {blocks : List (List Element)} {b : List Element} (hb : b ∈ blocks) : b <:+: blocks.flatten := by
  obtain ⟨l, r, rfl⟩ := List.append_of_mem hb
  exact ⟨l.flatten, r.flatten, by simp⟩

/-- Reading a closed file gives the written elements after quantisation. -/
theorem written_reads {z : Zlib} (hz : z.Lossless) {c : CompressionType} {info : FileInfo} {es : List Element} {w : Writer}
    (hn : ¬ EmptyInfo info) (hh : HeaderFits z c info) (hfit : RunsFit z c (realOnes es))
    (hw : ((Writer.fromFileInfo info c).writeHeader z).writeAll z es = .ok w) :
    ReadsElements z (w.close z).file ((realOnes es).map Element.quant) .done ∧
    ∃ it, nextBlock z (w.close z).file {} = .ok (some (.header (fromHeaderBlock (toHeaderBlock info)), it)) := by
  obtain ⟨blocks, hf, hc, hg⟩ := C11_C12_writer_blocks z c info es w hw
  have ok : ∀ b ∈ FileBlock.header info :: blocks.map .data, BlockOk z c b := by
    intro b hb
    simp at hb
    rcases hb with rfl | ⟨b, hb, rfl⟩
    · exact headerOk hn hh
    · have := hfit b (hc ▸ infix_of_mem_flatten hb) (hg b hb).2
      exact ⟨serializeData_ne_nil b, this.1, this.2⟩
  constructor
  · have ht := takeBlocks_written hz _ ok (file := (w.close z).file) [] (by simp [hf]) {} (by simp) (blocks.length + 2) (by simp)
    rw [reads_iff ht (by simp)]
    simp only [List.map_cons, streamAll]
    rw [stream_data blocks fun b hb => (hg b hb).1, hc]
  · obtain ⟨it, h, _⟩ := nextBlock_frame hz (ok _ (List.mem_cons_self)) (file := (w.close z).file) (pre := [])
      (post := blockBytes z c (blocks.map .data)) (by rw [hf]; simp [blockBytes]) (it := {}) (by simp)
    exact ⟨it, h⟩

/-- C09. A stream of grid-exact elements written with the sequential writer and read back is the same stream,
without the sentinels, for uncompressed and zlib files. -/
theorem C09_file_roundtrip (z : Zlib) (hz : z.Lossless) (c : CompressionType) (info : FileInfo) (es : List Element) (w : Writer)
    (hn : ¬ EmptyInfo info) (hh : HeaderFits z c info) (hfit : RunsFit z c (realOnes es)) (hx : ∀ e ∈ es, Exact e)
    (hw : ((Writer.fromFileInfo info c).writeHeader z).writeAll z es = .ok w) :
    ∀ es' r, ReadsElements z (w.close z).file es' r ↔ es' = realOnes es ∧ r = .done := by
  have h := (written_reads hz hn hh hfit hw).1
  rw [map_quant_exact (es := realOnes es) fun e he => hx e (List.mem_of_mem_filter he)] at h
  intro es' r
  constructor
  · intro h'; obtain ⟨rfl, rfl⟩ := reads_det h' h; simp
  · rintro ⟨rfl, rfl⟩; exact h

/-- C09. Any stream (coordinates within 360 degrees) reads back with coordinates and timestamps rounded. -/
theorem C09_file_roundtrip_rounded (z : Zlib) (hz : z.Lossless) (c : CompressionType) (info : FileInfo) (es : List Element)
    (w : Writer) (hn : ¬ EmptyInfo info) (hh : HeaderFits z c info) (hfit : RunsFit z c (realOnes es)) (hx : ∀ e ∈ es, InRange e)
    (hw : ((Writer.fromFileInfo info c).writeHeader z).writeAll z es = .ok w) :
    ∃ es', ReadsElements z (w.close z).file es' .done ∧ List.Forall₂ Rounded (realOnes es) es' := by
  refine ⟨_, (written_reads hz hn hh hfit hw).1, ?_⟩
  rw [List.forall₂_map_right_iff, List.forall₂_same]
  exact fun e he => quant_rounded (hx e (List.mem_of_mem_filter he))

theorem exStream_exact : ∀ e ∈ exStream, Exact e := by
  have h1 : Exact (.node { exNode with id := 8 }) := exNode_exact
  simpa [exStream] using ⟨exNode_exact, trivial, h1, exWay_exact, trivial, exRelation_exact⟩

theorem exInfo_nonempty : ¬ EmptyInfo exInfo := by simp [EmptyInfo, exInfo]
theorem exInfo_fits : HeaderFits exZ .zlib exInfo := ⟨by decide +kernel, by decide +kernel⟩

theorem exStream_fits : RunsFit exZ .zlib (realOnes exStream) := by
  have h : ∀ run ∈ (realOnes exStream).sublists, Fits exZ .zlib run := by
    unfold Fits
    decide +kernel
  exact fun run hr _ => h run (List.mem_sublists.mpr hr.sublist)

example : ∃ w, ((Writer.fromFileInfo exInfo .zlib).writeHeader exZ).writeAll exZ exStream = .ok w ∧
    ReadsElements exZ (w.close exZ).file (realOnes exStream) .done := by
  obtain ⟨w, hw⟩ := (C13_writer_accepts_iff exZ .zlib exInfo exStream).1.mpr exStream_layered
  exact ⟨w, hw, (C09_file_roundtrip exZ exZ_lossless .zlib exInfo exStream w exInfo_nonempty exInfo_fits exStream_fits
    exStream_exact hw _ _).mpr ⟨rfl, rfl⟩⟩

/-! ## C10: truncated files; termination of sequential reading -/

/-- Sequential iteration over any byte string terminates (possibly by a panic), and has one outcome. -/
theorem C32_sequential_terminates (z : Zlib) (file : Bytes) : ∃ es r, ReadsElements z file es r ∧ r ≠ .more ∧
    ∀ es' r', ReadsElements z file es' r' → es' = es ∧ r' = r := by
  have he := takeBlocks_ends z file file.length {} (by simp; omega)
  have h := reads_iff (z := z) (file := file) (fuel := file.length + 1) (bs := (takeBlocks z file (file.length + 1) {}).1)
    (e := (takeBlocks z file (file.length + 1) {}).2) rfl he
  have hk := (h _ _).mpr (rfl : ((streamAll _ _).1, (streamAll _ _).2) = _)
  refine ⟨_, _, hk, ?_, fun es' r' h' => reads_det h' hk⟩
  generalize (takeBlocks z file (file.length + 1) {}).1 = bs at *
  generalize (takeBlocks z file (file.length + 1) {}).2 = e at *
  have : ∀ bs, (stream bs e).2 ≠ .more := by
    intro bs
    induction bs with
    | nil => exact he
    | cons b bs ih => cases b <;> simp [stream, ih]
  cases bs with
  | nil => exact he
  | cons b bs => exact this bs

/-- C10. If a file is cut at any byte offset, iteration delivers a prefix of what it delivered for the whole file, and
then ends or panics. This holds for every file, written by this crate or not. -/
theorem C10_truncated_prefix (z : Zlib) (file : Bytes) (k : Nat) (es : List Element) (r : End)
    (h : ReadsElements z file es r) :
    ∃ es' r', ReadsElements z (file.take k) es' r' ∧ es' <+: es ∧ (r' = .done ∨ r' = .panic) := by
  obtain ⟨es', r', h', hm, _⟩ := C32_sequential_terminates z (file.take k)
  refine ⟨es', r', h', ?_, by cases r' <;> simp_all⟩
  have he := takeBlocks_ends z file file.length {} (by simp; omega)
  have h1 := (reads_iff (z := z) (file := file) (fuel := file.length + 1) (bs := (takeBlocks z file (file.length + 1) {}).1)
    (e := (takeBlocks z file (file.length + 1) {}).2) rfl he es r).mp h
  rcases takeBlocks_take z file k (file.length + 1) {} with ht | ⟨⟨t, ht⟩, hne⟩
  · have h2 := (reads_iff (z := z) (file := file.take k) (fuel := file.length + 1)
      (bs := (takeBlocks z file (file.length + 1) {}).1) (e := (takeBlocks z file (file.length + 1) {}).2)
      (by rw [ht]) he es' r').mp h'
    rw [← h1] at h2
    simp at h2
    rw [h2.1]
  · have h2 := (reads_iff (z := z) (file := file.take k) (fuel := file.length + 1)
      (bs := (takeBlocks z (file.take k) (file.length + 1) {}).1) (e := (takeBlocks z (file.take k) (file.length + 1) {}).2)
      rfl hne es' r').mp h'
    have e1 : es = (streamAll (takeBlocks z file (file.length + 1) {}).1 (takeBlocks z file (file.length + 1) {}).2).1 := by
      rw [← h1]
    have e2 : es' = (streamAll (takeBlocks z (file.take k) (file.length + 1) {}).1
        (takeBlocks z (file.take k) (file.length + 1) {}).2).1 := by rw [← h2]
    rw [e1, e2, ← ht]
    exact streamAll_prefix _ _ _ _

/-- C10. A cut file opens with the metadata of the whole file or not at all. -/
theorem C10_truncated_open (z : Zlib) (file : Bytes) (k : Nat) (info : FileInfo) (h : openReader z (file.take k) = .ok info) :
    openReader z file = .ok info := by
  unfold openReader at h ⊢
  rcases nextBlock_take z file k {} with hn | hn | hn
  · rw [hn] at h; exact h
  · rw [hn] at h; simp at h
  · rw [hn] at h; simp at h

/-- C10 for written files: whatever part of a written file survives, the elements delivered are a prefix of the written
ones. -/
theorem C10_written_cut (z : Zlib) (hz : z.Lossless) (c : CompressionType) (info : FileInfo) (es : List Element) (w : Writer)
    (hn : ¬ EmptyInfo info) (hh : HeaderFits z c info) (hfit : RunsFit z c (realOnes es)) (hx : ∀ e ∈ es, Exact e)
    (hw : ((Writer.fromFileInfo info c).writeHeader z).writeAll z es = .ok w) (k : Nat) :
    ∃ es' r', ReadsElements z ((w.close z).file.take k) es' r' ∧ es' <+: realOnes es ∧ (r' = .done ∨ r' = .panic) :=
  C10_truncated_prefix z _ k _ _ ((C09_file_roundtrip z hz c info es w hn hh hfit hx hw _ _).mpr ⟨rfl, rfl⟩)

end OsmIo
