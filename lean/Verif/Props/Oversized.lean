import Verif.Props.CutFile
import Verif.Props.Size
import Verif.Props.Frames
/-!
# Blocks that are too large (C93)

Sizes are stored as `i32`. A block of 2 GiB or more is written without complaint; this file is about what reading such a file gives.
-/
namespace OsmIo
open Wire Spec

theorem neg_ofNat32 {n : Nat} (h1 : 2 ^ 31 ≤ n) (h2 : n < 2 ^ 32) : (Int32.ofNat n).toInt < 0 := by
  have : (Int32.ofNat n).toInt = (n : Int) - 2 ^ 32 := by
    rw [Int32.toInt_ofNat']
    rw [Int.bmod_def]
    have e : ((n : Int) % (2 ^ 32 : Nat)) = n := Int.emod_eq_of_lt (by omega) (by exact_mod_cast h2)
    simp only [show Int32.size = 2 ^ 32 from rfl]
    rw [e]
    split <;> omega
  omega

theorem next_frame_any {file pre body post : Bytes} {h : Pb.BlobHeader} (hl : h.encode.length < 2 ^ 31)
    (hf : file = pre ++ (blobBytes h.encode body ++ post)) {it : BlobIter} (hp : it.pos + it.jump = pre.length) :
    it.next file = .ok (some (⟨it.index, pre.length + 4 + h.encode.length, h.datasize.toInt64.toUInt64.toNat, h.type⟩,
      ⟨pre.length + 4 + h.encode.length, h.datasize.toInt, it.index + 1⟩)) := by
  unfold BlobIter.next
  have e1 : readAt file pre.length 4 = some (beBytes (Int32.ofNat h.encode.length)) := by
    refine readAt_append' (post := h.encode ++ (body ++ post)) ?_ rfl rfl
    rw [hf]; simp [blobBytes]
  have e2 : readAt file (pre.length + 4) h.encode.length = some h.encode := by
    refine readAt_append' (pre := pre ++ beBytes (Int32.ofNat h.encode.length)) (post := body ++ post) ?_ ?_ rfl
    · rw [hf]; simp [blobBytes]
    · simp [beBytes_length]
  have hpn : (it.pos + it.jump : Int).toNat = pre.length := by rw [hp]; simp
  have hneg : ¬ (it.pos + it.jump : Int) < 0 := by rw [hp]; omega
  simp only [hneg, if_false, hpn, e1]
  simp only [beBytes, ofBe_be, not_neg32 hl, if_false, toInt_ofNat32 hl, Int.toNat_natCast, e2]
  rw [Pb.BlobHeader.decode, Pb.BlobHeader.merge_encode h (lt_trans hl (by norm_num))]

theorem nextBlock_negative {z : Zlib} {c : CompressionType} {es : List Element} (h : NegativeSize z c es)
    {file pre post : Bytes}
    (hf : file = pre ++ (blobBytes ((FileBlock.data es).serialize z c).1 ((FileBlock.data es).serialize z c).2 ++ post))
    {it : BlobIter} (hp : it.pos + it.jump = pre.length) : nextBlock z file it = .panic := by
  have hl : ((FileBlock.data es).blobHeader z c).encode.length < 2 ^ 31 := blobHeader_length _ (by simp only [FileBlock.payload]; decide) _
  have hn := next_frame_any hl (pre := pre) (post := post) (file := file) (by rw [hf]; rfl) hp
  unfold nextBlock
  rw [hn]
  rcases h with ⟨h1, h2⟩ | ⟨rfl, h1, h2, h3⟩
  · have := neg_length (neg_ofNat32 h1 h2)
    have e : ((FileBlock.data es).blobHeader z c).datasize = Int32.ofNat ((FileBlock.data es).serialize z c).2.length := rfl
    rw [e]
    simp only [FileBlock.fromBlobDesc, this, if_true]
  · have ed : ((FileBlock.data es).blobHeader z .zlib).datasize = Int32.ofNat ((FileBlock.data es).serialize z .zlib).2.length := rfl
    rw [ed, datasize_nat h1]
    have hr : readAt file (pre.length + 4 + ((FileBlock.data es).blobHeader z .zlib).encode.length) ((FileBlock.data es).serialize z .zlib).2.length =
        some ((FileBlock.data es).serialize z .zlib).2 := by
      refine readAt_append' (pre := pre ++ (beBytes (Int32.ofNat ((FileBlock.data es).serialize z .zlib).1.length) ++ ((FileBlock.data es).serialize z .zlib).1))
        (post := post) ?_ ?_ rfl
      · rw [hf]; simp [blobBytes]
      · rw [← serialize_fst]; simp [beBytes_length]; omega
    have hlt : ¬ 2 ^ 63 ≤ ((FileBlock.data es).serialize z .zlib).2.length := by omega
    have hd : FileBlock.deserialize z ((FileBlock.data es).blobHeader z .zlib).type ((FileBlock.data es).serialize z .zlib).2 = .panic := by
      unfold FileBlock.deserialize
      have e : ((FileBlock.data es).serialize z .zlib).2 = (FileBlock.blob z .zlib true (serializeData es)).encode := rfl
      rw [e] at h1 ⊢
      rw [Pb.Blob.decode_encode _ (lt_trans h1 (by norm_num))]
      have he : (serializeData es).isEmpty = false := by simp [serializeData_ne_nil]
      have hneg : Int32.ofNat (serializeData es).length < 0 := by
        rw [Int32.lt_iff_toInt_lt]; simpa using neg_ofNat32 h2 h3
      simp [FileBlock.blob, he, readBlobData, Out.unwrap, zlibDecode, hneg]
    simp only [FileBlock.fromBlobDesc, hlt, if_false, hr, hd]

theorem takeBlocks_negative {z : Zlib} (hz : z.Lossless) {c : CompressionType} (bs : List FileBlock) {es : List Element}
    (ok : ∀ b ∈ bs, BlockOk z c b) (h : NegativeSize z c es) {file : Bytes} (pre post : Bytes)
    (hf : file = pre ++ (blockBytes z c bs ++ (blobBytes ((FileBlock.data es).serialize z c).1 ((FileBlock.data es).serialize z c).2 ++ post)))
    (it : BlobIter) (hp : it.pos + it.jump = pre.length) (fuel : Nat) (hfuel : bs.length < fuel) :
    takeBlocks z file fuel it = (bs.map FileBlock.readBack, .panic) := by
  induction bs generalizing pre it fuel with
  | nil =>
    obtain _ | fuel := fuel
    · simp at hfuel
    · have := nextBlock_negative h (file := file) (pre := pre) (post := post) (by rw [hf]; simp [blockBytes]) hp
      unfold takeBlocks
      rw [this]
      rfl
  | cons a bs ih =>
    obtain _ | fuel := fuel
    · simp at hfuel
    · obtain ⟨it', hn, hp'⟩ := nextBlock_frame hz (ok a (by simp)) (file := file) (pre := pre)
        (post := blockBytes z c bs ++ (blobBytes ((FileBlock.data es).serialize z c).1 ((FileBlock.data es).serialize z c).2 ++ post))
        (by rw [hf]; simp [blockBytes]) hp
      have := ih (fun x hx => ok x (by simp [hx])) (pre ++ blobBytes (a.serialize z c).1 (a.serialize z c).2)
        (by rw [hf]; simp [blockBytes]) it' hp' fuel (by simpa using hfuel)
      unfold takeBlocks
      rw [hn]
      simp only [this, List.map_cons]

/-- C93. A file with a block of between 2 and 4 GiB (as it is in the file or, with compression, before that), after the blocks `first` and before
whatever follows: reading gives the elements of `first` and then panics. -/
theorem C93_unreadable (z : Zlib) (hz : z.Lossless) (c : CompressionType) (info : FileInfo) (first : List (List Element)) (b : List Element)
    (hn : ¬ EmptyInfo info) (hh : HeaderFits z c info) (hg : ∀ l ∈ first, Homogeneous l) (hfit : ∀ l ∈ first, Fits z c l)
    (hb : NegativeSize z c b) (more : Bytes) (es : List Element) (r : End) :
    ReadsElements z (blockBytes z c (.header info :: (first ++ [b]).map .data) ++ more) es r ↔
      es = first.flatten.map Element.quant ∧ r = .panic := by
  have ok : ∀ x ∈ FileBlock.header info :: first.map .data, BlockOk z c x := by
    intro x hxx
    simp only [List.mem_cons, List.mem_map] at hxx
    rcases hxx with rfl | ⟨l, hl, rfl⟩
    · exact headerOk hn hh
    · exact ⟨serializeData_ne_nil l, (hfit l hl).1, (hfit l hl).2⟩
  have e0 : blockBytes z c (.header info :: (first ++ [b]).map .data) ++ more = [] ++ (blockBytes z c (.header info :: first.map .data) ++
      (blobBytes ((FileBlock.data b).serialize z c).1 ((FileBlock.data b).serialize z c).2 ++ more)) := by
    simp [blockBytes]
  have ht := takeBlocks_negative hz (FileBlock.header info :: first.map .data) ok hb [] more e0 {} (by simp) (first.length + 2) (by simp)
  rw [reads_iff ht (by simp)]
  have hs : ∀ (l : List (List Element)) (e : End), (∀ x ∈ l, Homogeneous x) →
      stream ((l.map FileBlock.data).map FileBlock.readBack) e = (l.flatten.map Element.quant, e) := by
    intro l e hl
    induction l with
    | nil => rfl
    | cons x l ih =>
      have := ih (fun y hy => hl y (by simp [hy]))
      simp only [List.map_cons, FileBlock.readBack, stream, kept_homogeneous (hl x (by simp)), this, List.flatten_cons, List.map_append]
  simp only [List.map_cons, streamAll, FileBlock.readBack]
  rw [hs _ _ hg, Prod.mk.injEq]

theorem int_ofNat32 {n : Nat} (h1 : 2 ^ 31 ≤ n) (h2 : n < 2 ^ 32) : (Int32.ofNat n).toInt = (n : Int) - 2 ^ 32 := by
  rw [Int32.toInt_ofNat', Int.bmod_def]
  have e : ((n : Int) % (2 ^ 32 : Nat)) = n := Int.emod_eq_of_lt (by omega) (by exact_mod_cast h2)
  simp only [show Int32.size = 2 ^ 32 from rfl]
  rw [e]
  split <;> omega

theorem takeBlobs_negative {z : Zlib} (hz : z.Lossless) {c : CompressionType} (bs : List FileBlock) {es : List Element}
    (ok : ∀ b ∈ bs, BlockOk z c b) (h1 : 2 ^ 31 ≤ ((FileBlock.data es).serialize z c).2.length) {file : Bytes} (pre post : Bytes)
    (hf : file = pre ++ (blockBytes z c bs ++ (blobBytes ((FileBlock.data es).serialize z c).1 ((FileBlock.data es).serialize z c).2 ++ post)))
    (hs : (pre ++ (blockBytes z c bs ++ blobBytes ((FileBlock.data es).serialize z c).1 ((FileBlock.data es).serialize z c).2)).length < 2 ^ 32)
    (it : BlobIter) (hp : it.pos + it.jump = pre.length) (fuel : Nat) (hfuel : bs.length + 1 < fuel) :
    ∃ ds, takeBlobs file fuel it = (ds, .done) ∧ ds.map (iterationCalls z file) = (bs.map fun b => some (callsFor b.readBack)) ++ [none] := by
  induction bs generalizing pre it fuel with
  | nil =>
    obtain _ | _ | fuel := fuel
    · simp at hfuel
    · simp at hfuel
    · have hl : ((FileBlock.data es).blobHeader z c).encode.length < 2 ^ 31 := blobHeader_length _ (by simp only [FileBlock.payload]; decide) _
      have hn := next_frame_any hl (pre := pre) (post := post) (body := ((FileBlock.data es).serialize z c).2) (file := file)
        (by rw [hf]; simp [blockBytes]; rfl) hp
      have h2 : ((FileBlock.data es).serialize z c).2.length < 2 ^ 32 := by
        refine lt_of_le_of_lt ?_ hs
        simp [blockBytes, blobBytes]; omega
      have ed : ((FileBlock.data es).blobHeader z c).datasize = Int32.ofNat ((FileBlock.data es).serialize z c).2.length := rfl
      have hs' : pre.length + 4 + ((FileBlock.data es).blobHeader z c).encode.length + ((FileBlock.data es).serialize z c).2.length < 2 ^ 32 := by
        refine lt_of_le_of_lt (Nat.le_of_eq ?_) hs
        have : ((FileBlock.data es).serialize z c).1 = ((FileBlock.data es).blobHeader z c).encode := rfl
        rw [this]
        simp [blockBytes, blobBytes_length]; omega
      have hb := next_before file ⟨pre.length + 4 + ((FileBlock.data es).blobHeader z c).encode.length, ((FileBlock.data es).blobHeader z c).datasize.toInt, it.index + 1⟩
        (by rw [ed, int_ofNat32 h1 h2]; push_cast; omega)
      refine ⟨[_], by simp only [takeBlobs, hn, hb]; rfl, ?_⟩
      have := neg_length (neg_ofNat32 h1 h2)
      rw [← ed] at this
      simp only [List.map_cons, List.map_nil, List.nil_append, iterationCalls, FileBlock.fromBlobDesc, this, if_true]
  | cons a bs ih =>
    obtain _ | fuel := fuel
    · simp at hfuel
    · obtain ⟨it', hn, hp'⟩ := nextBlock_frame hz (ok a (by simp)) (file := file) (pre := pre)
        (post := blockBytes z c bs ++ (blobBytes ((FileBlock.data es).serialize z c).1 ((FileBlock.data es).serialize z c).2 ++ post))
        (by rw [hf]; simp [blockBytes]) hp
      obtain ⟨ds, h3, h4⟩ := ih (fun x hx => ok x (by simp [hx])) (pre ++ blobBytes (a.serialize z c).1 (a.serialize z c).2)
        (by rw [hf]; simp [blockBytes]) (by simpa [blockBytes, Nat.add_assoc] using hs) it' hp' fuel (by simpa using hfuel)
      unfold nextBlock at hn
      cases hx : it.next file with
      | err => simp [hx] at hn
      | panic => simp [hx] at hn
      | ok o =>
        cases o with
        | none => simp [hx] at hn
        | some x =>
          obtain ⟨d, it2⟩ := x
          simp only [hx] at hn
          cases hb : FileBlock.fromBlobDesc z file d with
          | err => simp [hb] at hn
          | panic => simp [hb] at hn
          | ok b =>
            simp only [hb, Out.ok.injEq, Option.some.injEq, Prod.mk.injEq] at hn
            obtain ⟨rfl, rfl⟩ := hn
            refine ⟨d :: ds, by simp only [takeBlobs, hx, h3], ?_⟩
            have : iterationCalls z file d = some (callsFor a.readBack) := by
              unfold iterationCalls; rw [hb]; cases a.readBack <;> rfl
            rw [List.map_cons, this, h4]; rfl

variable {T : Nat} {σ : Type}

/-- C93. `parallel_for_each` on such a file, when the blob itself is that large and ends within the first 4 GiB of the file: the following frame is looked for before the
beginning of the file, which ends the search. The calls made are those for the blocks before; the block and all that follows are left out,
and nothing tells. -/
theorem C93_parallel_silent (z : Zlib) (hz : z.Lossless) (c : CompressionType) (info : FileInfo) (first : List (List Element)) (b : List Element)
    (hn : ¬ EmptyInfo info) (hh : HeaderFits z c info) (hg : ∀ l ∈ first, Homogeneous l) (hfit : ∀ l ∈ first, Fits z c l)
    (hb : 2 ^ 31 ≤ ((FileBlock.data b).serialize z c).2.length) (hs : (blockBytes z c (.header info :: (first ++ [b]).map .data)).length < 2 ^ 32) (more : Bytes)
    (f : Fin T → Element → σ → σ × Bool) (cap : Nat) (s : σ) (ds : List BlobDesc) (p : ForEach T σ)
    (h : ForEachOccurs z (blockBytes z c (.header info :: (first ++ [b]).map .data) ++ more) f cap s ds p) :
    (p.log.map (·.2.2.1)).Subperm (first.flatMap fun l => l.map Element.quant ++ [.sentinel]) ∧
    (p.returned = true → (∀ x ∈ p.log, x.2.2.2 = true) → (p.log.map (·.2.2.1)).Perm (first.flatMap fun l => l.map Element.quant ++ [.sentinel])) := by
  have ok : ∀ x ∈ FileBlock.header info :: first.map .data, BlockOk z c x := by
    intro x hxx
    simp only [List.mem_cons, List.mem_map] at hxx
    rcases hxx with rfl | ⟨l, hl, rfl⟩
    · exact headerOk hn hh
    · exact ⟨serializeData_ne_nil l, (hfit l hl).1, (hfit l hl).2⟩
  have e0 : blockBytes z c (.header info :: (first ++ [b]).map .data) ++ more = [] ++ (blockBytes z c (.header info :: first.map .data) ++
      (blobBytes ((FileBlock.data b).serialize z c).1 ((FileBlock.data b).serialize z c).2 ++ more)) := by
    simp [blockBytes]
  obtain ⟨ds', h1, h2⟩ := takeBlobs_negative hz (FileBlock.header info :: first.map .data) ok hb [] more e0
    (by simpa [blockBytes, Nat.add_assoc] using hs) {} (by simp) (first.length + 3) (by simp)
  obtain ⟨fuel, p, hds, hst⟩ := h
  obtain ⟨rfl, -⟩ := takeBlobs_det _ fuel (first.length + 3) {} ds ds' .done .done hds h1 (by simp) (by simp)
  have hp := forEach_parts (ForEach.steps_inv (ForEach.init_inv _ s) hst)
  rw [h2] at hp
  have e : ((FileBlock.header info :: first.map FileBlock.data).map (fun b : FileBlock => some (callsFor b.readBack)) ++ [none]).flatMap (fun o : Option (List Element) => o.getD []) =
      first.flatMap fun l => l.map Element.quant ++ [.sentinel] := by
    simp only [List.map_cons, List.cons_append, List.flatMap_cons, List.flatMap_append, List.map_map]
    simp only [FileBlock.readBack, callsFor, Option.getD_some, List.nil_append, List.flatMap_nil, Option.getD_none, List.append_nil, List.flatMap_map, Function.comp]
    rw [List.flatMap_def, List.flatMap_def]
    congr 1
    apply List.map_congr_left
    intro l hl
    rw [kept_homogeneous (hg l hl)]
  rw [e] at hp
  exact hp

theorem text_of_size (N : Nat) : ∃ s : String, s.utf8ByteSize = N := by
  induction N with
  | zero => exact ⟨"", rfl⟩
  | succ N ih =>
    obtain ⟨s, hs⟩ := ih
    refine ⟨s ++ "a", ?_⟩
    rw [String.utf8ByteSize_append]
    have : "a".utf8ByteSize = 1 := by decide
    omega

theorem split_one {α : Type} (x : α) (bs : List (List α)) (h : bs.flatten = [x]) :
    ∃ a b : List (List α), bs = a ++ [[x]] ++ b ∧ (∀ l ∈ a, l = []) := by
  induction bs with
  | nil => simp at h
  | cons l bs ih =>
    rw [List.flatten_cons] at h
    rcases List.append_eq_singleton_iff.1 h with ⟨rfl, h2⟩ | ⟨rfl, h2⟩
    · obtain ⟨a, b, rfl, ha⟩ := ih h2
      exact ⟨[] :: a, b, by simp, by simpa using ha⟩
    · exact ⟨[], bs, by simp, by simp⟩

theorem text_node_length (s : String) : s.utf8ByteSize ≤ (serializeData [.node ⟨0, 0, ⟨0, 0⟩, 0, 0, 0, s, true, []⟩]).length := by
  have h1 : (toPrimitiveBlock [.node ⟨0, 0, ⟨0, 0⟩, 0, 0, 0, s, true, []⟩]).stringtable = { s := [strBytes "", strBytes s] } := rfl
  have h2 : (strBytes s).length ≤ (encFields (Pb.StringTable.fields { s := [strBytes "", strBytes s] })).length :=
    (encField_len_le 1 (strBytes s)).trans (encField_mem_le (by simp [Pb.StringTable.fields, repF]))
  have h3 : (encFields (Pb.StringTable.fields { s := [strBytes "", strBytes s] })).length ≤ (serializeData [.node ⟨0, 0, ⟨0, 0⟩, 0, 0, 0, s, true, []⟩]).length := by
    refine (encField_len_le 1 _).trans (encField_mem_le (fs := (toPrimitiveBlock [.node ⟨0, 0, ⟨0, 0⟩, 0, 0, 0, s, true, []⟩]).fields) ?_)
    unfold Pb.PrimitiveBlock.fields
    rw [h1]
    simp
  rw [Size.strBytes_length] at h2
  omega

/-- Data of between 2 and 3 GiB gives a negative size. -/
theorem negative_of_size {z : Zlib} (hm : Modest z) (c : CompressionType) (es : List Element)
    (h1 : 2 ^ 31 ≤ (serializeData es).length) (h2 : (serializeData es).length ≤ 3000000000) : NegativeSize z c es := by
  have hb : ((FileBlock.data es).serialize z c).2.length < 2 ^ 32 := by
    have hd := hm true (serializeData es)
    have := Size.blob_le z c true (serializeData es) 3100000000 (by omega) (by omega) (by norm_num)
    have e : ((FileBlock.data es).serialize z c).2 = (FileBlock.blob z c true (serializeData es)).encode := rfl
    rw [e]
    omega
  by_cases hs : 2 ^ 31 ≤ ((FileBlock.data es).serialize z c).2.length
  · exact .inl ⟨hs, hb⟩
  · cases c with
    | zlib => exact .inr ⟨rfl, by omega, h1, by omega⟩
    | uncompressed =>
      exfalso
      apply hs
      have e : ((FileBlock.data es).serialize z .uncompressed).2 = (FileBlock.blob z .uncompressed true (serializeData es)).encode := rfl
      rw [e]
      refine h1.trans ((encField_len_le 1 _).trans (encField_mem_le (fs := (FileBlock.blob z .uncompressed true (serializeData es)).fields) ?_))
      have he : (serializeData es).isEmpty = false := by simp [serializeData_ne_nil]
      simp [FileBlock.blob, he, Pb.Blob.fields, Pb.BlobData.field]

/-- C93. The writer takes such a block without complaint: there is a node of which it makes, whatever the compression, a file from which
nothing can be read back. -/
theorem C93_written_lost : ∃ n : Node, Exact (.node n) ∧ InRange (.node n) ∧ ∀ (z : Zlib), z.Lossless → Modest z → ∀ (c : CompressionType) (info : FileInfo),
    ¬ EmptyInfo info → HeaderFits z c info →
    ∃ w, ((Writer.fromFileInfo info c).writeHeader z).writeAll z [.node n] = .ok w ∧
      ∀ es r, ReadsElements z (w.close z).file es r ↔ es = [] ∧ r = .panic := by
  obtain ⟨s, hs⟩ := text_of_size (2 ^ 31)
  refine ⟨⟨0, 0, ⟨0, 0⟩, 0, 0, 0, s, true, []⟩, ⟨⟨0, by simp [rnd_zero]⟩, ⟨0, by simp [rnd_zero]⟩, ⟨0, rfl⟩⟩, ⟨by simp, by simp⟩, ?_⟩
  intro z hz hm c info hn hh
  have hwt : weightOf [.node ⟨0, 0, ⟨0, 0⟩, 0, 0, 0, s, true, []⟩] = 256 + 2 ^ 31 := by
    simp only [weightOf, List.map_cons, List.map_nil, weight, tagsWeight, List.sum_cons, List.sum_nil, hs, Nat.add_zero]
  have hneg : NegativeSize z c [.node ⟨0, 0, ⟨0, 0⟩, 0, 0, 0, s, true, []⟩] := by
    refine negative_of_size hm c _ (hs ▸ text_node_length s) ?_
    have := C83_block [.node ⟨0, 0, ⟨0, 0⟩, 0, 0, 0, s, true, []⟩] (by omega)
    omega
  clear hwt
  generalize he : (Element.node ⟨0, 0, ⟨0, 0⟩, 0, 0, 0, s, true, []⟩) = e at *
  have hr : realOnes [e] = [e] := by rw [← he]; simp [realOnes, Element.isSentinel]
  obtain ⟨w, hw⟩ := (C13_writer_accepts_iff z c info [e]).1.2 ⟨[e], [], [], by simp [hr], by rw [← he]; simp, by simp, by simp, by simp⟩
  refine ⟨w, hw, ?_⟩
  obtain ⟨blocks, hf, hfl, -⟩ := C11_C12_writer_blocks z c info [e] w hw
  rw [hr] at hfl
  obtain ⟨a, b, rfl, ha⟩ := split_one e blocks hfl
  intro es r
  have hfile : (w.close z).file = blockBytes z c (.header info :: (a ++ [[e]]).map .data) ++ blockBytes z c (b.map .data) := by
    rw [hf]; simp [blockBytes]
  rw [hfile, C93_unreadable z hz c info a [e] hn hh (fun l hl => by rw [ha l hl]; exact .inl (by simp))
    (fun l hl => by rw [ha l hl]; exact C83_fits z hm c [] (by simp [weightOf])) hneg]
  have : a.flatten = [] := List.flatten_eq_nil_iff.2 ha
  rw [this]; rfl

/-- Blocks as in `C93_unreadable` and `C93_parallel_silent`: the sample stream's nodes, then one with a text of 2 GiB. -/
example : ∃ b : List Element, (¬ EmptyInfo exInfo ∧ HeaderFits exZ .uncompressed exInfo) ∧
    (∀ l ∈ [[Element.node exNode]], Homogeneous l) ∧ (∀ l ∈ [[Element.node exNode]], Fits exZ .uncompressed l) ∧ NegativeSize exZ .uncompressed b ∧
    2 ^ 31 ≤ ((FileBlock.data b).serialize exZ .uncompressed).2.length ∧
    (blockBytes exZ .uncompressed (.header exInfo :: ([[Element.node exNode]] ++ [b]).map .data)).length < 2 ^ 32 := by
  obtain ⟨s, hs⟩ := text_of_size (2 ^ 31)
  have hwt : weightOf [.node ⟨0, 0, ⟨0, 0⟩, 0, 0, 0, s, true, []⟩] = 256 + 2 ^ 31 := by
    simp only [weightOf, List.map_cons, List.map_nil, weight, tagsWeight, List.sum_cons, List.sum_nil, hs, Nat.add_zero]
  have h1 := text_node_length s
  have h2 := C83_block [.node ⟨0, 0, ⟨0, 0⟩, 0, 0, 0, s, true, []⟩] (by omega)
  generalize he : [Element.node ⟨0, 0, ⟨0, 0⟩, 0, 0, 0, s, true, []⟩] = b at *
  have hb := negative_of_size exZ_modest .uncompressed b (by omega) (by omega)
  have hw : weightOf [Element.node exNode] ≤ 2000000000 := by decide +kernel
  have hi : infoWeight exInfo ≤ 2000000000 := by decide +kernel
  rcases hb with ⟨h3, h4⟩ | ⟨h3, -⟩
  · refine ⟨b, ⟨by unfold EmptyInfo; decide, C83_header_fits exZ exZ_modest .uncompressed exInfo hi⟩, ?_, ?_, .inl ⟨h3, h4⟩, h3, ?_⟩
    · intro l hl
      simp only [List.mem_singleton] at hl
      subst hl
      exact .inl (by simp)
    · intro l hl
      simp only [List.mem_singleton] at hl
      subst hl
      exact C83_fits exZ exZ_modest _ _ hw
    · have e : ((FileBlock.data b).serialize exZ .uncompressed).2 = (FileBlock.blob exZ .uncompressed true (serializeData b)).encode := rfl
      have h5 := Size.blob_le exZ .uncompressed true (serializeData b) 2200000000 (by omega) (by have := exZ_modest true (serializeData b); omega) (by norm_num)
      rw [← e] at h5
      have h6 : ((FileBlock.data b).blobHeader exZ .uncompressed).encode.length ≤ 39 := Size.enc_le (Pb.BlobHeader.pre _) (by
        simp [Size.cost, Pb.BlobHeader.fields, FileBlock.blobHeader, FileBlock.payload, optF, Size.body, Size.strBytes_length]
        decide)
      have e6 : ((FileBlock.data b).blobHeader exZ .uncompressed).encode = ((FileBlock.data b).serialize exZ .uncompressed).1 := rfl
      rw [e6] at h6
      have h7 : (blockBytes exZ .uncompressed [.header exInfo, .data [.node exNode]]).length ≤ 1000 := by decide +kernel
      simp [blockBytes, blobBytes_length] at h7 ⊢
      omega
  · simp at h3

end OsmIo
