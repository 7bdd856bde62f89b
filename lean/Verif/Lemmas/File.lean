import Verif.Spec.File
import Verif.Lemmas.Proto
import Verif.Lemmas.Quant
/-! # Framing, block serialisation and iteration -/
set_option linter.unusedSimpArgs false
set_option linter.flexible false
namespace OsmIo
open Wire Spec

theorem ofBe_be (i : Int32) :
    ofBeBytes (i.toUInt32 >>> 24).toUInt8 (i.toUInt32 >>> 16).toUInt8 (i.toUInt32 >>> 8).toUInt8 i.toUInt32.toUInt8 = i := by
  have key : ∀ u : BitVec 32, ((u >>> 24).setWidth 8).setWidth 32 <<< 24 ||| ((u >>> 16).setWidth 8).setWidth 32 <<< 16
      ||| ((u >>> 8).setWidth 8).setWidth 32 <<< 8 ||| (u.setWidth 8).setWidth 32 = u := by
    intro u
    ext k hk
    simp only [BitVec.getElem_or, BitVec.getElem_shiftLeft, BitVec.getElem_setWidth, BitVec.getLsbD_setWidth,
      BitVec.getLsbD_ushiftRight]
    have e : u[k] = u.getLsbD k := by simp [BitVec.getLsbD_eq_getElem hk]
    rw [e]
    by_cases h1 : k < 8
    · simp [h1, show k < 16 by omega, show k < 24 by omega]
    · by_cases h2 : k < 16
      · simp [h1, h2, show k < 24 by omega, show k - 8 < 8 by omega, show 8 + (k - 8) = k by omega]
      · by_cases h3 : k < 24
        · simp [h1, h2, h3, show ¬ (k - 8 < 8) by omega, show k - 16 < 8 by omega, show 16 + (k - 16) = k by omega]
        · simp [h1, h2, h3, show ¬ (k - 8 < 8) by omega, show ¬ (k - 16 < 8) by omega, show k - 24 < 8 by omega,
            show 24 + (k - 24) = k by omega]
  unfold ofBeBytes
  have : i = (i.toUInt32).toInt32 := by simp
  rw [this]
  congr 1
  apply UInt32.toBitVec_inj.mp
  exact key i.toUInt32.toBitVec

theorem toInt_ofNat32 {n : Nat} (h : n < 2 ^ 31) : (Int32.ofNat n).toInt = n := by
  rw [Int32.toInt_ofNat_of_lt h]

theorem not_neg32 {n : Nat} (h : n < 2 ^ 31) : ¬ Int32.ofNat n < 0 := by
  rw [Int32.lt_iff_toInt_lt, toInt_ofNat32 h]; simp

theorem datasize_nat {n : Nat} (h : n < 2 ^ 31) : (Int32.ofNat n).toInt64.toUInt64.toNat = n := by
  have h1 : (Int32.ofNat n).toInt64 = Int64.ofNat n := by
    apply Int64.toInt_inj.mp
    rw [Int32.toInt_toInt64, toInt_ofNat32 h, Int64.toInt_ofNat_of_lt (by omega)]
  rw [h1]
  show (UInt64.ofNat n).toNat = n
  exact UInt64.toNat_ofNat_of_lt (lt_trans h (by decide))

theorem readAt_append (pre x post : Bytes) : readAt (pre ++ (x ++ post)) pre.length x.length = some x := by
  unfold readAt
  simp

theorem readAt_append' {file pre x post : Bytes} {p n : Nat} (hf : file = pre ++ (x ++ post)) (hp : p = pre.length)
    (hn : n = x.length) : readAt file p n = some x := by
  subst hf hp hn; exact readAt_append ..

theorem readAt_length {file b : Bytes} {p n : Nat} (h : readAt file p n = some b) : b.length = n := by
  unfold readAt at h
  split at h
  · simp at h
  · rename_i hl
    simp at h; subst h; simp; omega

theorem beBytes_length (i : Int32) : (beBytes i).length = 4 := rfl

theorem next_frame {file pre body post : Bytes} {h : Pb.BlobHeader} (ok : FrameOk h body)
    (hf : file = pre ++ (blobBytes h.encode body ++ post)) {it : BlobIter} (hp : it.pos + it.jump = pre.length) :
    it.next file = .ok (some (⟨it.index, pre.length + 4 + h.encode.length, body.length, h.type⟩,
      ⟨pre.length + 4 + h.encode.length, body.length, it.index + 1⟩)) := by
  unfold BlobIter.next
  have e1 : readAt file pre.length 4 = some (beBytes (Int32.ofNat h.encode.length)) := by
    refine readAt_append' (post := h.encode ++ (body ++ post)) ?_ rfl rfl
    rw [hf]; simp [blobBytes]
  have e2 : readAt file (pre.length + 4) h.encode.length = some h.encode := by
    refine readAt_append' (pre := pre ++ beBytes (Int32.ofNat h.encode.length)) (post := body ++ post) ?_ ?_ rfl
    · rw [hf]; simp [blobBytes]
    · simp [beBytes_length]
  have hpn : (it.pos + it.jump : Int).toNat = pre.length := by rw [hp]; simp
  have hneg : ¬ (it.pos + it.jump : Int) < 0 := by rw [hp]; omega
  simp only [hneg, if_false, hpn, e1]
  simp only [beBytes, ofBe_be, not_neg32 ok.header_len, if_false, toInt_ofNat32 ok.header_len, Int.toNat_natCast, e2]
  rw [Pb.BlobHeader.decode, Pb.BlobHeader.merge_encode h (lt_trans ok.header_len (by norm_num))]
  simp only [ok.datasize, datasize_nat ok.body_len, toInt_ofNat32 ok.body_len]

theorem next_end {file : Bytes} {it : BlobIter} (hp : (file.length : Int) ≤ it.pos + it.jump) : it.next file = .ok none := by
  unfold BlobIter.next
  have hneg : ¬ (it.pos + it.jump : Int) < 0 := by omega
  have : readAt file (it.pos + it.jump : Int).toNat 4 = none := by
    unfold readAt; rw [if_pos]; omega
  simp only [hneg, if_false, this]

/-- The descriptors of frames laid out from offset `off`, numbered from `i`. -/
def descs (off i : Nat) : List (Pb.BlobHeader × Bytes) → List BlobDesc
  | [] => []
  | (h, body) :: fs =>
    ⟨i, off + 4 + h.encode.length, body.length, h.type⟩ :: descs (off + 4 + h.encode.length + body.length) (i + 1) fs

theorem blobBytes_length (h b : Bytes) : (blobBytes h b).length = 4 + h.length + b.length := by
  simp [blobBytes, beBytes_length]; omega

theorem takeBlobs_frames (file : Bytes) (frames : List (Pb.BlobHeader × Bytes)) (ok : ∀ f ∈ frames, FrameOk f.1 f.2)
    (pre : Bytes) (hf : file = pre ++ frameBytes frames)
    (it : BlobIter) (hp : it.pos + it.jump = pre.length) (fuel : Nat) (hfuel : frames.length < fuel) :
    takeBlobs file fuel it = (descs pre.length it.index frames, .done) := by
  induction frames generalizing pre it fuel with
  | nil =>
    obtain _ | fuel := fuel
    · simp at hfuel
    · have := next_end (file := file) (it := it) (by rw [hp, hf]; simp [frameBytes])
      simp [takeBlobs, this, descs]
  | cons f fs ih =>
    obtain _ | fuel := fuel
    · simp at hfuel
    · have hn := next_frame (ok f (by simp)) (pre := pre) (post := frameBytes fs)
        (file := file) (by rw [hf]; simp [frameBytes]) hp
      have := ih (fun f hf => ok f (by simp [hf])) (pre ++ blobBytes f.1.encode f.2) (by rw [hf]; simp [frameBytes])
        ⟨pre.length + 4 + f.1.encode.length, f.2.length, it.index + 1⟩ (by simp [blobBytes_length]; omega)
        fuel (by simpa using hfuel)
      simp only [takeBlobs, hn, this, descs]
      simp [blobBytes_length, Nat.add_assoc]

theorem descs_get (frames : List (Pb.BlobHeader × Bytes)) (off i k : Nat) (f : Pb.BlobHeader × Bytes)
    (hk : frames[k]? = some f) :
    (descs off i frames)[k]? =
      some ⟨i + k, off + (frameBytes (frames.take k)).length + 4 + f.1.encode.length, f.2.length, f.1.type⟩ := by
  induction frames generalizing off i k with
  | nil => simp at hk
  | cons g gs ih =>
    obtain ⟨h, b⟩ := g
    obtain _ | k := k
    · simp at hk; subst hk; simp [descs, frameBytes]
    · simp at hk
      rw [descs, List.getElem?_cons_succ, ih _ _ _ hk]
      simp [frameBytes, blobBytes_length]
      constructor <;> omega

theorem descs_length (frames : List (Pb.BlobHeader × Bytes)) (off i : Nat) : (descs off i frames).length = frames.length := by
  induction frames generalizing off i with
  | nil => rfl
  | cons g gs ih => obtain ⟨h, b⟩ := g; simp [descs, ih]

/-! ## Blocks -/

theorem encVarint_length_le (n : Nat) (k : Nat) (h : n < 2 ^ (7 * k)) (hk : 0 < k) : (encVarint n).length ≤ k := by
  induction k generalizing n with
  | zero => omega
  | succ k ih =>
    rw [encVarint]
    split
    · simp
    · obtain _ | k := k
      · simp at h; omega
      · have := ih (n / 128) (by
          rw [Nat.div_lt_iff_lt_mul (by norm_num)]
          calc n < _ := h
            _ = _ := by rw [show 7 * (k + 1 + 1) = 7 * (k + 1) + 7 by ring, pow_add]; rfl) (by omega)
        simp; omega

theorem blobHeader_length (t : String) (ht : (strBytes t).length < 128) (i : Int32) :
    (Pb.BlobHeader.encode ⟨t, none, i⟩).length < 2 ^ 31 := by
  have h1 : ∀ n, n < 2 ^ 64 → (encVarint n).length ≤ 10 := fun n h =>
    encVarint_length_le n 10 (lt_trans h (by norm_num)) (by norm_num)
  have a1 := h1 10 (by norm_num)
  have a2 := h1 (strBytes t).length (by omega)
  have a3 := h1 24 (by norm_num)
  have a4 := h1 (ofInt32 i) (ofInt32_lt i)
  simp only [Pb.BlobHeader.encode, Pb.BlobHeader.fields, optF, List.append_nil, encFields, encField, encVal, Val.wt, List.map_append,
    List.map_cons, List.map_nil, List.flatten_append, List.flatten_cons, List.flatten_nil, List.length_append, List.length_nil]
  norm_num
  omega

/-- What a reader gets back for a written block. -/
def FileBlock.readBack : FileBlock → FileBlock
  | .header i => .header (fromHeaderBlock (toHeaderBlock i))
  | .data es => .data ((kept es).map Element.quant)

/-- The header message of a written block. -/
def FileBlock.blobHeader (z : Zlib) (c : CompressionType) (b : FileBlock) : Pb.BlobHeader :=
  ⟨b.payload.1, none, Int32.ofNat (b.serialize z c).2.length⟩

theorem serialize_fst (z : Zlib) (c : CompressionType) (b : FileBlock) :
    (b.serialize z c).1 = (b.blobHeader z c).encode := rfl

/-- The block is not empty and sizes fit `i32`. -/
structure BlockOk (z : Zlib) (c : CompressionType) (b : FileBlock) : Prop where
  nonempty : b.payload.2.2 ≠ []
  size : b.payload.2.2.length < 2 ^ 31
  body : (b.serialize z c).2.length < 2 ^ 31

theorem BlockOk.frame {z : Zlib} {c : CompressionType} {b : FileBlock} (h : BlockOk z c b) :
    FrameOk (b.blobHeader z c) (b.serialize z c).2 :=
  ⟨blobHeader_length _ (by cases b <;> simp only [FileBlock.payload] <;> decide) _, h.body, rfl⟩

theorem new_payload (b : FileBlock) (hs : b.payload.2.2.length < 2 ^ 31) :
    FileBlock.new b.payload.1 b.payload.2.2 = .ok b.readBack := by
  cases b with
  | header i =>
    simp only [FileBlock.payload] at hs
    have : parseHeader (serializeHeader i) = .ok (fromHeaderBlock (toHeaderBlock i)) := by
      unfold parseHeader serializeHeader Pb.HeaderBlock.decode
      rw [Pb.HeaderBlock.merge_encode _ (lt_trans hs (by norm_num))]
    simp [FileBlock.new, FileBlock.payload, this, FileBlock.readBack]
  | data es =>
    simp only [FileBlock.payload] at hs
    simp [FileBlock.new, FileBlock.payload, parse_serialize es hs, FileBlock.readBack]

theorem readBlobData_blob (z : Zlib) (hz : z.Lossless) (c : CompressionType) (level : Bool) (data : Bytes) (hne : data ≠ [])
    (hs : data.length < 2 ^ 31) : readBlobData z (FileBlock.blob z c level data) = .ok data := by
  have he : data.isEmpty = false := by simp [hne]
  cases c with
  | uncompressed => simp [FileBlock.blob, he, readBlobData]
  | zlib =>
    have e : z.stream (z.deflate level data) = data := hz level data
    simp only [FileBlock.blob, he, readBlobData, zlibDecode, not_neg32 hs, e, toInt_ofNat32 hs, Int.toNat_natCast, if_false,
      Out.unwrap_some, Out.ok_bind, lt_irrefl, List.take_length, Bool.false_eq_true]

theorem deserialize_serialize (z : Zlib) (hz : z.Lossless) (c : CompressionType) (b : FileBlock) (h : BlockOk z c b) :
    FileBlock.deserialize z b.payload.1 (b.serialize z c).2 = .ok b.readBack := by
  unfold FileBlock.deserialize
  have e : (b.serialize z c).2 = (FileBlock.blob z c b.payload.2.1 b.payload.2.2).encode := rfl
  have hb := h.body
  rw [e] at hb ⊢
  rw [Pb.Blob.decode_encode _ (lt_trans hb (by norm_num))]
  simp only [readBlobData_blob z hz c _ _ h.nonempty h.size, Out.ok_bind]
  exact new_payload b h.size

theorem nextBlock_frame {z : Zlib} (hz : z.Lossless) {c : CompressionType} {b : FileBlock} (ok : BlockOk z c b)
    {file pre post : Bytes} (hf : file = pre ++ (blobBytes (b.serialize z c).1 (b.serialize z c).2 ++ post))
    {it : BlobIter} (hp : it.pos + it.jump = pre.length) :
    ∃ it', nextBlock z file it = .ok (some (b.readBack, it')) ∧
      it'.pos + it'.jump = (pre ++ blobBytes (b.serialize z c).1 (b.serialize z c).2).length := by
  have hn := next_frame ok.frame (pre := pre) (post := post) (file := file) (by rw [hf]; rfl) hp
  rw [← serialize_fst] at hn
  unfold nextBlock
  rw [hn]
  refine ⟨⟨pre.length + 4 + (b.serialize z c).1.length, (b.serialize z c).2.length, it.index + 1⟩, ?_, ?_⟩
  · have hr : readAt file (pre.length + 4 + (b.serialize z c).1.length) (b.serialize z c).2.length =
        some (b.serialize z c).2 := by
      refine readAt_append' (pre := pre ++ (beBytes (Int32.ofNat (b.serialize z c).1.length) ++ (b.serialize z c).1))
        (post := post) ?_ ?_ rfl
      · rw [hf]; simp [blobBytes]
      · simp [beBytes_length]; omega
    have hlt : ¬ 2 ^ 63 ≤ (b.serialize z c).2.length := by have := ok.body; omega
    simp only [FileBlock.fromBlobDesc, hlt, if_false, hr, FileBlock.blobHeader, deserialize_serialize z hz c b ok]
  · simp [blobBytes_length]; omega

theorem takeBlocks_written {z : Zlib} (hz : z.Lossless) {c : CompressionType} (bs : List FileBlock)
    (ok : ∀ b ∈ bs, BlockOk z c b) {file : Bytes} (pre : Bytes) (hf : file = pre ++ blockBytes z c bs)
    (it : BlobIter) (hp : it.pos + it.jump = pre.length) (fuel : Nat) (hfuel : bs.length < fuel) :
    takeBlocks z file fuel it = (bs.map FileBlock.readBack, .done) := by
  induction bs generalizing pre it fuel with
  | nil =>
    obtain _ | fuel := fuel
    · simp at hfuel
    · have := next_end (file := file) (it := it) (by rw [hp, hf]; simp [blockBytes])
      simp [takeBlocks, nextBlock, this]
  | cons b bs ih =>
    obtain _ | fuel := fuel
    · simp at hfuel
    · obtain ⟨it', hn, hp'⟩ := nextBlock_frame hz (ok b (by simp)) (file := file) (pre := pre) (post := blockBytes z c bs)
        (by rw [hf]; simp [blockBytes]) hp
      have := ih (fun b hb => ok b (by simp [hb])) (pre ++ blobBytes (b.serialize z c).1 (b.serialize z c).2)
        (by rw [hf]; simp [blockBytes]) it' hp' fuel (by simpa using hfuel)
      simp [takeBlocks, hn, this]

end OsmIo
