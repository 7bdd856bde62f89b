import Verif.Lemmas.ProtobufRead
import Verif.Lemmas.Format
import Verif.Lemmas.Reader
import Verif.Spec.FormatFile
import Verif.Props.Format
/-! # Reading files as published -/
set_option linter.unusedSimpArgs false
set_option linter.unusedVariables false
set_option linter.flexible false
namespace OsmIo
open Wire Spec Spec.Protobuf

/-! ## Blobs -/

theorem Blob.commutes (k : Nat) (hk : k = 1 ∨ k = 3) : Commutes (fun t => t ∉ [1, 3, 4, 5, 6, 7] ∨ t = k) Pb.Blob.step := by
  intro m f g hf hg h
  obtain ⟨t, v⟩ := f
  obtain ⟨s, w⟩ := g
  simp only [ne_eq] at h
  simp only at hf hg
  simp only [Pb.Blob.step]
  split <;> split <;> first
    | exact absurd rfl h
    | exact Option.bind_fun_some _
    | exact (Option.bind_fun_some _).symm
    | rfl
    | (exfalso; simp at hf hg; omega)
    | (apply comm_mm m; intros; rfl)

theorem mem_raw_tag {fs : List (Nat × Item)} {raw : List Field} (h : List.Forall₂ RawField fs raw) {t : Nat} (h0 : numbered t fs = [])
    {f : Field} (hf : f ∈ raw) : f.tag ≠ t := by
  have := seg_raw h t
  rw [h0] at this
  intro e
  have hm : f ∈ seg t raw := by simp [seg, hf, e]
  generalize seg t raw = s at *
  cases this
  simp at hm

theorem Blob.decode_raw {data b : Bytes} (h : IsRawBlob data b) :
    ∃ r, Pb.Blob.decode b = some { raw_size := r, data := some (.raw data) } := by
  obtain ⟨fs, hf, h1, ⟨o, ns, h2, h2'⟩, h0⟩ := h
  obtain ⟨raw, hp, hr⟩ := parse_of 100 hf
  refine ⟨(ns.getLast?.map fun n => toInt32 (twos n)), ?_⟩
  rw [Pb.Blob.decode, hp, Option.bind_some]
  rw [foldlM_by_tags (Blob.commutes 1 (.inl rfl)) [1, 2] (by decide) raw (by
      intro f hf
      have := fun t ht => mem_raw_tag hr (h0 t ht) hf
      simp at this ⊢
      omega) (by
    intro f hP hf m
    obtain ⟨t, v⟩ := f
    simp only [Pb.Blob.step]
    simp only [List.mem_cons, List.not_mem_nil, or_false] at hf hP
    split <;> first | rfl | (exfalso; omega)) {}]
  simp only [List.flatMap_cons, List.flatMap_nil, List.append_nil, List.foldlM_append]
  rw [seg_optBytes hr (some data) h1 (fun x m => { m with data := some (.raw x) }) (fun _ _ => rfl) (fun _ _ _ => rfl)]
  simp only [Option.bind_eq_bind, Option.bind_some]
  have hs := seg_raw hr 2
  rw [h2] at hs
  rw [seg_last hs (fun x m => { m with raw_size := some x }) (fun n => toInt32 (twos n))
    (fun a b v hv _ => by cases hv; rfl) (fun _ _ _ => rfl)]
  cases ns.getLast? <;> rfl

theorem Blob.decode_zlib_sized {size : Option Int32} {fs : List (Nat × Item)} {c b : Bytes} (hf : Fields fs b)
    (h2 : OptInt 2 fs (size.map Int32.toInt)) (h3 : OptBytes 3 fs (some c)) (h0 : ∀ t ∈ [1, 4, 5, 6, 7], numbered t fs = []) :
    Pb.Blob.decode b = some { raw_size := size, data := some (.zlib c) } := by
  obtain ⟨raw, hp, hr⟩ := parse_of 100 hf
  rw [Pb.Blob.decode, hp, Option.bind_some]
  rw [foldlM_by_tags (Blob.commutes 3 (.inr rfl)) [2, 3] (by decide) raw (by
      intro f hf
      have := fun t ht => mem_raw_tag hr (h0 t ht) hf
      simp at this ⊢
      omega) (by
    intro f hP hf m
    obtain ⟨t, v⟩ := f
    simp only [Pb.Blob.step]
    simp only [List.mem_cons, List.not_mem_nil, or_false] at hf hP
    split <;> first | rfl | (exfalso; omega)) {}]
  simp only [List.flatMap_cons, List.flatMap_nil, List.append_nil, List.foldlM_append]
  rw [seg_optInt hr Int32.toInt toInt32 toInt32_twos size h2 (fun x m => { m with raw_size := some x }) (fun _ _ => rfl)
    (fun _ _ _ => rfl)]
  simp only [Option.bind_eq_bind, Option.bind_some]
  rw [seg_optBytes hr (some c) h3 (fun x m => { m with data := some (.zlib x) }) (fun _ _ => rfl) (fun _ _ _ => rfl)]
  cases size <;> rfl

theorem Blob.decode_zlib {n : Nat} {c b : Bytes} (hn : n < 2 ^ 31) (h : IsZlibBlob n c b) :
    Pb.Blob.decode b = some { raw_size := some (Int32.ofNat n), data := some (.zlib c) } := by
  obtain ⟨fs, hf, h2, h3, h0⟩ := h
  have hn' : ((n : ℕ) : ℤ) = (Int32.ofNat n).toInt := (toInt_ofNat32 hn).symm
  rw [ReqInt, hn'] at h2
  exact Blob.decode_zlib_sized (size := some _) hf h2 h3 h0

/-- The decoder implements the zlib format. -/
def Decodes (z : Zlib) (inflates : Format.Inflates) : Prop := ∀ c d, inflates c d → z.stream c = d

theorem readBlob_of {z : Zlib} {inflates : Format.Inflates} (hz : Decodes z inflates) {data b : Bytes} (h : Format.IsBlob inflates data b)
    (t : String) : FileBlock.deserialize z t b = FileBlock.new t data := by
  obtain ⟨hl, h | ⟨c, hc, h⟩⟩ := h
  · obtain ⟨r, h⟩ := Blob.decode_raw h
    simp [FileBlock.deserialize, h, readBlobData]
  · have hn : ¬ Int32.ofNat data.length < 0 := not_neg32 hl
    have hd : zlibDecode z c (Int32.ofNat data.length) = .ok data := by
      rw [zlibDecode, if_neg hn, hz c data hc, toInt_ofNat32 hl, Int.toNat_natCast, if_neg (by omega), List.take_length]
    simp [FileBlock.deserialize, Blob.decode_zlib hl h, readBlobData, Out.unwrap, hd]

/-! ## Frames -/

theorem ofBeBytes_value (a b c d : UInt8) (n : Nat) (h : a.toNat * 2 ^ 24 + b.toNat * 2 ^ 16 + c.toNat * 2 ^ 8 + d.toNat = n) (hn : n < 2 ^ 31) :
    ofBeBytes a b c d = Int32.ofNat n := by
  have ha := a.toNat_lt
  have hb := b.toNat_lt
  have hc := c.toNat_lt
  have hd := d.toNat_lt
  have hu : (Int32.ofNat n).toUInt32.toNat = n := by
    show (UInt32.ofNat n).toNat = n
    exact UInt32.toNat_ofNat_of_lt' (by show n < 2 ^ 32; omega)
  rw [← ofBe_be (Int32.ofNat n)]
  generalize (Int32.ofNat n).toUInt32 = u at *
  have ea : a = (u >>> 24).toUInt8 := by
    apply UInt8.toNat_inj.mp
    simp [UInt32.toNat_shiftRight, hu, Nat.shiftRight_eq_div_pow]; omega
  have eb : b = (u >>> 16).toUInt8 := by
    apply UInt8.toNat_inj.mp
    simp [UInt32.toNat_shiftRight, hu, Nat.shiftRight_eq_div_pow]; omega
  have ec : c = (u >>> 8).toUInt8 := by
    apply UInt8.toNat_inj.mp
    simp [UInt32.toNat_shiftRight, hu, Nat.shiftRight_eq_div_pow]; omega
  have ed : d = u.toUInt8 := by
    apply UInt8.toNat_inj.mp
    simp [hu]; omega
  rw [← ea, ← eb, ← ec, ← ed]

theorem datasize_of {i : Int32} {n : Nat} (h : i.toInt = n) : n < 2 ^ 31 ∧ i = Int32.ofNat n := by
  have h3 : i.toInt < 2 ^ 31 := Int32.toInt_lt i
  have hn : n < 2 ^ 31 := by omega
  exact ⟨hn, Int32.toInt_inj.mp (by rw [toInt_ofNat32 hn, h])⟩

theorem next_frameOf {t : String} {blob b : Bytes} (h : Format.IsFrameOf t blob b)
    {file pre post : Bytes} (hf : file = pre ++ (b ++ post)) {it : BlobIter} (hp : it.pos + it.jump = pre.length) :
    ∃ d it', it.next file = .ok (some (d, it')) ∧ d.t = t ∧ d.index = it.index ∧ it'.index = it.index + 1 ∧
      it'.pos + it'.jump = (pre ++ b).length ∧ d.start + d.length = (pre ++ b).length ∧
      readAt file d.start d.length = some blob ∧ d.length < 2 ^ 31 := by
  obtain ⟨b3, b2, b1, b0, header, hd, rfl, hlen, hl, hh, rfl, hs⟩ := h
  obtain ⟨hbl, hds⟩ := datasize_of hs
  have e1 : readAt file pre.length 4 = some [b3, b2, b1, b0] := by
    refine readAt_append' (post := header ++ (blob ++ post)) ?_ rfl rfl
    rw [hf]; simp
  have e2 : readAt file (pre.length + 4) header.length = some header := by
    refine readAt_append' (pre := pre ++ [b3, b2, b1, b0]) (post := blob ++ post) ?_ ?_ rfl
    · rw [hf]; simp
    · simp
  have e3 : readAt file (pre.length + 4 + header.length) blob.length = some blob := by
    refine readAt_append' (pre := pre ++ [b3, b2, b1, b0] ++ header) (post := post) ?_ ?_ rfl
    · rw [hf]; simp
    · simp; omega
  have hpn : (it.pos + it.jump : Int).toNat = pre.length := by rw [hp]; simp
  have hneg : ¬ (it.pos + it.jump : Int) < 0 := by rw [hp]; omega
  refine ⟨⟨it.index, pre.length + 4 + header.length, blob.length, hd.type⟩, ⟨pre.length + 4 + header.length, blob.length, it.index + 1⟩,
    ?_, rfl, rfl, rfl, ?_, ?_, e3, hbl⟩
  · unfold BlobIter.next
    simp only [hneg, if_false, hpn, e1, ofBeBytes_value b3 b2 b1 b0 _ hlen hl, not_neg32 hl, toInt_ofNat32 hl, Int.toNat_natCast, e2,
      BlobHeader.decode_of hh]
    rw [hds, datasize_nat hbl, toInt_ofNat32 hbl]
  · simp; omega
  · simp; omega

theorem next_published {inflates : Format.Inflates} {t : String} {data b : Bytes} (h : Format.IsFrame inflates t data b)
    {file pre post : Bytes} (hf : file = pre ++ (b ++ post)) {it : BlobIter} (hp : it.pos + it.jump = pre.length) :
    ∃ d it' blob, it.next file = .ok (some (d, it')) ∧ d.t = t ∧ d.index = it.index ∧ it'.index = it.index + 1 ∧
      it'.pos + it'.jump = (pre ++ b).length ∧ d.start + d.length = (pre ++ b).length ∧
      readAt file d.start d.length = some blob ∧ d.length < 2 ^ 31 ∧ Format.IsBlob inflates data blob := by
  obtain ⟨b3, b2, b1, b0, header, blob, hd, rfl, hlen, hl, hh, rfl, hs, hb⟩ := h
  obtain ⟨d, it', h1, h2, h3, h4, h5, h6, h7, h8⟩ := next_frameOf (t := hd.type) (blob := blob)
    ⟨b3, b2, b1, b0, header, hd, rfl, hlen, hl, hh, rfl, hs⟩ hf hp
  exact ⟨d, it', blob, h1, h2, h3, h4, h5, h6, h7, h8, hb⟩

theorem nextBlock_published {z : Zlib} {inflates : Format.Inflates} (hz : Decodes z inflates) {t : String} {data b : Bytes}
    (h : Format.IsFrame inflates t data b) {fb : FileBlock} (hn : FileBlock.new t data = .ok fb)
    {file pre post : Bytes} (hf : file = pre ++ (b ++ post)) {it : BlobIter} (hp : it.pos + it.jump = pre.length) :
    ∃ it', nextBlock z file it = .ok (some (fb, it')) ∧ it'.pos + it'.jump = (pre ++ b).length := by
  obtain ⟨d, it', blob, h1, h2, _, _, h3, _, h4, h5, h6⟩ := next_published h hf hp
  refine ⟨it', ?_, h3⟩
  have hlt : ¬ 2 ^ 63 ≤ d.length := by omega
  simp only [nextBlock, h1, FileBlock.fromBlobDesc, hlt, if_false, h4, readBlob_of hz h6, h2, hn]

/-! ## Blocks -/

theorem fromNanodeg_of {n : Int64} {c : F64} (h : Format.Degrees n.toInt c) : fromNanodeg n = c := by
  obtain ⟨h1, rfl⟩ := h
  rw [fromNanodeg, F64.ofI64_eq _ h1, F64.div]
  norm_num

theorem header_of {h : Pb.HeaderBlock} {i : FileInfo} (hh : Format.Header h i) : fromHeaderBlock h = i := by
  obtain ⟨hb, h1, h2, h3, h4, h5, h6, h7⟩ := hh
  obtain ⟨a1, a2, a3, a4, a5, a6, a7, a8⟩ := i
  simp only at h1 h2 h3 h4 h5 h6 h7
  subst h1 h2 h3 h4 h5 h6 h7
  obtain ⟨c, _⟩ := h
  cases c with
  | none => simp at hb; subst hb; rfl
  | some c =>
    obtain ⟨box, hbox, k1, k2, k3, k4⟩ := hb
    simp only at hbox
    subst hbox
    simp [fromHeaderBlock, fromNanodeg_of k1, fromNanodeg_of k2, fromNanodeg_of k3, fromNanodeg_of k4]

theorem new_header_of {data : Bytes} {h : Pb.HeaderBlock} {i : FileInfo} (hd : IsHeaderBlock h data) (hh : Format.Header h i) :
    FileBlock.new "OSMHeader" data = .ok (.header i) := by
  simp [FileBlock.new, parseHeader, HeaderBlock.decode_of hd, header_of hh]

theorem new_data_of {data : Bytes} {p : Pb.PrimitiveBlock} {es : List Element} (hd : IsPrimitiveBlock p data) (hh : Format.Block p es) :
    FileBlock.new "OSMData" data = .ok (.data es) := by
  simp [FileBlock.new, parseData, PrimitiveBlock.decode_of hd, C55_block_read_as_published p es hh]

theorem takeBlocks_published {z : Zlib} {inflates : Format.Inflates} (hz : Decodes z inflates) {blocks : List (List Element)} {frames : List Bytes}
    (h : List.Forall₂ (Format.IsDataFrame inflates) blocks frames) {file : Bytes} (pre : Bytes) (hf : file = pre ++ frames.flatten)
    (it : BlobIter) (hp : it.pos + it.jump = pre.length) (fuel : Nat) (hfuel : blocks.length < fuel) :
    takeBlocks z file fuel it = (blocks.map .data, .done) := by
  induction h generalizing pre it fuel with
  | nil =>
    obtain _ | fuel := fuel
    · simp at hfuel
    · have := next_end (file := file) (it := it) (by rw [hp, hf]; simp)
      simp [takeBlocks, nextBlock, this]
  | @cons es b blocks frames hb _ ih =>
    obtain _ | fuel := fuel
    · simp at hfuel
    · obtain ⟨data, p, h1, h2, h3⟩ := hb
      obtain ⟨it', hn, hp'⟩ := nextBlock_published hz h1 (new_data_of h2 h3) (file := file) (pre := pre) (post := frames.flatten)
        (by rw [hf]; simp) hp
      have := ih (pre ++ b) (by rw [hf]; simp) it' hp' fuel (by simpa using hfuel)
      simp [takeBlocks, hn, this]

theorem file_published {z : Zlib} {inflates : Format.Inflates} (hz : Decodes z inflates) {i : FileInfo} {blocks : List (List Element)}
    {file : Bytes} (h : Format.IsFile inflates i blocks file) (fuel : Nat) (hfuel : blocks.length + 1 < fuel) :
    takeBlocks z file fuel {} = (.header i :: blocks.map .data, .done) ∧ ∃ it, nextBlock z file {} = .ok (some (.header i, it)) := by
  obtain ⟨head, frames, rfl, ⟨data, hd, h1, h2, h3⟩, h4⟩ := h
  obtain _ | fuel := fuel
  · simp at hfuel
  · obtain ⟨it', hn, hp'⟩ := nextBlock_published hz h1 (new_header_of h2 h3) (file := head ++ frames.flatten) (pre := []) (post := frames.flatten)
      (by simp) (it := {}) (by simp)
    have := takeBlocks_published hz h4 (file := head ++ frames.flatten) head rfl it' (by simpa using hp') fuel (by omega)
    exact ⟨by simp [takeBlocks, hn, this], it', hn⟩

theorem stream_blocks (blocks : List (List Element)) : stream (blocks.map FileBlock.data) .done = (blocks.flatten, .done) := by
  induction blocks with
  | nil => rfl
  | cons b bs ih => simp [stream, ih]

end OsmIo
