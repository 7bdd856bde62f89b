import Verif.Props.Crash
/-! # C10: exactly what is read of a file cut inside a block -/
set_option linter.unusedSimpArgs false
namespace OsmIo
open Wire Spec

theorem readAt_short {file : Bytes} {p n : Nat} (h : file.length < p + n) : readAt file p n = none := by
  unfold readAt; rw [if_pos h]

theorem blobIter_next_cut {file pre body : Bytes} {h : Pb.BlobHeader} (ok : FrameOk h body) {j : Nat}
    (hj : j < 4 + h.encode.length) (hf : file = pre ++ (blobBytes h.encode body).take j) {it : BlobIter}
    (hp : it.pos + it.jump = pre.length) : it.next file = .ok none := by
  have hlen : file.length = pre.length + j := by
    rw [hf, List.length_append, List.length_take, blobBytes_length]; omega
  unfold BlobIter.next
  have hpn : (it.pos + it.jump : Int).toNat = pre.length := by rw [hp]; simp
  have hneg : ¬ (it.pos + it.jump : Int) < 0 := by rw [hp]; omega
  simp only [hneg, if_false, hpn]
  by_cases h4 : j < 4
  · rw [readAt_short (by omega)]
  · have e1 : readAt file pre.length 4 = some (beBytes (Int32.ofNat h.encode.length)) := by
      refine readAt_append' (post := (h.encode ++ body).take (j - 4)) ?_ rfl rfl
      rw [hf, blobBytes, List.append_assoc, List.take_append, List.take_of_length_le (by rw [beBytes_length]; omega), beBytes_length]
    simp only [e1]
    simp only [beBytes, ofBe_be, not_neg32 ok.header_len, if_false, toInt_ofNat32 ok.header_len, Int.toNat_natCast]
    rw [readAt_short (by omega)]

theorem nextBlock_cut {z : Zlib} {c : CompressionType} {b : FileBlock} (ok : BlockOk z c b) {file pre : Bytes} {j : Nat}
    (hf : file = pre ++ (blobBytes (b.serialize z c).1 (b.serialize z c).2).take j)
    (hj : j < (blobBytes (b.serialize z c).1 (b.serialize z c).2).length) {it : BlobIter} (hp : it.pos + it.jump = pre.length) :
    nextBlock z file it = if j < 4 + (b.serialize z c).1.length then .ok none else .panic := by
  rw [blobBytes_length] at hj
  split
  · rename_i h
    unfold nextBlock
    rw [blobIter_next_cut ok.frame (by rw [← serialize_fst]; exact h) (by rw [hf]; rfl) hp]
  · rename_i h
    have hn := next_frame (file := file ++ (b.serialize z c).2.drop (j - (4 + (b.serialize z c).1.length))) ok.frame (pre := pre) (post := [])
      (by
        rw [hf, List.append_nil, List.append_assoc, ← serialize_fst, blobBytes]
        rw [List.take_append, List.take_of_length_le (by rw [List.length_append, beBytes_length]; omega), List.length_append, beBytes_length]
        simp) hp
    have hlen : file.length = pre.length + j := by
      rw [hf, List.length_append, List.length_take, blobBytes_length]; omega
    have hn' : it.next file = .ok (some (⟨it.index, pre.length + 4 + (b.blobHeader z c).encode.length, (b.serialize z c).2.length,
        (b.blobHeader z c).type⟩, ⟨pre.length + 4 + (b.blobHeader z c).encode.length, (b.serialize z c).2.length, it.index + 1⟩)) := by
      have := ok.frame
      rw [← hn]
      unfold BlobIter.next
      have hpn : (it.pos + it.jump : Int).toNat = pre.length := by rw [hp]; simp
      have hneg : ¬ (it.pos + it.jump : Int) < 0 := by rw [hp]; omega
      simp only [hneg, if_false, hpn]
      have h0 : ∀ (p n : Nat) (more : Bytes), p + n ≤ file.length → readAt (file ++ more) p n = readAt file p n := by
        intro p n more h
        unfold readAt
        rw [if_neg (by simp; omega), if_neg (by omega), List.drop_append_of_le_length (by omega),
          List.take_append_of_le_length (by simp; omega)]
      rw [h0 _ _ _ (by omega)]
      have e1 : readAt file pre.length 4 = some (beBytes (Int32.ofNat (b.serialize z c).1.length)) := by
        refine readAt_append' (post := ((b.serialize z c).1 ++ (b.serialize z c).2).take (j - 4)) ?_ rfl rfl
        rw [hf, blobBytes, List.append_assoc, List.take_append, List.take_of_length_le (by rw [beBytes_length]; omega), beBytes_length]
      have hl := this.header_len
      rw [← serialize_fst] at hl
      simp only [e1]
      simp only [beBytes, ofBe_be, not_neg32 hl, if_false, toInt_ofNat32 hl, Int.toNat_natCast]
      rw [h0 _ _ _ (by omega)]
    unfold nextBlock
    rw [hn']
    have hlt : ¬ 2 ^ 63 ≤ (b.serialize z c).2.length := by have := ok.body; omega
    rw [← serialize_fst]
    simp only [FileBlock.fromBlobDesc, hlt, if_false]
    rw [readAt_short (by omega)]

theorem takeBlocks_cut {z : Zlib} (hz : z.Lossless) {c : CompressionType} (bs : List FileBlock) {b : FileBlock}
    (ok : ∀ b ∈ bs, BlockOk z c b) (okb : BlockOk z c b) {file : Bytes} (pre : Bytes) {j : Nat}
    (hf : file = pre ++ (blockBytes z c bs ++ (blobBytes (b.serialize z c).1 (b.serialize z c).2).take j))
    (hj : j < (blobBytes (b.serialize z c).1 (b.serialize z c).2).length)
    (it : BlobIter) (hp : it.pos + it.jump = pre.length) (fuel : Nat) (hfuel : bs.length < fuel) :
    takeBlocks z file fuel it = (bs.map FileBlock.readBack, if j < 4 + (b.serialize z c).1.length then .done else .panic) := by
  induction bs generalizing pre it fuel with
  | nil =>
    obtain _ | fuel := fuel
    · simp at hfuel
    · have := nextBlock_cut okb (file := file) (pre := pre) (by rw [hf]; simp [blockBytes]) hj hp
      unfold takeBlocks
      rw [this]
      by_cases h : j < 4 + (b.serialize z c).1.length
      · simp only [if_pos h]; rfl
      · simp only [if_neg h]; rfl
  | cons a bs ih =>
    obtain _ | fuel := fuel
    · simp at hfuel
    · obtain ⟨it', hn, hp'⟩ := nextBlock_frame hz (ok a (by simp)) (file := file) (pre := pre)
        (post := blockBytes z c bs ++ (blobBytes (b.serialize z c).1 (b.serialize z c).2).take j)
        (by rw [hf]; simp [blockBytes]) hp
      have := ih (fun x hx => ok x (by simp [hx])) (pre ++ blobBytes (a.serialize z c).1 (a.serialize z c).2)
        (by rw [hf]; simp [blockBytes]) it' hp' fuel (by simpa using hfuel)
      unfold takeBlocks
      rw [hn]
      simp only [this, List.map_cons]

/-- C10. Exactly what is read of a written file that ends inside the block `b`, after the whole blocks `first` and `j` bytes more:
the elements of `first`; then, if the cut is inside the frame or the blob header, iteration ends as if the file were whole, and if it
is inside the blob, it panics. -/
theorem C10_exact (z : Zlib) (hz : z.Lossless) (c : CompressionType) (info : FileInfo) (first rest : List (List Element)) (b : List Element)
    (hn : ¬ EmptyInfo info) (hh : HeaderFits z c info) (hg : ∀ l ∈ first ++ b :: rest, Homogeneous l)
    (hfit : ∀ l ∈ first ++ b :: rest, Fits z c l) (hx : ∀ l ∈ first ++ b :: rest, ∀ e ∈ l, Exact e) (k : Nat)
    (h1 : (blockBytes z c (.header info :: first.map .data)).length ≤ k)
    (h2 : k < (blockBytes z c (.header info :: (first ++ [b]).map .data)).length) (es : List Element) (r : End) :
    ReadsElements z ((blockBytes z c (.header info :: (first ++ b :: rest).map .data)).take k) es r ↔
      es = first.flatten ∧ r = if k < (blockBytes z c (.header info :: first.map .data)).length + 4 + ((FileBlock.data b).serialize z c).1.length
        then .done else .panic := by
  have okd : ∀ l ∈ first ++ b :: rest, BlockOk z c (.data l) := fun l hl => ⟨serializeData_ne_nil l, (hfit l hl).1, (hfit l hl).2⟩
  have ok : ∀ x ∈ FileBlock.header info :: first.map .data, BlockOk z c x := by
    intro x hxx
    simp only [List.mem_cons, List.mem_map] at hxx
    rcases hxx with rfl | ⟨l, hl, rfl⟩
    · exact headerOk hn hh
    · exact okd l (by simp [hl])
  have e0 : blockBytes z c (.header info :: (first ++ b :: rest).map .data) = blockBytes z c (.header info :: first.map .data) ++
      (blobBytes ((FileBlock.data b).serialize z c).1 ((FileBlock.data b).serialize z c).2 ++ blockBytes z c (rest.map .data)) := by
    simp [blockBytes]
  have e1 : blockBytes z c (.header info :: (first ++ [b]).map .data) = blockBytes z c (.header info :: first.map .data) ++
      blobBytes ((FileBlock.data b).serialize z c).1 ((FileBlock.data b).serialize z c).2 := by
    simp [blockBytes]
  rw [e1, List.length_append] at h2
  obtain ⟨j, rfl⟩ := Nat.exists_eq_add_of_le h1
  have e2 : (blockBytes z c (.header info :: (first ++ b :: rest).map .data)).take
      ((blockBytes z c (.header info :: first.map .data)).length + j) = [] ++ (blockBytes z c (.header info :: first.map .data) ++
      (blobBytes ((FileBlock.data b).serialize z c).1 ((FileBlock.data b).serialize z c).2).take j) := by
    rw [e0, List.take_length_add_append, List.take_append_of_le_length (by omega), List.nil_append]
  have ht := takeBlocks_cut hz (FileBlock.header info :: first.map .data) ok (okd b (by simp)) [] e2 (by omega) {} (by simp)
    (first.length + 2) (by simp)
  rw [reads_iff ht (by split <;> simp)]
  have hs : ∀ (l : List (List Element)) (e : End), (∀ x ∈ l, Homogeneous x) → (∀ x ∈ l, ∀ e ∈ x, Exact e) →
      stream ((l.map FileBlock.data).map FileBlock.readBack) e = (l.flatten, e) := by
    intro l e hl hxl
    induction l with
    | nil => rfl
    | cons x l ih =>
      have := ih (fun y hy => hl y (by simp [hy])) fun y hy => hxl y (by simp [hy])
      simp only [List.map_cons, FileBlock.readBack, stream, kept_homogeneous (hl x (by simp)), map_quant_exact (hxl x (by simp)), this,
        List.flatten_cons]
  simp only [List.map_cons, streamAll, FileBlock.readBack]
  rw [hs _ _ (fun l hl => hg l (by simp [hl])) fun l hl => hx l (by simp [hl])]
  rw [Prod.mk.injEq]
  simp only [Nat.add_assoc, Nat.add_lt_add_iff_left]

/-- C10. A written file cut inside its header block is refused: with an error if the cut is inside the frame or the blob header,
by a panic if it is inside the blob. -/
theorem C10_open_exact (z : Zlib) (c : CompressionType) (info : FileInfo) (blocks : List (List Element)) (hn : ¬ EmptyInfo info)
    (hh : HeaderFits z c info) (k : Nat) (hk : k < (blockBytes z c [.header info]).length) :
    openReader z ((blockBytes z c (.header info :: blocks.map .data)).take k) =
      if k < 4 + ((FileBlock.header info).serialize z c).1.length then .err else .panic := by
  have e : blockBytes z c [.header info] = blobBytes ((FileBlock.header info).serialize z c).1 ((FileBlock.header info).serialize z c).2 := by
    simp [blockBytes]
  rw [e] at hk
  have e0 : blockBytes z c (.header info :: blocks.map .data) =
      blobBytes ((FileBlock.header info).serialize z c).1 ((FileBlock.header info).serialize z c).2 ++ blockBytes z c (blocks.map .data) := by
    simp [blockBytes]
  have := nextBlock_cut (z := z) (c := c) (headerOk hn hh) (file := (blockBytes z c (.header info :: blocks.map .data)).take k) (pre := [])
    (j := k) (by rw [e0, List.take_append_of_le_length (by omega)]; rfl) hk (it := {}) (by simp)
  unfold openReader
  rw [this]
  by_cases h : k < 4 + ((FileBlock.header info).serialize z c).1.length
  · simp only [if_pos h]
  · simp only [if_neg h]

/-- The hypotheses of C10_exact are met by a file of a header and three blocks, cut inside the second one: after 5 bytes of it,
iteration ends as if the file were whole. -/
example : ∃ k, ReadsElements exZ ((blockBytes exZ .zlib (.header exInfo :: [[Element.node exNode], [.way exWay],
    [.relation exRelation]].map .data)).take k) [.node exNode] .done := by
  refine ⟨(blockBytes exZ .zlib (.header exInfo :: [[Element.node exNode]].map .data)).length + 5, ?_⟩
  have hom : ∀ l ∈ [[Element.node exNode]] ++ [.way exWay] :: [[.relation exRelation]], Homogeneous l ∧ ∀ e ∈ l, Exact e := by
    intro l hl
    simp only [List.mem_cons, List.not_mem_nil, or_false, List.cons_append, List.nil_append] at hl
    rcases hl with rfl | rfl | rfl
    · exact ⟨.inl (by simp), by simpa using exNode_exact⟩
    · exact ⟨.inr (.inl (by simp)), by simpa using exWay_exact⟩
    · exact ⟨.inr (.inr (by simp)), by simpa using exRelation_exact⟩
  refine (C10_exact exZ exZ_lossless .zlib exInfo [[.node exNode]] [[.relation exRelation]] [.way exWay] exInfo_nonempty exInfo_fits
    (fun l hl => (hom l hl).1) (by unfold Fits; decide +kernel) (fun l hl => (hom l hl).2) _ (by omega) (by decide +kernel) _ _).mpr ⟨rfl, ?_⟩
  rw [if_pos (by decide +kernel)]

end OsmIo
