import Verif.Lemmas.File
/-! # Reading: progress, determinism, truncation -/
set_option linter.unusedSimpArgs false
set_option linter.flexible false
namespace OsmIo
open Wire

/-- Everything a successful `next` tells. -/
structure NextOk (file : Bytes) (it : BlobIter) (d : BlobDesc) (it' : BlobIter) (h : Pb.BlobHeader) : Prop where
  nonneg : 0 ≤ it.pos + it.jump
  room : it'.pos ≤ file.length
  pos : it.pos + it.jump + 4 ≤ it'.pos
  start : d.start = it'.pos
  jump : it'.jump = h.datasize.toInt
  length : d.length = h.datasize.toInt64.toUInt64.toNat
  index : d.index = it.index
  index' : it'.index = it.index + 1
  type : d.t = h.type

theorem readAt_some {file b : Bytes} {p n : Nat} (h : readAt file p n = some b) : p + n ≤ file.length := by
  unfold readAt at h
  split at h
  · simp at h
  · omega

theorem next_some {file : Bytes} {it : BlobIter} {d : BlobDesc} {it' : BlobIter}
    (hn : it.next file = .ok (some (d, it'))) : ∃ h, NextOk file it d it' h := by
  unfold BlobIter.next at hn
  simp only at hn
  split at hn
  · simp at hn
  · rename_i hneg
    split at hn
    · rename_i a b c d' hr
      split at hn
      · simp at hn
      · split at hn
        · simp at hn
        · rename_i hdr hr2
          split at hn
          · simp at hn
          · rename_i h hd
            simp only [Out.ok.injEq, Option.some.injEq, Prod.mk.injEq] at hn
            obtain ⟨rfl, rfl⟩ := hn
            have := readAt_some hr2
            refine ⟨h, ⟨by omega, by simpa using this, ?_, rfl, rfl, rfl, rfl, rfl, rfl⟩⟩
            simp only
            omega
    · simp at hn

theorem neg_length {i : Int32} (h : i.toInt < 0) : 2 ^ 63 ≤ i.toInt64.toUInt64.toNat := by
  have h1 : i.toInt64.toInt = i.toInt := Int32.toInt_toInt64 i
  have h2 : i.toInt64.toInt = if 2 * i.toInt64.toUInt64.toNat < 2 ^ 64 then (i.toInt64.toUInt64.toNat : Int)
      else i.toInt64.toUInt64.toNat - 2 ^ 64 := BitVec.toInt_eq_toNat_cond i.toInt64.toBitVec
  split at h2 <;> omega

theorem nonneg_length {i : Int32} (h : i.toInt64.toUInt64.toNat < 2 ^ 63) : 0 ≤ i.toInt := by
  by_contra hc
  have := neg_length (i := i) (by omega)
  omega

theorem pos_length {i : Int32} (h : 0 ≤ i.toInt) : i.toInt64.toUInt64.toNat = i.toInt.toNat := by
  have : i = Int32.ofNat i.toInt.toNat := by
    apply Int32.toInt_inj.mp
    have h3 : i.toInt < 2 ^ 31 := Int32.toInt_lt i
    rw [toInt_ofNat32 (by omega)]; omega
  have h3 : i.toInt < 2 ^ 31 := Int32.toInt_lt i
  rw [this, datasize_nat (by omega), ← this]

theorem nextBlock_some {z : Zlib} {file : Bytes} {it : BlobIter} {b : FileBlock} {it' : BlobIter}
    (hn : nextBlock z file it = .ok (some (b, it'))) :
    ∃ d, it.next file = .ok (some (d, it')) ∧ FileBlock.fromBlobDesc z file d = .ok b := by
  unfold nextBlock at hn
  split at hn
  · simp at hn
  · rename_i d it'' h
    split at hn
    · rename_i b' hb
      simp at hn; obtain ⟨rfl, rfl⟩ := hn
      exact ⟨d, h, hb⟩
    · simp at hn
  · simp at hn

/-- Reading a block moves on by at least four bytes, within the file. -/
theorem nextBlock_progress {z : Zlib} {file : Bytes} {it : BlobIter} {b : FileBlock} {it' : BlobIter}
    (hn : nextBlock z file it = .ok (some (b, it'))) :
    0 ≤ it.pos + it.jump ∧ it.pos + it.jump + 4 ≤ it'.pos + it'.jump ∧ it'.pos + it'.jump ≤ file.length := by
  obtain ⟨d, h, hb⟩ := nextBlock_some hn
  obtain ⟨hd, ok⟩ := next_some h
  unfold FileBlock.fromBlobDesc at hb
  split at hb
  · simp at hb
  · rename_i hlt
    split at hb
    · simp at hb
    · rename_i buf hr
      have h1 := readAt_some hr
      have h2 := nonneg_length (i := hd.datasize) (by rw [← ok.length]; omega)
      have h3 := pos_length h2
      have := ok.pos; have := ok.nonneg; have := ok.start; have := ok.length; have := ok.jump
      refine ⟨ok.nonneg, by omega, by omega⟩

theorem takeBlocks_ends (z : Zlib) (file : Bytes) (fuel : Nat) (it : BlobIter)
    (h : (file.length : Int) < it.pos + it.jump + 4 * fuel + 4) : (takeBlocks z file (fuel + 1) it).2 ≠ .more := by
  induction fuel generalizing it with
  | zero =>
    simp only [takeBlocks]
    split
    · simp
    · rename_i b it' hn
      have := nextBlock_progress hn
      omega
    · simp
  | succ fuel ih =>
    rw [takeBlocks]
    split
    · simp
    · rename_i b it' hn
      have := nextBlock_progress hn
      exact ih it' (by push_cast at h; omega)
    · simp

/-! ## Element iteration -/

/-- Elements delivered when the blocks after the first one are `bs` and the block iteration then ends with `e`. -/
def stream : List FileBlock → End → List Element × End
  | [], e => ([], e)
  | .header _ :: _, _ => ([], .done)
  | .data es :: bs, e => (es ++ (stream bs e).1, (stream bs e).2)

theorem create_total (z : Zlib) (file : Bytes) (it : BlobIter) : createElementIterator z file it ≠ .err := by
  unfold createElementIterator
  split <;> simp

theorem next_det {z : Zlib} {file : Bytes} {st : ElementIter} {r r' : Out (Option Element × ElementIter)}
    (h : ElementIter.Next z file st r) (h' : ElementIter.Next z file st r') : r = r' := by
  induction h generalizing r' with
  | ended => cases h'; rfl
  | item => cases h'; rfl
  | again it st r hc hn ih =>
    cases h' with
    | again _ st' _ hc' hn' =>
      rw [hc] at hc'; simp at hc'; subst hc'; exact ih hn'
    | fail _ hc' => rw [hc] at hc'; simp at hc'
  | fail it hc =>
    cases h' with
    | again _ st' _ hc' hn' => rw [hc] at hc'; simp at hc'
    | fail _ hc' => rfl

theorem drains_det {z : Zlib} {file : Bytes} {st : ElementIter} {es es' : List Element} {r r' : End}
    (h : ElementIter.Drains z file st es r) (h' : ElementIter.Drains z file st es' r') : es = es' ∧ r = r' := by
  induction h generalizing es' r' with
  | done st st1 hn =>
    cases h' with
    | done => simp
    | fail _ hn' => have := next_det hn hn'; simp at this
    | item _ _ _ _ _ hn' => have := next_det hn hn'; simp at this
  | fail st hn =>
    cases h' with
    | done _ _ hn' => have := next_det hn hn'; simp at this
    | fail _ hn' => simp
    | item _ _ _ _ _ hn' => have := next_det hn hn'; simp at this
  | item st st1 e es r hn hd ih =>
    cases h' with
    | done _ _ hn' => have := next_det hn hn'; simp at this
    | fail _ hn' => have := next_det hn hn'; simp at this
    | item _ _ _ _ _ hn' hd' =>
      have := next_det hn hn'
      simp at this
      obtain ⟨rfl, rfl⟩ := this
      obtain ⟨rfl, rfl⟩ := ih hd'
      simp

theorem reads_det {z : Zlib} {file : Bytes} {es es' : List Element} {r r' : End}
    (h : ReadsElements z file es r) (h' : ReadsElements z file es' r') : es = es' ∧ r = r' := by
  cases h with
  | new_fail h =>
    cases h' with
    | new_fail => simp
    | iterate _ _ _ h' => rw [h] at h'; simp at h'
  | iterate st _ _ h hd =>
    cases h' with
    | new_fail h' => rw [h] at h'; simp at h'
    | iterate _ _ _ h' hd' =>
      rw [h] at h'; simp at h'; subst h'
      exact drains_det hd hd'

theorem drains_some_nil {z : Zlib} {file : Bytes} {it : BlobIter} {st : ElementIter} {es : List Element} {r : End}
    (hc : createElementIterator z file it = .ok st) (hd : ElementIter.Drains z file st es r) :
    ElementIter.Drains z file ⟨it, some []⟩ es r := by
  cases hd with
  | done _ st' h => exact .done _ st' (.again _ _ _ hc h)
  | fail _ h => exact .fail _ (.again _ _ _ hc h)
  | item _ st' e es r h hd => exact .item _ st' e es r (.again _ _ _ hc h) hd

theorem drains_some {z : Zlib} {file : Bytes} {it : BlobIter} {cur es : List Element} {r : End}
    (hd : ElementIter.Drains z file ⟨it, some []⟩ es r) : ElementIter.Drains z file ⟨it, some cur⟩ (cur ++ es) r := by
  induction cur with
  | nil => exact hd
  | cons e cur ih => exact .item _ _ _ _ _ (.item it e cur) ih

theorem drains_stream {z : Zlib} {file : Bytes} (fuel : Nat) (it : BlobIter) (bs : List FileBlock) (e : End)
    (h : takeBlocks z file fuel it = (bs, e)) (he : e ≠ .more) :
    (createElementIterator z file it = .panic ∧ stream bs e = ([], .panic)) ∨
    ∃ st, createElementIterator z file it = .ok st ∧ ElementIter.Drains z file st (stream bs e).1 (stream bs e).2 := by
  induction fuel generalizing it bs e with
  | zero => simp [takeBlocks] at h; obtain ⟨rfl, rfl⟩ := h; exact absurd rfl he
  | succ fuel ih =>
    unfold takeBlocks at h
    unfold createElementIterator
    split at h
    · rename_i hn
      simp at h; obtain ⟨rfl, rfl⟩ := h
      right
      exact ⟨⟨it, none⟩, by rw [hn], .done _ _ (.ended it)⟩
    · rename_i b it' hn
      simp only [Prod.mk.injEq] at h
      obtain ⟨rfl, rfl⟩ := h
      rw [hn]
      right
      cases b with
      | header i => exact ⟨⟨it', none⟩, rfl, .done _ _ (.ended it')⟩
      | data es =>
        refine ⟨⟨it', some es⟩, rfl, ?_⟩
        simp only [stream]
        apply drains_some
        rcases ih it' (takeBlocks z file fuel it').1 (takeBlocks z file fuel it').2 rfl he with ⟨hp, hs⟩ | ⟨st, hc, hd⟩
        · rw [hs]
          exact .fail _ (.fail _ hp)
        · exact drains_some_nil hc hd
    · rename_i hn1 hn2
      simp at h; obtain ⟨rfl, rfl⟩ := h
      left
      constructor
      · split
        · rename_i hn; exact absurd hn (hn2 _ _)
        · rename_i hn; exact absurd hn (hn2 _ _)
        · rename_i hn; exact absurd hn hn1
        · rfl
      · rfl

/-- The outcome of reading, from the drained block iteration. -/
def streamAll : List FileBlock → End → List Element × End
  | [], e => ([], e)
  | _ :: bs, e => stream bs e

theorem reads_iff {z : Zlib} {file : Bytes} {fuel : Nat} {bs : List FileBlock} {e : End}
    (h : takeBlocks z file fuel {} = (bs, e)) (he : e ≠ .more) (es : List Element) (r : End) :
    ReadsElements z file es r ↔ (es, r) = streamAll bs e := by
  have key : ReadsElements z file (streamAll bs e).1 (streamAll bs e).2 := by
    obtain _ | fuel := fuel
    · simp [takeBlocks] at h; obtain ⟨rfl, rfl⟩ := h; exact absurd rfl he
    · unfold takeBlocks at h
      split at h
      · rename_i hn
        simp at h; obtain ⟨rfl, rfl⟩ := h
        refine .iterate ⟨{}, none⟩ _ _ ?_ (.done _ _ (.ended _))
        simp [ElementIter.new, hn]
      · rename_i b it' hn
        simp only [Prod.mk.injEq] at h
        obtain ⟨rfl, rfl⟩ := h
        simp only [streamAll]
        rcases drains_stream fuel it' _ _ rfl he with ⟨hp, hs⟩ | ⟨st, hc, hd⟩
        · rw [hs]
          exact .new_fail (by simp [ElementIter.new, hn, hp])
        · exact .iterate st _ _ (by simp [ElementIter.new, hn, hc]) hd
      · rename_i hn1 hn2
        simp at h; obtain ⟨rfl, rfl⟩ := h
        refine .new_fail ?_
        unfold ElementIter.new
        split
        · rename_i hn; exact absurd hn hn1
        · rename_i hn; exact absurd hn (hn2 _ _)
        · rfl
  constructor
  · intro h'
    obtain ⟨h1, h2⟩ := reads_det h' key
    rw [h1, h2]
  · intro h'
    have h1 : es = (streamAll bs e).1 := by rw [← h']
    have h2 : r = (streamAll bs e).2 := by rw [← h']
    rw [h1, h2]; exact key

/-! ## Truncation -/

theorem readAt_take (file : Bytes) (k p n : Nat) : readAt (file.take k) p n = readAt file p n ∨ readAt (file.take k) p n = none := by
  unfold readAt
  by_cases h : (file.take k).length < p + n
  · right; simp only [h, if_true]
  · left
    have h' : ¬ file.length < p + n := by simp at h; omega
    simp only [h, h', if_false]
    congr 1
    simp only [List.length_take, not_lt] at h
    rw [List.drop_take, List.take_take]
    congr 1
    omega

theorem next_take (file : Bytes) (k : Nat) (it : BlobIter) :
    it.next (file.take k) = it.next file ∨ it.next (file.take k) = .ok none := by
  unfold BlobIter.next
  simp only
  split
  · left; rfl
  · rcases readAt_take file k (it.pos + it.jump : Int).toNat 4 with h | h
    · rw [h]
      split
      · split
        · left; rfl
        · rename_i a b c d _ _
          rcases readAt_take file k ((it.pos + it.jump : Int).toNat + 4) (ofBeBytes a b c d).toInt.toNat with h2 | h2
          · rw [h2]; left; rfl
          · rw [h2]; right; rfl
      · left; rfl
    · rw [h]; right; rfl

theorem fromBlobDesc_take (z : Zlib) (file : Bytes) (k : Nat) (d : BlobDesc) :
    FileBlock.fromBlobDesc z (file.take k) d = FileBlock.fromBlobDesc z file d ∨
    FileBlock.fromBlobDesc z (file.take k) d = .err := by
  unfold FileBlock.fromBlobDesc
  split
  · left; rfl
  · rcases readAt_take file k d.start d.length with h | h
    · rw [h]; left; rfl
    · rw [h]; right; rfl

theorem nextBlock_take (z : Zlib) (file : Bytes) (k : Nat) (it : BlobIter) :
    nextBlock z (file.take k) it = nextBlock z file it ∨ nextBlock z (file.take k) it = .ok none ∨
    nextBlock z (file.take k) it = .panic := by
  unfold nextBlock
  rcases next_take file k it with h | h
  · rw [h]
    split
    · left; rfl
    · rename_i d it' _
      rcases fromBlobDesc_take z file k d with h2 | h2
      · rw [h2]; left; rfl
      · rw [h2]; right; right; rfl
    · left; rfl
  · rw [h]; right; left; rfl

theorem takeBlocks_take (z : Zlib) (file : Bytes) (k fuel : Nat) (it : BlobIter) :
    takeBlocks z (file.take k) fuel it = takeBlocks z file fuel it ∨
    (∃ t, (takeBlocks z (file.take k) fuel it).1 ++ t = (takeBlocks z file fuel it).1) ∧
      (takeBlocks z (file.take k) fuel it).2 ≠ .more := by
  induction fuel generalizing it with
  | zero => left; rfl
  | succ fuel ih =>
    unfold takeBlocks
    rcases nextBlock_take z file k it with h | h | h
    · rw [h]
      split
      · left; rfl
      · rename_i b it' _
        rcases ih it' with h2 | ⟨⟨t, ht⟩, h2⟩
        · rw [h2]; left; rfl
        · right
          exact ⟨⟨t, by simpa using ht⟩, h2⟩
      · left; rfl
    · rw [h]; right; simp
    · rw [h]; right; simp

theorem stream_prefix (bs t : List FileBlock) (e e' : End) : (stream bs e).1 <+: (stream (bs ++ t) e').1 := by
  induction bs with
  | nil => simp [stream]
  | cons b bs ih =>
    cases b with
    | header i => simp [stream]
    | data es =>
      obtain ⟨u, hu⟩ := ih
      exact ⟨u, by simp [stream, ← hu]⟩

theorem streamAll_prefix (bs t : List FileBlock) (e e' : End) : (streamAll bs e).1 <+: (streamAll (bs ++ t) e').1 := by
  cases bs with
  | nil => simp [streamAll]
  | cons b bs => exact stream_prefix bs t e e'

end OsmIo
