import Verif.Props.FormatMore
/-!
# Damaged messages (C31)

A message that ends in the middle of a field is refused with an error, wherever it stands: as a blob, or as the block in a blob.
-/
namespace OsmIo.Spec.Protobuf

/-- A message that breaks off: some complete fields, then the beginning of a field, which does not end. -/
def IsCut (b : Bytes) : Prop :=
  ∃ fs good num item full rest, Fields fs good ∧ Fields [(num, item)] full ∧ rest <+: full ∧ rest ≠ [] ∧ rest ≠ full ∧ b = good ++ rest

end OsmIo.Spec.Protobuf

namespace OsmIo.Spec.Format
open Protobuf

/-- A frame of one of the two types, with a blob or a block that breaks off. -/
def IsDamagedFrame (inflates : Inflates) (b : Bytes) : Prop :=
  ∃ type blob, IsFrameOf type blob b ∧ (type = "OSMHeader" ∨ type = "OSMData") ∧
    (IsCut blob ∨ ∃ data, IsCut data ∧ IsBlob inflates data blob)

end OsmIo.Spec.Format

namespace OsmIo
open Wire Spec Spec.Protobuf

/-- A beginning of `a ++ b` ends in `a` or in `b`. -/
theorem strict_prefix_append {p a b : Bytes} (h : p <+: a ++ b) (hne : p ≠ a ++ b) :
    (p <+: a ∧ p ≠ a) ∨ ∃ q, p = a ++ q ∧ q <+: b ∧ q ≠ b := by
  obtain ⟨t, ht⟩ := h
  rcases List.append_eq_append_iff.1 ht with ⟨as, h1, h2⟩ | ⟨bs, h1, h2⟩
  · cases as with
    | nil => exact .inr ⟨[], by simpa using h1.symm, List.nil_prefix, fun e => hne (by rw [← e]; simpa using h1.symm)⟩
    | cons x as => exact .inl ⟨⟨x :: as, h1.symm⟩, fun e => by rw [e] at h1; simp at h1⟩
  · refine .inr ⟨bs, h1, ⟨t, h2.symm⟩, fun e => hne (by rw [h1, e])⟩

theorem decVarintGo_marked (p : Bytes) (h : ∀ b ∈ p, 128 ≤ b.toNat) (i : Nat) : decVarintGo i p = none := by
  induction p generalizing i with
  | nil => rfl
  | cons b p ih =>
    have h1 := h b (by simp)
    rw [decVarintGo, if_neg (by omega), ih (fun c hc => h c (by simp [hc]))]
    simp

theorem decVarint_cut {n : Nat} {key p : Bytes} (h : IsVarint n key) (hp : p <+: key) (hne : p ≠ key) : decVarint p = none := by
  refine decVarintGo_marked p (fun b hb => ?_) 0
  obtain ⟨i, hi, rfl⟩ := List.getElem_of_mem hb
  obtain ⟨t, rfl⟩ := hp
  have ht : t ≠ [] := by
    rintro rfl
    simp at hne
  have := List.length_pos_of_ne_nil ht
  exact (h.marks i p[i] (by rw [List.getElem?_append_left hi, List.getElem?_eq_getElem hi])).2 (by simp; omega)

theorem decKey_cut {n : Nat} {key p : Bytes} (h : IsVarint n key) (hp : p <+: key) (hne : p ≠ key) : decKey p = none := by
  rw [decKey, decVarint_cut h hp hne]

theorem length_of_strict_prefix {p a : Bytes} (hp : p <+: a) (hne : p ≠ a) : p.length < a.length :=
  lt_of_le_of_ne hp.length_le fun e => hne (hp.eq_of_length e)

theorem delimited_cut {l b p : Bytes} (hl : IsVarint b.length l) (hp : p <+: l ++ b) (hne : p ≠ l ++ b) : decVal 2 p = none := by
  rcases strict_prefix_append hp hne with ⟨h1, h2⟩ | ⟨q, rfl, h1, h2⟩
  · simp [decVal, decVarint_cut hl h1 h2]
  · have := length_of_strict_prefix h1 h2
    simp [decVal, decVarint_of hl, takeExact, this]

theorem decVal_cut {item : Item} {wt : Nat} {b p : Bytes} (h : Payload item wt b) (hp : p <+: b) (hne : p ≠ b) : decVal wt p = none := by
  cases h with
  | int h => simp [decVal, decVarint_cut h hp hne]
  | sint h => simp [decVal, decVarint_cut h hp hne]
  | ints h hl => exact delimited_cut hl hp hne
  | sints h hl => exact delimited_cut hl hp hne
  | bytes hl => exact delimited_cut hl hp hne
  | fixed64 h =>
    have := length_of_strict_prefix hp hne
    simp [decVal, takeExact, ← h, this]
  | fixed32 h =>
    have := length_of_strict_prefix hp hne
    simp [decVal, takeExact, ← h, this]

theorem skipGroup_cut {d num : Nat} {b : Bytes} (h : Group d num b) {p : Bytes} (hp : p <+: b) (hne : p ≠ b) (count : Nat) (hd : d ≤ count)
    (fuel : Nat) : skipGroup (skipField count) num fuel p = none := by
  induction h generalizing p count fuel with
  | @stop depth num b h =>
    cases fuel with
    | zero => rfl
    | succ fuel => rw [skipGroup, decKey_cut h hp hne]
  | @field depth num n item wt key b r h1 h2 h3 h4 h5 ih =>
    cases fuel with
    | zero => rfl
    | succ fuel =>
      obtain ⟨count, rfl⟩ : ∃ k, count = k + 1 := ⟨count - 1, by omega⟩
      rw [List.append_assoc] at hp hne
      rcases strict_prefix_append hp hne with ⟨g1, g2⟩ | ⟨q, rfl, g1, g2⟩
      · rw [skipGroup, decKey_cut h3 g1 g2]
      · obtain ⟨-, -, -, h8, hw3, hw4⟩ := decVal_of h4 []
        rw [skipGroup, decKey_of (decVarint_of h3 _) rfl h1 h2 h8]
        simp only [if_neg hw4, skipField, if_neg hw3]
        rcases strict_prefix_append g1 g2 with ⟨g3, g4⟩ | ⟨q', rfl, g3, g4⟩
        · rw [decVal_cut h4 g3 g4]
          rfl
        · obtain ⟨v, hv, -⟩ := decVal_of h4 q'
          rw [hv]
          exact ih g3 g4 (count + 1) hd fuel
  | @group depth num n key b r h1 h2 h3 h4 h5 ih4 ih5 =>
    cases fuel with
    | zero => rfl
    | succ fuel =>
      obtain ⟨count, rfl⟩ : ∃ k, count = k + 1 := ⟨count - 1, by omega⟩
      rw [List.append_assoc] at hp hne
      rcases strict_prefix_append hp hne with ⟨g1, g2⟩ | ⟨q, rfl, g1, g2⟩
      · rw [skipGroup, decKey_cut h3 g1 g2]
      · rw [skipGroup, decKey_of (decVarint_of h3 _) rfl h1 h2 (by norm_num)]
        simp only [show ¬ (3 : Nat) = 4 by norm_num, if_false, skipField, if_true]
        rcases strict_prefix_append g1 g2 with ⟨g3, g4⟩ | ⟨q', rfl, g3, g4⟩
        · rw [ih4 g3 g4 count (by omega)]
        · rw [skipGroup_of h1 h2 h4 count (by omega) q' _ (by simp)]
          exact ih5 g3 g4 (count + 1) hd fuel

theorem decField_cut {num : Nat} {item : Item} {full rest : Bytes} (h : Fields [(num, item)] full) (hp : rest <+: full) (hne : rest ≠ full)
    {count : Nat} (hc : nesting < count) : decField count rest = none := by
  obtain ⟨count, rfl⟩ : ∃ k, count = k + 1 := ⟨count - 1, by omega⟩
  generalize hfs : [(num, item)] = fs at h
  cases h with
  | nil => cases hfs
  | @group num' key b fs r h1 h2 h3 h4 h5 =>
    cases hfs
    cases h5
    rw [List.append_nil] at hp hne
    rcases strict_prefix_append hp hne with ⟨g1, g2⟩ | ⟨q, rfl, g1, g2⟩
    · rw [decField, decKey_cut h3 g1 g2]
    · rw [decField, decKey_of (decVarint_of h3 _) rfl h1 h2 (by norm_num)]
      simp only [if_true, skipField]
      rw [skipGroup_cut h4 g1 g2 count (by omega)]
      rfl
  | @cons num' item key wt b fs r h1 h2 h3 h4 h5 =>
    cases hfs
    cases h5
    rw [List.append_nil] at hp hne
    obtain ⟨-, -, -, h8, hw3, -⟩ := decVal_of h4 []
    rcases strict_prefix_append hp hne with ⟨g1, g2⟩ | ⟨q, rfl, g1, g2⟩
    · rw [decField, decKey_cut h3 g1 g2]
    · rw [decField, decKey_of (decVarint_of h3 _) rfl h1 h2 h8]
      simp [hw3, decVal_cut h4 g1 g2]

theorem parseGo_cut {num : Nat} {item : Item} {full rest : Bytes} (hfull : Fields [(num, item)] full) (hp : rest <+: full) (hne : rest ≠ full)
    (h0 : rest ≠ []) {count : Nat} (hc : nesting < count) {fs : List (Nat × Item)} {good : Bytes} (h : Fields fs good) (fuel : Nat) :
    parseGo count fuel (good ++ rest) = none := by
  induction h generalizing fuel with
  | nil =>
    have hd := decField_cut hfull hp hne hc
    obtain ⟨c, cs, rfl⟩ := List.exists_cons_of_ne_nil h0
    cases fuel with
    | zero => simp [parseGo]
    | succ fuel =>
      simp only [List.nil_append, parseGo] at hd ⊢
      rw [hd]
  | @group num key' b fs r g1 g2 g3 g4 g5 ih =>
    have hd := decField_group g1 g2 g3 g4 hc (r ++ rest)
    rw [← List.append_assoc] at hd
    obtain ⟨c, cs, rfl⟩ := List.exists_cons_of_ne_nil g3.nonempty
    cases fuel with
    | zero => simp [parseGo]
    | succ fuel =>
      simp only [List.cons_append, parseGo] at hd ⊢
      rw [hd]
      simp [ih fuel]
  | @cons num item key' wt b fs r g1 g2 g3 g4 g5 ih =>
    obtain ⟨v, hd, -⟩ := decField_item g1 g2 g3 g4 count (r ++ rest)
    rw [← List.append_assoc] at hd
    obtain ⟨c, cs, rfl⟩ := List.exists_cons_of_ne_nil g3.nonempty
    cases fuel with
    | zero => simp [parseGo]
    | succ fuel =>
      simp only [List.cons_append, parseGo] at hd ⊢
      rw [hd]
      simp [ih fuel]

theorem parse_cut {b : Bytes} (h : IsCut b) (count : Nat) (hc : nesting < count := by decide) : parse count b = none := by
  obtain ⟨fs, good, num, item, full, rest, h1, h2, h3, h4, h5, rfl⟩ := h
  exact parseGo_cut h2 h3 h5 h4 hc h1 _

/-- A field that announces `n` bytes of which fewer are left. -/
theorem IsCut.announced {fs : List (Nat × Item)} {good key len rest : Bytes} {num n : Nat} (h1 : Fields fs good) (h2 : 1 ≤ num) (h3 : num < 2 ^ 29)
    (h4 : IsVarint (8 * num + 2) key) (h5 : IsVarint n len) (h6 : rest.length < n) : IsCut (good ++ (key ++ (len ++ rest))) := by
  have hf : Fields [(num, .bytes (rest ++ List.replicate (n - rest.length) 0))] (key ++ (len ++ (rest ++ List.replicate (n - rest.length) 0)) ++ []) :=
    .cons h2 h3 h4 (.bytes (by simpa [show rest.length + (n - rest.length) = n by omega] using h5)) .nil
  refine ⟨fs, good, num, _, _, key ++ (len ++ rest), h1, hf, ⟨List.replicate (n - rest.length) 0, by simp⟩, by simp [h4.nonempty], ?_, rfl⟩
  simp
  omega

/-- A message cut anywhere is a message with some of the first fields, or one that breaks off. -/
theorem cut_anywhere {fs : List (Nat × Item)} {b p : Bytes} (h : Fields fs b) (hp : p <+: b) :
    (∃ k, Fields (fs.take k) p) ∨ IsCut p := by
  have one : ∀ {num item} {fs' : List (Nat × Item)} {full r p : Bytes}, Fields [(num, item)] full →
      (∀ {q}, q <+: r → (∃ k, Fields (fs'.take k) q) ∨ IsCut q) → p <+: full ++ r →
      (∃ k, Fields (((num, item) :: fs').take k) p) ∨ IsCut p := by
    intro num item fs' full r p h1 ih hp
    have app : ∀ {a b : List (Nat × Item)} {x y : Bytes}, Fields a x → Fields b y → Fields (a ++ b) (x ++ y) := fun h h' => Fields.append h h'
    by_cases h0 : p = []
    · exact .inl ⟨0, h0 ▸ .nil⟩
    have found : ∀ q, p = full ++ q → q <+: r → (∃ k, Fields (((num, item) :: fs').take k) p) ∨ IsCut p := by
      rintro q rfl hq
      rcases ih hq with ⟨k, hk⟩ | ⟨gs, good, num', item', full', rest, g1, g2, g3, g4, g5, rfl⟩
      · exact .inl ⟨k + 1, by simpa using app h1 hk⟩
      · exact .inr ⟨_, full ++ good, num', item', full', rest, app h1 g1, g2, g3, g4, g5, by simp⟩
    by_cases he : p = full ++ r
    · exact found r he List.prefix_rfl
    rcases strict_prefix_append hp he with ⟨g1, g2⟩ | ⟨q, e, g1, -⟩
    · exact .inr ⟨[], [], num, item, full, p, .nil, h1, g1, h0, g2, rfl⟩
    · exact found q e g1
  induction h generalizing p with
  | nil => exact .inl ⟨0, by simp at hp; exact hp ▸ .nil⟩
  | group h1 h2 h3 h4 h5 ih => exact one (by simpa using Fields.group h1 h2 h3 h4 .nil) (fun hq => ih hq) hp
  | cons h1 h2 h3 h4 h5 ih => exact one (by simpa using Fields.cons h1 h2 h3 h4 .nil) (fun hq => ih hq) hp

theorem new_cut {t : String} (ht : t = "OSMHeader" ∨ t = "OSMData") {d : Bytes} (h : IsCut d) : FileBlock.new t d = .err := by
  rcases ht with rfl | rfl
  · simp [FileBlock.new, parseHeader, Pb.HeaderBlock.decode, Pb.HeaderBlock.merge, parse_cut h 100]
  · simp [FileBlock.new, parseData, Pb.PrimitiveBlock.decode, Pb.PrimitiveBlock.merge, parse_cut h 100]

/-- C31. A blob that breaks off is refused with an error, not with a panic. -/
theorem C31_cut_blob (z : Zlib) (t : String) (b : Bytes) (h : IsCut b) : FileBlock.deserialize z t b = .err := by
  simp [FileBlock.deserialize, Pb.Blob.decode, parse_cut h 100]

/-- C31. A blob cut anywhere is refused with an error, unless it is cut between two fields. -/
theorem C31_cut_anywhere (z : Zlib) (t : String) (fs : List (Nat × Item)) (b p : Bytes) (h : Fields fs b) (hp : p <+: b) :
    (∃ k, Fields (fs.take k) p) ∨ FileBlock.deserialize z t p = .err :=
  (cut_anywhere h hp).imp_right fun h => C31_cut_blob z t p h

/-- C31. So is a complete blob, compressed or not, holding a block that breaks off. -/
theorem C31_cut_block (z : Zlib) (inflates : Format.Inflates) (hz : ∀ c d, inflates c d → z.stream c = d) (t : String)
    (ht : t = "OSMHeader" ∨ t = "OSMData") (data b : Bytes) (h : IsCut data) (hb : Format.IsBlob inflates data b) :
    FileBlock.deserialize z t b = .err := by
  obtain ⟨hn, h1 | ⟨c, h1, h2⟩⟩ := hb
  · obtain ⟨r, hd⟩ := Blob.decode_raw h1
    simp [FileBlock.deserialize, hd, readBlobData, new_cut ht h]
  · rw [C31_zlib_size z inflates hz t data.length c data b hn h2 h1, if_pos le_rfl, List.take_length, new_cut ht h]

/-- C31. A complete blob of another type is refused with an error. -/
theorem C31_unknown_type_error (z : Zlib) (inflates : Format.Inflates) (hz : ∀ c d, inflates c d → z.stream c = d) (t : String)
    (h1 : t ≠ "OSMHeader") (h2 : t ≠ "OSMData") (data b : Bytes) (hb : Format.IsBlob inflates data b) :
    FileBlock.deserialize z t b = .err := by
  have hnew : FileBlock.new t data = .err := by simp [FileBlock.new, h1, h2]
  obtain ⟨hn, h1 | ⟨c, h1, h2⟩⟩ := hb
  · obtain ⟨r, hd⟩ := Blob.decode_raw h1
    simp [FileBlock.deserialize, hd, readBlobData, hnew]
  · rw [C31_zlib_size z inflates hz t data.length c data b hn h2 h1, if_pos le_rfl, List.take_length, hnew]

theorem frame_refused {z : Zlib} {t : String} {blob b : Bytes} (h1 : Format.IsFrameOf t blob b)
    (h2 : ∀ fb, FileBlock.deserialize z t blob ≠ .ok fb) {file pre post : Bytes} (hf : file = pre ++ (b ++ post))
    {it : BlobIter} (hp : it.pos + it.jump = pre.length) : nextBlock z file it = .panic ∧
      ∃ d it', it.next file = .ok (some (d, it')) ∧ d.index = it.index ∧ FileBlock.fromBlobDesc z file d = FileBlock.deserialize z t blob ∧
        iterationCalls z file d = none := by
  obtain ⟨d, it', k1, k2, k3, _, _, _, k4, k5⟩ := next_frameOf h1 hf hp
  have hlt : ¬ 2 ^ 63 ≤ d.length := by omega
  have heq : FileBlock.fromBlobDesc z file d = FileBlock.deserialize z t blob := by
    simp only [FileBlock.fromBlobDesc, hlt, if_false, k4, k2]
  have hno : ∀ fb, FileBlock.fromBlobDesc z file d ≠ .ok fb := by
    intro fb
    rw [heq]
    exact h2 fb
  obtain ⟨g1, g2⟩ := C31_no_elements z file d hno
  exact ⟨g2 it it' k1, d, it', k1, k3, heq, g1⟩

theorem takeBlocks_refused {z : Zlib} {inflates : Format.Inflates} (hz : Decodes z inflates) {blocks : List (List Element)} {frames : List Bytes}
    (h : List.Forall₂ (Format.IsDataFrame inflates) blocks frames) {t : String} {blob bad rest : Bytes}
    (h1 : Format.IsFrameOf t blob bad) (h2 : ∀ fb, FileBlock.deserialize z t blob ≠ .ok fb) {file : Bytes} (pre : Bytes)
    (hf : file = pre ++ (frames.flatten ++ (bad ++ rest)))
    (it : BlobIter) (hp : it.pos + it.jump = pre.length) : takeBlocks z file (blocks.length + 1) it = (blocks.map .data, .panic) := by
  induction h generalizing pre it with
  | nil =>
    have := (frame_refused h1 h2 (by simpa using hf) hp).1
    simp [takeBlocks, this]
  | @cons b fr blocks frames h1 _ ih =>
    obtain ⟨data, p, h1, h2, h3⟩ := h1
    obtain ⟨it', hn, hp'⟩ := nextBlock_published hz h1 (new_data_of h2 h3) (file := file) (pre := pre) (post := frames.flatten ++ (bad ++ rest))
      (by rw [hf]; simp) hp
    have := ih (pre ++ fr) (by rw [hf]; simp) it' hp'
    simp [takeBlocks, hn, this]

theorem damaged_refused {z : Zlib} {inflates : Format.Inflates} (hz : Decodes z inflates) {bad : Bytes} (h : Format.IsDamagedFrame inflates bad) :
    ∃ t blob, Format.IsFrameOf t blob bad ∧ FileBlock.deserialize z t blob = .err := by
  obtain ⟨t, blob, h1, ht, h2 | ⟨data, h2, h3⟩⟩ := h
  · exact ⟨t, blob, h1, C31_cut_blob z t blob h2⟩
  · exact ⟨t, blob, h1, C31_cut_block z inflates hz t ht data blob h2 h3⟩

/-- C31. A file with some good blocks and then a damaged one: iteration delivers exactly the elements of the blocks before it and then panics. -/
theorem C31_stops_at_damaged (z : Zlib) (inflates : Format.Inflates) (hz : ∀ c d, inflates c d → z.stream c = d)
    (info : FileInfo) (blocks : List (List Element)) (good bad rest : Bytes) (h : Format.IsFile inflates info blocks good)
    (hbad : Format.IsDamagedFrame inflates bad) (es : List Element) (r : End) :
    ReadsElements z (good ++ (bad ++ rest)) es r ↔ es = blocks.flatten ∧ r = .panic := by
  obtain ⟨t, blob, hf, herr⟩ := damaged_refused hz hbad
  obtain ⟨head, frames, rfl, h1, h2⟩ := h
  obtain ⟨it, hn, hp⟩ := nextBlock_header hz h1 (frames.flatten ++ (bad ++ rest))
  rw [List.append_assoc]
  have h3 := takeBlocks_refused hz h2 hf (by simp [herr]) (file := head ++ (frames.flatten ++ (bad ++ rest))) (rest := rest) head rfl it hp
  have : takeBlocks z (head ++ (frames.flatten ++ (bad ++ rest))) (blocks.length + 1 + 1) {} = (.header info :: blocks.map .data, .panic) := by
    generalize blocks.length + 1 = n at h3 ⊢
    simp only [takeBlocks, hn, h3]
  rw [reads_iff this (by simp)]
  have hs : ∀ bs : List (List Element), stream (bs.map FileBlock.data) .panic = (bs.flatten, .panic) := by
    intro bs
    induction bs with
    | nil => rfl
    | cons b bs ih => simp [stream, ih]
  simp [streamAll, hs]

/-- A data frame whose block announces a string table of nine bytes and has two. -/
def exDamaged : Bytes := [0, 0, 0, 11] ++ ([10, 7] ++ utf8 "OSMData" ++ [24, 6]) ++ [10, 4, 10, 9, 10, 0]

theorem exDamaged_is : Format.IsDamagedFrame (fun c d => exZ.stream c = d) exDamaged := by
  refine ⟨"OSMData", [10, 4, 10, 9, 10, 0], ⟨0, 0, 0, 11, [10, 7] ++ utf8 "OSMData" ++ [24, 6], { type := "OSMData", datasize := 6 }, rfl, rfl, by decide, ?_, rfl, rfl⟩, .inr rfl, .inr ⟨[10, 9, 10, 0], ?_, by decide, .inl ?_⟩⟩
  · exact ⟨[(1, .bytes (utf8 "OSMData")), (3, .int 6)], .mk1 (b := 7 :: utf8 "OSMData") 10 rfl (by decide) (by decide) (.bytes1 7 rfl (by decide))
      (.mk1 (b := [6]) 24 rfl (by decide) (by decide) (.int1 6 rfl (by decide)) .nil), ⟨["OSMData"], rfl, rfl⟩, ⟨[], rfl, rfl⟩, ⟨[6], rfl, rfl⟩⟩
  · exact IsCut.announced (rest := [10, 0]) .nil (num := 1) (n := 9) (by decide) (by decide) (varint1 10 (by decide)) (varint1 9 (by decide)) (by decide)
  · exact ⟨[(1, .bytes [10, 9, 10, 0])], .mk1 (b := [4, 10, 9, 10, 0]) 10 rfl (by decide) (by decide) (.bytes1 4 rfl (by decide)) .nil, ⟨[_], rfl, rfl⟩, ⟨none, [], rfl, rfl⟩, by decide⟩

/-- The way of the example of `C58` is delivered, then iteration panics. -/
example : ReadsElements exZ (exForeignFile ++ (exDamaged ++ [1, 2])) [.way exForeignFileWay] .panic :=
  (C31_stops_at_damaged exZ _ (fun _ _ h => h) _ _ _ _ _ exForeignFile_is exDamaged_is _ _).2 ⟨rfl, rfl⟩

example : IsCut ([10, 1, 65] ++ ([10] ++ ([9] ++ [65, 66]))) :=
  IsCut.announced (fs := [(1, .bytes [65])]) (.mk1 (b := [1, 65]) 10 rfl (by decide) (by decide) (.bytes1 1 rfl (by decide)) .nil)
    (num := 1) (n := 9) (by decide) (by decide) (varint1 10 (by decide)) (varint1 9 (by decide)) (by decide)

/-- A group number 11 with a number in it, and with a group in it. -/
theorem exGroup_is : Fields [(11, .group)] [91, 8, 1, 11, 12, 92] :=
  .group (num := 11) (key := [91]) (b := [8, 1, 11, 12, 92]) (r := []) (by decide) (by decide) (varint1 91 (by decide))
    (.field (n := 1) (item := .int 1) (wt := 0) (key := [8]) (b := [1]) (r := [11, 12, 92]) (by decide) (by decide) (varint1 8 (by decide)) (.int1 1 rfl (by decide))
      (.group (n := 1) (key := [11]) (b := [12]) (r := [92]) (by decide) (by decide) (varint1 11 (by decide)) (.stop (varint1 12 (by decide)))
        (.stop (varint1 92 (by decide))))) .nil

/-- It is skipped in a message that does not know the number, and an error if its end is missing or the number is known. -/
example : Pb.ChangeSet.decode ([91, 8, 1, 11, 12, 92] ++ [8, 5]) = some { id := 5 } ∧ IsCut [91, 8, 1, 11, 12] ∧
    Pb.ChangeSet.decode [91, 8, 1, 11, 12] = none ∧ Pb.ChangeSet.decode [11, 12, 8, 5] = none ∧ Pb.ChangeSet.decode [91, 8, 1, 12, 8, 5] = none :=
  ⟨by decide +kernel, ⟨[], [], _, _, _, [91, 8, 1, 11, 12], .nil, exGroup_is, ⟨[92], rfl⟩, by simp, by simp, rfl⟩, by decide +kernel, by decide +kernel, by decide +kernel⟩

end OsmIo
