import Verif.Spec.LenientFile
import Verif.Lemmas.LenientBlob
import Verif.Lemmas.Meaning
/-!
# C86: what becomes of any bytes

Every byte string is classified: as a block of a file it is read, refused with an error, or makes the call panic, and the rules of
`Spec.Lenient` and `Spec.LenientFile` say which; as a file it is a sequence of blocks up to its end or to a panic.
-/
namespace OsmIo
open Wire
open Spec.Lenient (Entry Content FieldList Message Holds Unsized Says IsHeader IsData Readable Walk LengthAt HeaderAt BodyAt word numbered)
open Spec.Format (Complete elementCount)

/-! ## A byte string means at most one message -/

/-- C86. No byte string is read in two ways. -/
theorem C86_one_meaning (b : Bytes) :
    (∀ m m', Message 99 Spec.Lenient.PrimitiveBlock b m → Message 99 Spec.Lenient.PrimitiveBlock b m' → m = m') ∧
    (∀ m m', Message 99 Spec.Lenient.HeaderBlock b m → Message 99 Spec.Lenient.HeaderBlock b m' → m = m') ∧
    (∀ m m', Message 99 Spec.Lenient.BlobHeader b m → Message 99 Spec.Lenient.BlobHeader b m' → m = m') ∧
    (∀ m m', Message 99 Spec.Lenient.Blob b m → Message 99 Spec.Lenient.Blob b m' → m = m') := by
  refine ⟨fun m m' h h' => ?_, fun m m' h h' => ?_, fun m m' h h' => ?_, fun m m' h h' => ?_⟩
  · rw [← PrimitiveBlock.decode_iff] at h h'; rw [h] at h'; exact Option.some.inj h'
  · rw [← HeaderBlock.decode_iff] at h h'; rw [h] at h'; exact Option.some.inj h'
  · rw [← BlobHeader.decode_iff] at h h'; rw [h] at h'; exact Option.some.inj h'
  · rw [← Blob.decode_iff] at h h'; rw [h] at h'; exact Option.some.inj h'

/-! ## Sizes -/

/-- The bytes of a content. -/
def contentSize : Content → Nat
  | .bytes b => b.length
  | _ => 0

theorem fieldList_size {d : Nat} {fs : List Entry} {b : Bytes} (h : FieldList d fs b) :
    (fs.map fun f => contentSize f.2 + 1).sum ≤ b.length := by
  induction h with
  | nil => simp
  | @cons num c key wt b fs r h1 h2 h3 h4 _ ih =>
    have hk := List.length_pos_of_ne_nil h3.nonempty
    simp only [List.map_cons, List.sum_cons, List.length_append]
    have : contentSize c ≤ b.length := by
      cases h4 <;> simp [contentSize]
    omega

theorem fieldList_count {d : Nat} {fs : List Entry} {b : Bytes} (h : FieldList d fs b) : fs.length ≤ b.length := by
  have := fieldList_size h
  have h2 : fs.length ≤ (fs.map fun f => contentSize f.2 + 1).sum := by
    clear this h
    induction fs with
    | nil => simp
    | cons f fs ih => simp only [List.map_cons, List.sum_cons, List.length_cons]; omega
  omega

theorem numbered_size (t : Nat) (fs : List Entry) (bs : List Bytes) (h : numbered t fs = bs.map .bytes) :
    (bs.map List.length).sum ≤ (fs.map fun f => contentSize f.2 + 1).sum := by
  have h1 : (bs.map List.length).sum = ((numbered t fs).map contentSize).sum := by
    rw [h, List.map_map]; rfl
  rw [h1]
  clear h h1
  induction fs with
  | nil => simp [numbered]
  | cons f fs ih =>
    by_cases hf : f.1 = t
    · have : numbered t (f :: fs) = f.2 :: numbered t fs := by simp [numbered, hf]
      rw [this]
      simp only [List.map_cons, List.sum_cons]
      omega
    · have : numbered t (f :: fs) = numbered t fs := by simp [numbered, hf]
      rw [this]
      simp only [List.map_cons, List.sum_cons]
      omega

/-- A block has fewer strings than bytes. -/
theorem strings_bound {data : Bytes} {p : Pb.PrimitiveBlock} (h : Message 99 Spec.Lenient.PrimitiveBlock data p) :
    p.stringtable.s.length ≤ data.length := by
  obtain ⟨fs, hf, ⟨bs, parts, h1, h2, h3⟩, -⟩ := h
  have e1 := fieldList_size hf
  have e2 := numbered_size 1 fs bs h1
  have e3 : p.stringtable.s.length ≤ parts.flatten.length := by
    have h3 : numbered 1 parts.flatten = p.stringtable.s.map .bytes := h3
    have : p.stringtable.s.length = (numbered 1 parts.flatten).length := by rw [h3]; simp
    rw [this, numbered, List.length_map]
    exact List.length_filter_le ..
  have e4 : parts.flatten.length ≤ (bs.map List.length).sum := by
    clear h1 h3 e1 e2 e3
    induction h2 with
    | nil => simp
    | cons h _ ih =>
      have := fieldList_count h
      simp only [List.flatten_cons, List.length_append, List.map_cons, List.sum_cons]
      omega
  omega

/-! ## Blobs -/

theorem holds_of_read {z : Zlib} {b data : Bytes} {blob : Pb.Blob} (hb : Pb.Blob.decode b = some blob) :
    Holds z.stream b data ↔ readBlobData z blob = .ok data := by
  have h1 : Holds z.stream b data ↔ (blob.data = some (.raw data) ∨
    ∃ (c : Bytes) (n : Int32), blob.data = some (.zlib c) ∧ blob.raw_size = some n ∧ (data.length : ℤ) = n.toInt ∧ data <+: z.stream c) := by
    constructor
    · rintro ⟨blob', h, h'⟩
      rw [← Blob.decode_iff, hb] at h
      cases h; exact h'
    · intro h; exact ⟨blob, (Blob.decode_iff _ _).1 hb, h⟩
  rw [h1]
  obtain ⟨size, d⟩ := blob
  cases d with
  | none => simp [readBlobData]
  | some d =>
    cases d with
    | raw x => simp [readBlobData]
    | zlib c =>
      cases size with
      | none => simp [readBlobData, Out.unwrap]
      | some n =>
        have e : readBlobData z ⟨some n, some (.zlib c)⟩ = zlibDecode z c n := rfl
        rw [e, zlibDecode]
        by_cases hn : n < 0
        · rw [if_pos hn]
          have : n.toInt < 0 := by rw [Int32.lt_iff_toInt_lt] at hn; simpa using hn
          simp only [Option.some.injEq, reduceCtorEq, Pb.BlobData.zlib.injEq, false_or, iff_false]
          rintro ⟨c', n', -, rfl, h, -⟩
          omega
        · have hn' : 0 ≤ n.toInt := by rw [Int32.lt_iff_toInt_lt] at hn; simpa using hn
          rw [if_neg hn]
          by_cases hl : (z.stream c).length < n.toInt.toNat
          · rw [if_pos hl]
            simp only [Option.some.injEq, reduceCtorEq, Pb.BlobData.zlib.injEq, false_or, iff_false]
            rintro ⟨c', n', rfl, rfl, h, h'⟩
            have := h'.length_le
            omega
          · rw [if_neg hl]
            simp only [Option.some.injEq, reduceCtorEq, Pb.BlobData.zlib.injEq, false_or, Out.ok.injEq]
            constructor
            · rintro ⟨c', n', rfl, rfl, h, h'⟩
              rw [List.prefix_iff_eq_take] at h'
              rw [h', ← h]; simp
            · rintro rfl
              refine ⟨c, n, rfl, rfl, ?_, List.take_prefix _ _⟩
              rw [List.length_take]
              omega
    | lzma x => simp [readBlobData]
    | bzip2 x => simp [readBlobData]
    | lz4 x => simp [readBlobData]
    | zstd x => simp [readBlobData]

theorem unsized_of_read {z : Zlib} {b : Bytes} {blob : Pb.Blob} (hb : Pb.Blob.decode b = some blob) :
    Unsized b ↔ readBlobData z blob = .panic := by
  have h1 : Unsized b ↔ ∃ c, blob.data = some (.zlib c) ∧ ∀ n, blob.raw_size = some n → n.toInt < 0 := by
    constructor
    · rintro ⟨blob', c, h, h'⟩
      rw [← Blob.decode_iff, hb] at h
      cases h; exact ⟨c, h'⟩
    · rintro ⟨c, h⟩; exact ⟨blob, c, (Blob.decode_iff _ _).1 hb, h⟩
  rw [h1]
  obtain ⟨size, d⟩ := blob
  cases d with
  | none => simp [readBlobData]
  | some d =>
    cases d with
    | zlib c =>
      cases size with
      | none => simp [readBlobData, Out.unwrap]
      | some n =>
        have e : readBlobData z ⟨some n, some (.zlib c)⟩ = zlibDecode z c n := rfl
        rw [e, zlibDecode]
        have hn : n < 0 ↔ n.toInt < 0 := by rw [Int32.lt_iff_toInt_lt]; simp
        by_cases h : n.toInt < 0
        · rw [if_pos (hn.2 h)]; simp [h]
        · rw [if_neg (fun h' => h (hn.1 h'))]
          simp only [Option.some.injEq, Pb.BlobData.zlib.injEq, forall_eq']
          constructor
          · rintro ⟨_, _, h'⟩; exact absurd h' h
          · intro h'; split at h' <;> cases h'
    | raw x => simp [readBlobData]
    | lzma x => simp [readBlobData]
    | bzip2 x => simp [readBlobData]
    | lz4 x => simp [readBlobData]
    | zstd x => simp [readBlobData]

theorem says_iff (h : Pb.HeaderBlock) (i : FileInfo) : Says h i ↔ i = fromHeaderBlock h := by
  obtain ⟨a1, a2, a3, a4, a5, a6, a7, a8⟩ := i
  obtain ⟨b1, b2, b3, b4, b5, b6, b7, b8⟩ := h
  simp only [Says, fromHeaderBlock, FileInfo.mk.injEq]
  have : ∀ n : Int64, fromNanodeg n = rnd (rnd n.toInt / 10 ^ 9) := by
    intro n
    simp only [fromNanodeg, F64.div, F64.ofI64]
    norm_num
  simp only [this]

/-- What is known of the data of a block. -/
theorem data_of_holds {stream : Bytes → Bytes} {b data : Bytes} (h : Holds stream b data) : data.length ≤ b.length ∨ data.length < 2 ^ 31 := by
  obtain ⟨blob, hb, h | ⟨c, n, -, -, h, -⟩⟩ := h
  · obtain ⟨fs, hf, -, ds, h1, h2⟩ := hb
    left
    rw [h] at h2
    have h3 : (.raw data : Pb.BlobData) ∈ ds := List.mem_of_getLast? h2.symm
    have e := fieldList_size hf
    have : ∃ f ∈ fs, f.2 = .bytes data := by
      obtain ⟨f, hf1, hf2⟩ : ∃ f ∈ fs.filter (fun f => f.1 ∈ [1, 3, 4, 5, 6, 7]), Spec.Lenient.Stored f (.raw data) := by
        clear h2 e
        generalize fs.filter (fun f => f.1 ∈ [1, 3, 4, 5, 6, 7]) = l at h1
        induction h1 with
        | nil => cases h3
        | cons h _ ih =>
          rcases List.mem_cons.1 h3 with rfl | h3
          · exact ⟨_, by simp, h⟩
          · obtain ⟨f, hf, h'⟩ := ih h3; exact ⟨f, by simp [hf], h'⟩
      exact ⟨f, (List.mem_filter.1 hf1).1, by cases hf2; rfl⟩
    obtain ⟨f, hf1, hf2⟩ := this
    have := List.single_le_sum (fun x _ => Nat.zero_le x) _ (List.mem_map_of_mem (f := fun f : Entry => contentSize f.2 + 1) hf1)
    have hs : contentSize f.2 = data.length := by rw [hf2]; rfl
    have this : contentSize f.2 + 1 ≤ _ := this
    omega
  · right
    have := Int32.toInt_lt n
    omega

/-- What becomes of a blob, in one statement. -/
theorem deserialize_cases (z : Zlib) (t : String) (b : Bytes) (hl : b.length < 2 ^ 63) :
    (∃ i, IsHeader z.stream t b i ∧ FileBlock.deserialize z t b = .ok (.header i)) ∨
    (∃ p es, IsData z.stream t b p ∧ Complete p ∧ FileBlock.deserialize z t b = .ok (.data es) ∧ p.stringtable.s.length < 2 ^ 63 ∧ fromPrimitiveBlock p = .ok es) ∨
    ((Unsized b ∨ ∃ p, IsData z.stream t b p ∧ ¬ Complete p) ∧ FileBlock.deserialize z t b = .panic) ∨
    (¬ Unsized b ∧ (∀ i, ¬ IsHeader z.stream t b i) ∧ (∀ p, ¬ IsData z.stream t b p) ∧ FileBlock.deserialize z t b = .err) := by
  cases hb : Pb.Blob.decode b with
  | none =>
    have hno : ∀ blob, ¬ Message 99 Spec.Lenient.Blob b blob := fun blob h => by rw [← Blob.decode_iff, hb] at h; cases h
    refine .inr (.inr (.inr ⟨?_, ?_, ?_, by simp [FileBlock.deserialize, hb]⟩))
    · rintro ⟨blob, c, h, -⟩; exact hno blob h
    · rintro i ⟨-, data, h, ⟨blob, h', -⟩, -⟩; exact hno blob h'
    · rintro p ⟨-, data, ⟨blob, h', -⟩, -⟩; exact hno blob h'
  | some blob =>
    have e : FileBlock.deserialize z t b = (readBlobData z blob >>= fun data => FileBlock.new t data) := by
      simp [FileBlock.deserialize, hb]
    cases hr : readBlobData z blob with
    | panic =>
      exact .inr (.inr (.inl ⟨.inl ((unsized_of_read (z := z) hb).2 hr), by rw [e, hr]; rfl⟩))
    | err =>
      have hno : ∀ data, ¬ Holds z.stream b data := fun data h => by rw [holds_of_read hb, hr] at h; cases h
      refine .inr (.inr (.inr ⟨?_, ?_, ?_, by rw [e, hr]; rfl⟩))
      · intro h; rw [unsized_of_read (z := z) hb, hr] at h; cases h
      · rintro i ⟨-, data, h, h', -⟩; exact hno data h'
      · rintro p ⟨-, data, h', -⟩; exact hno data h'
    | ok data =>
      have hd := (holds_of_read hb).2 hr
      have huniq : ∀ data', Holds z.stream b data' → data' = data := fun data' h => by
        rw [holds_of_read hb, hr] at h; injection h with h; exact h.symm
      have hns : ¬ Unsized b := fun h => by rw [unsized_of_read (z := z) hb, hr] at h; cases h
      rw [hr, Out.ok_bind] at e
      rw [e]
      by_cases h1 : t = "OSMHeader"
      · subst h1
        have hnd : ∀ p, ¬ IsData z.stream "OSMHeader" b p := fun p h => by have := h.1; simp at this
        cases hh : Pb.HeaderBlock.decode data with
        | none =>
          refine .inr (.inr (.inr ⟨hns, ?_, hnd, by simp [FileBlock.new, parseHeader, hh]⟩))
          rintro i ⟨-, data', h, h', h'', -⟩
          rw [huniq data' h', ← HeaderBlock.decode_iff, hh] at h''
          cases h''
        | some h =>
          exact .inl ⟨fromHeaderBlock h, ⟨rfl, data, h, hd, (HeaderBlock.decode_iff _ _).1 hh, (says_iff _ _).2 rfl⟩,
            by simp [FileBlock.new, parseHeader, hh]⟩
      · by_cases h2 : t = "OSMData"
        · subst h2
          have hnh : ∀ i, ¬ IsHeader z.stream "OSMData" b i := fun i h => by have := h.1; simp at this
          cases hp : Pb.PrimitiveBlock.decode data with
          | none =>
            refine .inr (.inr (.inr ⟨hns, hnh, ?_, by simp [FileBlock.new, parseData, hp]⟩))
            rintro p ⟨-, data', h', h''⟩
            rw [huniq data' h', ← PrimitiveBlock.decode_iff, hp] at h''
            cases h''
          | some p =>
            have hm := (PrimitiveBlock.decode_iff _ _).1 hp
            have hs : p.stringtable.s.length < 2 ^ 63 := by
              have := strings_bound hm
              rcases data_of_holds hd with h | h <;> omega
            have e' : FileBlock.new "OSMData" data = (fromPrimitiveBlock p >>= fun es => .ok (.data es)) := by
              simp [FileBlock.new, parseData, hp]
            rw [e']
            rcases fromPrimitiveBlock_decides p hs with ⟨hc, es, h1, h2⟩ | ⟨hc, h1⟩
            · exact .inr (.inl ⟨p, es, ⟨rfl, data, hd, hm⟩, hc, by rw [h1]; rfl, hs, h1⟩)
            · exact .inr (.inr (.inl ⟨.inr ⟨p, ⟨rfl, data, hd, hm⟩, hc⟩, by rw [h1]; rfl⟩))
        · refine .inr (.inr (.inr ⟨hns, fun i h => h1 h.1, fun p h => h2 h.1, ?_⟩))
          simp [FileBlock.new, h1, h2]

theorem isHeader_unique {stream : Bytes → Bytes} {t : String} {b : Bytes} {i i' : FileInfo} (h : IsHeader stream t b i) (h' : IsHeader stream t b i') :
    i = i' := by
  obtain ⟨-, data, m, hd, hm, hs⟩ := h
  obtain ⟨-, data', m', hd', hm', hs'⟩ := h'
  have e : data = data' := by
    obtain ⟨blob, hb, -⟩ := id hd
    have hb' := (Blob.decode_iff _ _).2 hb
    have h1 := (holds_of_read (z := ⟨fun _ b => b, stream⟩) hb').1 hd
    have h2 := (holds_of_read (z := ⟨fun _ b => b, stream⟩) hb').1 hd'
    rw [h1] at h2; injection h2
  subst e
  have := (C86_one_meaning data).2.1 m m' hm hm'
  subst this
  rw [(says_iff _ _).1 hs, (says_iff _ _).1 hs']

theorem isData_unique {stream : Bytes → Bytes} {t : String} {b : Bytes} {p p' : Pb.PrimitiveBlock} (h : IsData stream t b p) (h' : IsData stream t b p') :
    p = p' := by
  obtain ⟨-, data, hd, hm⟩ := h
  obtain ⟨-, data', hd', hm'⟩ := h'
  have e : data = data' := by
    obtain ⟨blob, hb, -⟩ := id hd
    have hb' := (Blob.decode_iff _ _).2 hb
    have h1 := (holds_of_read (z := ⟨fun _ b => b, stream⟩) hb').1 hd
    have h2 := (holds_of_read (z := ⟨fun _ b => b, stream⟩) hb').1 hd'
    rw [h1] at h2; injection h2
  subst e
  exact (C86_one_meaning data).1 p p' hm hm'

theorem unsized_not_holds {stream : Bytes → Bytes} {b data : Bytes} (h : Unsized b) : ¬ Holds stream b data := by
  intro hd
  obtain ⟨blob, hb, -⟩ := id hd
  have hb' := (Blob.decode_iff _ _).2 hb
  have h1 := (holds_of_read (z := ⟨fun _ b => b, stream⟩) hb').1 hd
  have h2 := (unsized_of_read (z := ⟨fun _ b => b, stream⟩) hb').1 h
  rw [h1] at h2; cases h2

theorem isData_strings {stream : Bytes → Bytes} {t : String} {b : Bytes} {p : Pb.PrimitiveBlock} (hl : b.length < 2 ^ 63) (h : IsData stream t b p) :
    p.stringtable.s.length < 2 ^ 63 := by
  obtain ⟨-, data, hd, hm⟩ := h
  have := strings_bound hm
  rcases data_of_holds hd with h | h <;> omega

theorem Spec.Meaning.Block.complete {p : Pb.PrimitiveBlock} {es : List Element} (hs : p.stringtable.s.length < 2 ^ 63) (h : Spec.Meaning.Block p es) :
    Complete p := by
  rw [← fromPrimitiveBlock_iff p hs] at h
  rcases fromPrimitiveBlock_decides p hs with ⟨hc, -⟩ | ⟨-, h'⟩
  · exact hc
  · rw [h] at h'; cases h'

/-- C86. Exactly the complete messages say something, it is always one list of elements, and as many as the message lists. -/
theorem C86_meaning (p : Pb.PrimitiveBlock) (hs : p.stringtable.s.length < 2 ^ 63) :
    ((∃ es, Spec.Meaning.Block p es) ↔ Complete p) ∧
    (∀ es es', Spec.Meaning.Block p es → Spec.Meaning.Block p es' → es = es') ∧
    ∀ es, Spec.Meaning.Block p es → es.length = elementCount p := by
  simp only [← fromPrimitiveBlock_iff p hs]
  rcases fromPrimitiveBlock_decides p hs with ⟨hc, es, h1, h2⟩ | ⟨hc, h1⟩ <;> rw [h1]
  · refine ⟨⟨fun _ => hc, fun _ => ⟨es, rfl⟩⟩, ?_, ?_⟩
    · rintro a b h h'; injection h with h; injection h' with h'; exact h.symm.trans h'
    · rintro a h; injection h with h; exact h ▸ h2
  · refine ⟨⟨fun ⟨_, h⟩ => (nomatch h), fun h => (hc h).elim⟩, ?_, ?_⟩
    · rintro a b h; cases h
    · rintro a h; cases h

/-- C86. What the published format says about a block is what it says here. -/
theorem C86_published (p : Pb.PrimitiveBlock) (es : List Element) (h : Spec.Format.Block p es) : Spec.Meaning.Block p es := by
  have hs : p.stringtable.s.length < 2 ^ 63 := lt_trans h.strings_count (by norm_num)
  rw [← fromPrimitiveBlock_iff p hs]
  exact C55_block_read_as_published p es h

/-- C86. The block of type `t` stored as the blob `b`, for any bytes `b`: it is a header block exactly if it is an `OSMHeader` whose bytes are a header
message, and then says what the message says; it is a data block with the elements `es` exactly if it is an `OSMData` with a message that says so; it is a panic exactly if it is compressed and its size is not given, or negative, or it is an `OSMData` with a message that is not complete; and in
all other cases it is an error. -/
theorem C86_block (z : Zlib) (t : String) (b : Bytes) (hl : b.length < 2 ^ 63) :
    (∀ i, FileBlock.deserialize z t b = .ok (.header i) ↔ IsHeader z.stream t b i) ∧
    (∀ es, FileBlock.deserialize z t b = .ok (.data es) ↔ ∃ p, IsData z.stream t b p ∧ Spec.Meaning.Block p es) ∧
    (FileBlock.deserialize z t b = .panic ↔ Unsized b ∨ ∃ p, IsData z.stream t b p ∧ ¬ Complete p) ∧
    (FileBlock.deserialize z t b = .err ↔ ¬ Unsized b ∧ (∀ i, ¬ IsHeader z.stream t b i) ∧ ∀ p, ¬ IsData z.stream t b p) := by
  have ht : ∀ {i p}, IsHeader z.stream t b i → IsData z.stream t b p → False := fun h h' => by
    have := h.1.symm.trans h'.1; simp at this
  have hu : ∀ {i}, Unsized b → ¬ IsHeader z.stream t b i := by rintro i h ⟨-, data, _, h', -⟩; exact unsized_not_holds h h'
  have hu' : ∀ {p}, Unsized b → ¬ IsData z.stream t b p := by rintro i h ⟨-, data, h', -⟩; exact unsized_not_holds h h'
  rcases deserialize_cases z t b hl with ⟨i, h, e⟩ | ⟨p, es, h, hc, e, hs, hn⟩ | ⟨h, e⟩ | ⟨h1, h2, h3, e⟩ <;> rw [e]
  · refine ⟨fun i' => ⟨fun h' => ?_, fun h' => ?_⟩, fun n => ⟨fun h' => ?_, fun h' => ?_⟩, ⟨(nomatch ·), fun h' => ?_⟩, ⟨(nomatch ·), fun h' => ?_⟩⟩
    · injection h' with h'; injection h' with h'; exact h' ▸ h
    · rw [isHeader_unique h h']
    · cases h'
    · obtain ⟨p, h', -⟩ := h'; exact (ht h h').elim
    · rcases h' with h' | ⟨p, h', -⟩
      · exact (hu h' h).elim
      · exact (ht h h').elim
    · exact (h'.2.1 i h).elim
  · refine ⟨fun i' => ⟨(nomatch ·), fun h' => ?_⟩, fun n => ⟨fun h' => ?_, fun h' => ?_⟩, ⟨(nomatch ·), fun h' => ?_⟩, ⟨(nomatch ·), fun h' => ?_⟩⟩
    · exact (ht h' h).elim
    · injection h' with h'; injection h' with h'
      exact ⟨p, h, (fromPrimitiveBlock_iff p hs _).1 (h' ▸ hn)⟩
    · obtain ⟨p', h', hm⟩ := h'
      rw [← isData_unique h h', ← fromPrimitiveBlock_iff p hs, hn] at hm
      injection hm with hm; rw [hm]
    · rcases h' with h' | ⟨p', h', hc'⟩
      · exact (hu' h' h).elim
      · exact (hc' (isData_unique h h' ▸ hc)).elim
    · exact (h'.2.2 p h).elim
  · refine ⟨fun i' => ⟨(nomatch ·), fun h' => ?_⟩, fun n => ⟨fun h' => ?_, fun h' => ?_⟩, ⟨fun _ => h, fun _ => rfl⟩, ⟨(nomatch ·), fun h' => ?_⟩⟩
    · rcases h with h | ⟨p, h, -⟩
      · exact (hu h h').elim
      · exact (ht h' h).elim
    · cases h'
    · obtain ⟨p, h', hc⟩ := h'
      rcases h with h | ⟨p', h, hc'⟩
      · exact (hu' h h').elim
      · exact (hc' (isData_unique h h' ▸ (Spec.Meaning.Block.complete (isData_strings hl h') hc))).elim
    · rcases h with h | ⟨p, h, -⟩
      · exact (h'.1 h).elim
      · exact (h'.2.2 p h).elim
  · refine ⟨fun i' => ⟨(nomatch ·), fun h' => (h2 i' h').elim⟩, fun n => ⟨fun h' => ?_, fun h' => ?_⟩, ⟨(nomatch ·), fun h' => ?_⟩, ⟨fun _ => ⟨h1, h2, h3⟩, fun _ => rfl⟩⟩
    · cases h'
    · obtain ⟨p, h', -⟩ := h'; exact (h3 p h').elim
    · rcases h' with h' | ⟨p, h', -⟩
      · exact (h1 h').elim
      · exact (h3 p h').elim

end OsmIo
