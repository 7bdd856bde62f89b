import Verif.Props.File
/-!
# Opening files, header metadata, refusal of unsupported content: C15-C18, C31, C32, C39
-/
set_option linter.unusedSimpArgs false
set_option linter.flexible false
namespace OsmIo
open Wire Spec

/-! ## C17: opening -/

/-- The missing features reported are exactly the required ones that are not supported. -/
theorem C17_missing_features (supported required : List String) (f : String) :
    f ∈ findMissingFeatures supported required ↔ f ∈ required ∧ f ∉ supported := by
  unfold findMissingFeatures
  split
  · rename_i h
    simp at h
    simp
    exact fun hf => h f hf
  · simp [List.mem_eraseDups]

/-- C17. A file is opened exactly when its first block is a header all of whose required features are supported; the
reader then exposes that header's metadata. -/
theorem C17_open_iff (z : Zlib) (file : Bytes) (info : FileInfo) :
    openReader z file = .ok info ↔
      (∃ it, nextBlock z file {} = .ok (some (.header info, it))) ∧ ∀ f ∈ info.required_features, Supported f := by
  have hs : ∀ req : List String, verifySupportedFeatures supportedFeatures req = .ok () ↔ ∀ f ∈ req, Supported f := by
    intro req
    unfold verifySupportedFeatures
    constructor
    · intro h f hf
      by_contra hc
      have : f ∈ findMissingFeatures supportedFeatures req := by
        rw [C17_missing_features]
        refine ⟨hf, ?_⟩
        simpa [supportedFeatures, Supported] using hc
      split at h
      · rename_i he; simp at he; rw [he] at this; simp at this
      · simp at h
    · intro h
      rw [if_pos]
      simp only [List.isEmpty_iff]
      rw [List.eq_nil_iff_forall_not_mem]
      intro f hf
      rw [C17_missing_features] at hf
      apply hf.2
      have := h f hf.1
      simpa [supportedFeatures, Supported] using this
  unfold openReader
  split
  · rename_i i it hn
    rw [hn]
    simp only [Out.bind_eq_ok, Out.ok.injEq, Option.some.injEq, Prod.mk.injEq, FileBlock.header.injEq]
    constructor
    · rintro ⟨u, hv, rfl⟩
      exact ⟨⟨it, rfl, rfl⟩, (hs _).mp hv⟩
    · rintro ⟨⟨_, rfl, _⟩, h⟩
      exact ⟨(), (hs _).mpr h, rfl⟩
  · rename_i hn; rw [hn]; simp
  · rename_i hn; rw [hn]; simp
  · rename_i h1 h2 h3
    simp
    intro it hn
    exact absurd hn (h1 _ _)

/-- C17. When the first block is a header with an unsupported feature, opening is refused with an error. -/
theorem C17_unsupported_refused (z : Zlib) (file : Bytes) (info : FileInfo) (it : BlobIter) (f : String)
    (hn : nextBlock z file {} = .ok (some (.header info, it))) (hf : f ∈ info.required_features) (hs : ¬ Supported f) :
    openReader z file = .err := by
  have h := (C17_open_iff z file info)
  have : verifySupportedFeatures supportedFeatures info.required_features = .err := by
    unfold verifySupportedFeatures
    rw [if_neg]
    simp only [List.isEmpty_iff]
    intro he
    have : f ∈ findMissingFeatures supportedFeatures info.required_features := by
      rw [C17_missing_features]
      exact ⟨hf, by simpa [supportedFeatures, Supported] using hs⟩
    rw [he] at this; simp at this
  unfold openReader
  rw [hn]
  simp [this]

/-- C17. Opening reports an error exactly when the file has no first block, when that block is a data block, or when it
is a header with an unsupported feature. -/
theorem C17_error_iff (z : Zlib) (file : Bytes) :
    openReader z file = .err ↔
      nextBlock z file {} = .ok none ∨ (∃ es it, nextBlock z file {} = .ok (some (.data es, it))) ∨
      ∃ info it, nextBlock z file {} = .ok (some (.header info, it)) ∧ ∃ f ∈ info.required_features, ¬ Supported f := by
  cases hn : nextBlock z file {} with
  | err => unfold openReader; rw [hn]; simp
  | panic => unfold openReader; rw [hn]; simp
  | ok r =>
    rcases r with _ | ⟨b, it⟩
    · unfold openReader; rw [hn]; simp
    · cases b with
      | data es => unfold openReader; rw [hn]; simp
      | header info =>
        constructor
        · intro h
          refine .inr (.inr ⟨info, it, rfl, ?_⟩)
          by_contra hc
          have : openReader z file = .ok info :=
            (C17_open_iff z file info).2 ⟨⟨it, hn⟩, fun f hf => by_contra fun hs => hc ⟨f, hf, hs⟩⟩
          rw [h] at this
          simp at this
        · rintro (h | ⟨es, it', h⟩ | ⟨info', it', h, f, hf, hs⟩)
          · simp at h
          · simp at h
          · simp at h
            obtain ⟨rfl, rfl⟩ := h
            exact C17_unsupported_refused z file info it f hn hf hs

/-- C17. Otherwise, when the first block cannot be parsed, opening panics. -/
theorem C17_panic_iff (z : Zlib) (file : Bytes) :
    openReader z file = .panic ↔ nextBlock z file {} = .panic := by
  cases hn : nextBlock z file {} with
  | err =>
    exfalso
    unfold nextBlock at hn
    split at hn
    · simp at hn
    · split at hn <;> simp at hn
    · simp at hn
  | panic => unfold openReader; rw [hn]; simp
  | ok r =>
    rcases r with _ | ⟨b, it⟩
    · unfold openReader; rw [hn]; simp
    · cases b with
      | data es => unfold openReader; rw [hn]; simp
      | header info =>
        unfold openReader
        rw [hn]
        simp only [verifySupportedFeatures]
        split <;> simp

/-! ## C15, C16: metadata -/

/-- Header bytes are read back to what the message carries. -/
theorem written_header (z : Zlib) (hz : z.Lossless) (c : CompressionType) (info : FileInfo) (rest : Bytes)
    (hn : ¬ EmptyInfo info) (hh : HeaderFits z c info) :
    ∃ it, nextBlock z (((Writer.fromFileInfo info c).writeHeader z).file ++ rest) {} =
      .ok (some (.header (fromHeaderBlock (toHeaderBlock info)), it)) := by
  obtain ⟨it, h, _⟩ := nextBlock_frame hz (headerOk hn hh) (file := ((Writer.fromFileInfo info c).writeHeader z).file ++ rest)
    (pre := []) (post := rest) (by simp [Writer.writeHeader, Writer.writeFileBlock, Writer.writeBlob, Writer.fromFileInfo])
    (it := {}) (by simp)
  exact ⟨it, h⟩

/-- C15. A file starting with a written header whose required features are supported opens with the same metadata
(whatever follows); only the bounding box may differ, see C16. -/
theorem C15_header_roundtrip (z : Zlib) (hz : z.Lossless) (c : CompressionType) (info : FileInfo) (rest : Bytes)
    (hn : ¬ EmptyInfo info) (hh : HeaderFits z c info) (hs : ∀ f ∈ info.required_features, Supported f) :
    ∃ info', openReader z (((Writer.fromFileInfo info c).writeHeader z).file ++ rest) = .ok info' ∧
      info' = { info with bounding_box := info'.bounding_box } ∧
      info'.bounding_box = info.bounding_box.map fun b =>
        ⟨fromNanodeg (toNanodeg b.left), fromNanodeg (toNanodeg b.bottom), fromNanodeg (toNanodeg b.right),
          fromNanodeg (toNanodeg b.top)⟩ := by
  refine ⟨fromHeaderBlock (toHeaderBlock info), ?_, rfl, ?_⟩
  · rw [C17_open_iff]
    exact ⟨written_header z hz c info rest hn hh, hs⟩
  · simp [fromHeaderBlock, toHeaderBlock, headerBBox, Function.comp_def]

example : ¬ EmptyInfo exInfo ∧ HeaderFits exZ .zlib exInfo ∧ ∀ f ∈ exInfo.required_features, Supported f :=
  ⟨exInfo_nonempty, exInfo_fits, by simp [exInfo, FileInfo.default, Supported]⟩

/-- C15 fails for metadata without any content: the file cannot be opened (the reader panics). -/
theorem C15_empty_info_unreadable (z : Zlib) (c : CompressionType) (info : FileInfo) (rest : Bytes) (he : EmptyInfo info) :
    openReader z (((Writer.fromFileInfo info c).writeHeader z).file ++ rest) = .panic := by
  have h0 : serializeHeader info = [] := (serializeHeader_eq_nil info).mpr he
  have hbody : ((FileBlock.header info).serialize z c).2 = [] := by
    simp only [FileBlock.serialize, FileBlock.payload, h0, FileBlock.blob]
    rfl
  have hframe : FrameOk ((FileBlock.header info).blobHeader z c) ((FileBlock.header info).serialize z c).2 :=
    ⟨blobHeader_length _ (by simp only [FileBlock.payload]; decide) _, by rw [hbody]; decide, rfl⟩
  have hn := next_frame hframe (pre := []) (post := rest) (it := {})
    (file := ((Writer.fromFileInfo info c).writeHeader z).file ++ rest)
    (by simp [Writer.writeHeader, Writer.writeFileBlock, Writer.writeBlob, Writer.fromFileInfo, serialize_fst]) (by simp)
  have hd : ∀ t, FileBlock.deserialize z t [] = .err := by
    intro t
    simp [FileBlock.deserialize, Pb.Blob.decode, Wire.parse, Wire.parseGo, readBlobData]
  have : nextBlock z (((Writer.fromFileInfo info c).writeHeader z).file ++ rest) {} = .panic := by
    have hfb : ∀ file (d : BlobDesc), d.length = 0 → ∀ b, FileBlock.fromBlobDesc z file d ≠ .ok b := by
      intro file d h0 b
      unfold FileBlock.fromBlobDesc
      rw [h0]
      split
      · simp
      · split
        · simp
        · rename_i buf hr
          rw [List.length_eq_zero_iff.mp (readAt_length hr), hd]
          simp
    unfold nextBlock
    rw [hn]
    simp only
    split
    · rename_i hb
      exact absurd hb (hfb _ _ (by simp [hbody]) _)
    · rfl
  unfold openReader
  rw [this]

example : EmptyInfo ⟨none, [], [], none, none, none, none, none⟩ := by simp [EmptyInfo]

/-- The nanodegree value stored for a side. -/
theorem toNanodeg_spec (x : F64) (hx : |x| ≤ 180) : |((toNanodeg x).toInt : ℚ) - x * 10 ^ 9| < 1 + 1 / 40000 ∧
    |(toNanodeg x).toInt| ≤ 2 ^ 53 := by
  unfold toNanodeg F64.mul F64.toI64
  have h1 := rnd_err (x * 1000000000)
  have h2 : |x * 1000000000| ≤ 180 * 10 ^ 9 := by rw [abs_mul]; norm_num; linarith
  have h3 : |rnd (x * 1000000000) - x * 1000000000| ≤ 1 / 45000 := by
    refine h1.trans ?_
    calc (1 : ℚ) / 2 ^ 53 * |x * 1000000000| ≤ 1 / 2 ^ 53 * (180 * 10 ^ 9) := by gcongr
      _ ≤ 1 / 45000 := by norm_num
  set y := rnd (x * 1000000000) with hy
  have h4 : |y| ≤ 180 * 10 ^ 9 + 1 := by
    have := abs_sub_abs_le_abs_sub y (x * 1000000000)
    have : (1 : ℚ) / 45000 ≤ 1 := by norm_num
    linarith
  have h5 : |(F64.trunc y : ℚ) - y| < 1 := by
    unfold F64.trunc
    split
    · have a := Int.floor_le y; have b := Int.lt_floor_add_one y
      rw [abs_lt]; constructor <;> linarith
    · have a := Int.le_ceil y; have b := Int.ceil_lt_add_one y
      rw [abs_lt]; constructor <;> linarith
  have h6 : |(F64.trunc y : ℚ)| < 180 * 10 ^ 9 + 2 := by
    have := abs_sub_abs_le_abs_sub (F64.trunc y : ℚ) y
    linarith
  have h7 : |F64.trunc y| < 180 * 10 ^ 9 + 2 := by exact_mod_cast h6
  rw [abs_lt] at h7
  have h8 : max (-9223372036854775808) (min 9223372036854775807 (F64.trunc y)) = F64.trunc y := by
    rw [min_eq_right (by omega), max_eq_right (by omega)]
  rw [h8, toInt_ofInt64 (by omega) (by omega)]
  constructor
  · calc |(F64.trunc y : ℚ) - x * 10 ^ 9| = |((F64.trunc y : ℚ) - y) + (y - x * 1000000000)| := by norm_num
      _ ≤ |(F64.trunc y : ℚ) - y| + |y - x * 1000000000| := abs_add_le _ _
      _ < 1 + 1 / 45000 := by linarith
      _ ≤ 1 + 1 / 40000 := by norm_num
  · rw [abs_le]; constructor <;> omega

/-- C16. A side of the bounding box (within 180 degrees) comes back within 1.0001 nanodegree. -/
theorem C16_bbox_side (x : F64) (hx : |x| ≤ 180) : |fromNanodeg (toNanodeg x) - x| < 10001 / 10 ^ 13 := by
  obtain ⟨h1, h2⟩ := toNanodeg_spec x hx
  unfold fromNanodeg F64.div
  rw [F64.ofI64_eq _ h2]
  set n : ℚ := ((toNanodeg x).toInt : ℚ)
  have h3 : |n / 10 ^ 9 - x| < (1 + 1 / 40000) / 10 ^ 9 := by
    have : n / 10 ^ 9 - x = (n - x * 10 ^ 9) / 10 ^ 9 := by field_simp
    rw [this, abs_div, abs_of_pos (by norm_num : (0 : ℚ) < 10 ^ 9)]
    gcongr
  have h4 := rnd_err (n / 1000000000)
  have h5 : |n / 1000000000| ≤ 181 := by
    have := abs_sub_abs_le_abs_sub (n / 10 ^ 9) x
    norm_num at this h3 ⊢
    linarith
  have h6 : |rnd (n / 1000000000) - n / 1000000000| ≤ 181 / 2 ^ 53 := by
    refine h4.trans ?_
    calc (1 : ℚ) / 2 ^ 53 * |n / 1000000000| ≤ 1 / 2 ^ 53 * 181 := by gcongr
      _ = _ := by norm_num
  calc |rnd (n / 1000000000) - x| = |(rnd (n / 1000000000) - n / 1000000000) + (n / 10 ^ 9 - x)| := by norm_num
    _ ≤ |rnd (n / 1000000000) - n / 1000000000| + |n / 10 ^ 9 - x| := abs_add_le _ _
    _ < 181 / 2 ^ 53 + (1 + 1 / 40000) / 10 ^ 9 := by linarith
    _ ≤ 10001 / 10 ^ 13 := by norm_num

/-- C16. A side never grows in magnitude beyond two roundings of double arithmetic. -/
theorem C16_bbox_no_growth (x : F64) (hx : |x| ≤ 180) :
    |fromNanodeg (toNanodeg x)| ≤ |x| * (1 + 1 / 2 ^ 53) ^ 2 := by
  obtain ⟨_, h2⟩ := toNanodeg_spec x hx
  have hrel : ∀ q : ℚ, |rnd q| ≤ |q| * (1 + 1 / 2 ^ 53) := by
    intro q
    have h := rnd_err q
    have := abs_sub_abs_le_abs_sub (rnd q) q
    nlinarith
  have htr : ∀ y : ℚ, |(F64.trunc y : ℚ)| ≤ |y| := by
    intro y
    unfold F64.trunc
    split
    · rename_i h
      rw [abs_of_nonneg h, abs_of_nonneg (by exact_mod_cast Int.floor_nonneg.mpr h)]
      exact Int.floor_le y
    · rename_i h
      have h : y < 0 := not_le.mp h
      have hc : ⌈y⌉ ≤ 0 := Int.ceil_le.mpr (by exact_mod_cast h.le)
      rw [abs_of_neg h, abs_of_nonpos (by exact_mod_cast hc)]
      have := Int.le_ceil y
      linarith
  have hn : |((toNanodeg x).toInt : ℚ)| ≤ |x * 1000000000| * (1 + 1 / 2 ^ 53) := by
    refine le_trans ?_ (hrel (x * 1000000000))
    refine le_trans ?_ (htr (rnd (x * 1000000000)))
    unfold toNanodeg F64.mul F64.toI64
    generalize F64.trunc (rnd (x * 1000000000)) = t
    have h3 : (Int64.ofInt (max (-9223372036854775808) (min 9223372036854775807 t))).toInt =
        max (-9223372036854775808) (min 9223372036854775807 t) := toInt_ofInt64 (by omega) (by omega)
    rw [h3]
    have : |max (-9223372036854775808) (min 9223372036854775807 t)| ≤ |t| := by
      rw [abs_le]
      rcases abs_cases t with ⟨h, h'⟩ | ⟨h, h'⟩ <;> rw [h] <;> constructor <;> omega
    exact_mod_cast this
  unfold fromNanodeg F64.div
  rw [F64.ofI64_eq _ h2]
  refine (hrel _).trans ?_
  rw [abs_div, abs_of_pos (by norm_num : (0 : ℚ) < 1000000000)]
  rw [abs_mul, abs_of_pos (by norm_num : (0 : ℚ) < 1000000000)] at hn
  have : |((toNanodeg x).toInt : ℚ)| / 1000000000 ≤ |x| * (1 + 1 / 2 ^ 53) := by
    rw [div_le_iff₀ (by norm_num)]; linarith
  calc _ ≤ |x| * (1 + 1 / 2 ^ 53) * (1 + 1 / 2 ^ 53) := by gcongr
    _ = _ := by ring

/-- C16. All four sides of a written bounding box come back within 1.0001 nanodegree, on the right sides. -/
theorem C16_bbox_roundtrip (z : Zlib) (hz : z.Lossless) (c : CompressionType) (info : FileInfo) (rest : Bytes) (b : BoundingBox)
    (hb : info.bounding_box = some b) (hr : |b.left| ≤ 180 ∧ |b.bottom| ≤ 180 ∧ |b.right| ≤ 180 ∧ |b.top| ≤ 180)
    (hh : HeaderFits z c info) (hs : ∀ f ∈ info.required_features, Supported f) :
    ∃ info' b', openReader z (((Writer.fromFileInfo info c).writeHeader z).file ++ rest) = .ok info' ∧
      info'.bounding_box = some b' ∧
      |b'.left - b.left| < 10001 / 10 ^ 13 ∧ |b'.bottom - b.bottom| < 10001 / 10 ^ 13 ∧
      |b'.right - b.right| < 10001 / 10 ^ 13 ∧ |b'.top - b.top| < 10001 / 10 ^ 13 := by
  have hn : ¬ EmptyInfo info := by intro h; rw [h.1] at hb; simp at hb
  obtain ⟨info', ho, _, hbb⟩ := C15_header_roundtrip z hz c info rest hn hh hs
  rw [hb] at hbb
  exact ⟨info', _, ho, hbb, C16_bbox_side _ hr.1, C16_bbox_side _ hr.2.1, C16_bbox_side _ hr.2.2.1, C16_bbox_side _ hr.2.2.2⟩

/-- C16. Writing and reading is not idempotent on bounding boxes: 2.01 degrees loses a nanodegree on the first cycle; 1915
nanodegrees lose one nanodegree on each of two cycles. -/
theorem C16_drift :
    toNanodeg (rnd (201 / 100)) = 2009999999 ∧
    toNanodeg (fromNanodeg 1915) = 1914 ∧ toNanodeg (fromNanodeg 1914) = 1913 := by
  refine ⟨by decide +kernel, by decide +kernel, by decide +kernel⟩

/-! ## C39: header flags of `Writer::new` -/

/-- C39. `Writer::new` requests `HistoricalInformation` exactly when asked to, and the reader opens the file with
exactly the metadata passed in. -/
theorem C39_writer_new (z : Zlib) (hz : z.Lossless) (program source : String) (ts seq : Option Int64) (url : Option String)
    (c : CompressionType) (bbox : Option BoundingBox) (history : Bool) (rest : Bytes)
    (hh : HeaderFits z c (Writer.new program source ts seq url c bbox history).file_info) :
    ∃ info, openReader z (((Writer.new program source ts seq url c bbox history).writeHeader z).file ++ rest) = .ok info ∧
      ("HistoricalInformation" ∈ info.required_features ↔ history = true) ∧
      (∀ f, f ≠ "HistoricalInformation" → (f ∈ info.required_features ↔ f = "OsmSchema-V0.6" ∨ f = "DenseNodes")) ∧
      info.writingprogram = some program ∧ info.source = some source ∧ info.osmosis_replication_timestamp = ts ∧
      info.osmosis_replication_sequence_number = seq ∧ info.osmosis_replication_base_url = url ∧
      info.optional_features = ["Sort.Type_then_ID"] ∧ (info.bounding_box.isSome = bbox.isSome) := by
  have e : Writer.new program source ts seq url c bbox history =
      Writer.fromFileInfo (Writer.new program source ts seq url c bbox history).file_info c := rfl
  have hn : ¬ EmptyInfo (Writer.new program source ts seq url c bbox history).file_info := by
    simp [EmptyInfo, Writer.new, Writer.fromFileInfo]
  have hs : ∀ f ∈ (Writer.new program source ts seq url c bbox history).file_info.required_features, Supported f := by
    cases history <;> simp [Writer.new, Writer.fromFileInfo, Supported]
  obtain ⟨info, ho, he, hb⟩ := C15_header_roundtrip z hz c _ rest hn hh hs
  rw [← e] at ho
  refine ⟨info, ho, ?_⟩
  rw [he, hb]
  cases history <;> simp +contextual [Writer.new, Writer.fromFileInfo]

/-- C39. The default metadata can be written and opened; it says that the file follows the schema 0.6, has dense nodes and is sorted, and
nothing else. -/
theorem C39_default (z : Zlib) (hz : z.Lossless) (c : CompressionType) (rest : Bytes) (hh : HeaderFits z c .default) :
    openReader z (((Writer.fromFileInfo .default c).writeHeader z).file ++ rest) =
      .ok ⟨none, ["OsmSchema-V0.6", "DenseNodes"], ["Sort.Type_then_ID"], none, none, none, none, none⟩ := by
  obtain ⟨info, ho, he, hb⟩ := C15_header_roundtrip z hz c .default rest (by simp [EmptyInfo, FileInfo.default]) hh
    (by simp [FileInfo.default, Supported])
  rw [ho, he, hb]
  rfl

example : HeaderFits exZ .zlib .default ∧ HeaderFits exZ .uncompressed .default :=
  ⟨⟨by decide +kernel, by decide +kernel⟩, by decide +kernel, by decide +kernel⟩

example : HeaderFits exZ .zlib (Writer.new "p" "s" (some 5) none none .zlib (some BoundingBox.default) true).file_info :=
  ⟨by decide +kernel, by decide +kernel⟩

/-! ## C18: what sequential iteration delivers -/

/-- C18. If the blocks of a file are a first block, then data blocks, then nothing or a header block (and anything after
it), iteration delivers the concatenation of the elements of those data blocks in file order. Empty blocks are
skipped; a block iteration that fails after the data blocks makes the loop panic. -/
theorem C18_iteration_order (z : Zlib) (file : Bytes) (fuel : Nat) (first : FileBlock) (blocks : List (List Element))
    (tail : List FileBlock) (e : End) (he : e ≠ .more)
    (h : takeBlocks z file fuel {} = (first :: (blocks.map .data ++ tail), e))
    (htail : tail = [] ∨ ∃ i rest, tail = .header i :: rest) (es : List Element) (r : End) :
    ReadsElements z file es r ↔ es = blocks.flatten ∧ r = (if tail = [] then e else .done) := by
  rw [reads_iff h he]
  have : ∀ blocks : List (List Element), stream (blocks.map FileBlock.data ++ tail) e =
      (blocks.flatten, if tail = [] then e else .done) := by
    intro blocks
    induction blocks with
    | nil =>
      rcases htail with rfl | ⟨i, rest, rfl⟩ <;> simp [stream]
    | cons b bs ih => simp [stream, ih]
  simp [streamAll, this]

/-- Every file's block sequence has the shape required by `C18_iteration_order`. -/
theorem C18_shape (bs : List FileBlock) : ∃ (blocks : List (List Element)) (tail : List FileBlock),
    bs = blocks.map .data ++ tail ∧ (tail = [] ∨ ∃ i rest, tail = .header i :: rest) := by
  induction bs with
  | nil => exact ⟨[], [], rfl, .inl rfl⟩
  | cons b bs ih =>
    cases b with
    | header i => exact ⟨[], .header i :: bs, rfl, .inr ⟨i, bs, rfl⟩⟩
    | data es =>
      obtain ⟨blocks, tail, rfl, ht⟩ := ih
      exact ⟨es :: blocks, tail, rfl, ht⟩

/-- A file with an empty data block, and a header block in the middle, meets the hypotheses of C18. -/
def exFile : Bytes :=
  blockBytes exZ .zlib [.header exInfo, .data [], .data [.way exWay], .header exInfo, .data [.way exWay]]

example : takeBlocks exZ exFile 6 {} =
    (.header (fromHeaderBlock (toHeaderBlock exInfo)) :: ([[], [.way exWay]].map .data ++
      [.header (fromHeaderBlock (toHeaderBlock exInfo)), .data [.way exWay]]), .done) := by
  decide +kernel

/-! ## C31: unsupported content -/

/-- C31. A blob with data in an unsupported compression, or without data, is refused with an error, whatever its type. -/
theorem C31_unsupported_blob (z : Zlib) (t : String) (blob : Pb.Blob) (buf : Bytes) (hd : Pb.Blob.decode buf = some blob)
    (hu : blob.data = none ∨ ∃ b, blob.data = some (.lzma b) ∨ blob.data = some (.bzip2 b) ∨ blob.data = some (.lz4 b) ∨
      blob.data = some (.zstd b)) :
    FileBlock.deserialize z t buf = .err := by
  unfold FileBlock.deserialize readBlobData
  rw [hd]
  rcases hu with h | ⟨b, h | h | h | h⟩ <;> simp [h]

/-- C31. A blob whose type is neither `OSMHeader` nor `OSMData` never yields a block. -/
theorem C31_unknown_type (z : Zlib) (t : String) (buf : Bytes) (h1 : t ≠ "OSMHeader") (h2 : t ≠ "OSMData") (b : FileBlock) :
    FileBlock.deserialize z t buf ≠ .ok b := by
  unfold FileBlock.deserialize
  split
  · simp
  · intro h
    rw [Out.bind_eq_ok] at h
    obtain ⟨d, _, h⟩ := h
    simp [FileBlock.new, h1, h2] at h

/-- C31. Hence neither kind of iteration delivers an element for such a blob: the parallel command fails and the sequential
iterator panics. -/
theorem C31_no_elements (z : Zlib) (file : Bytes) (d : BlobDesc) (hb : ∀ b, FileBlock.fromBlobDesc z file d ≠ .ok b) :
    iterationCalls z file d = none ∧
    ∀ it it' : BlobIter, it.next file = .ok (some (d, it')) → nextBlock z file it = .panic := by
  constructor
  · unfold iterationCalls
    split
    · rename_i h; exact absurd h (hb _)
    · rename_i h; exact absurd h (hb _)
    · rfl
  · intro it it' hn
    unfold nextBlock
    simp only [hn]

example : Pb.Blob.decode (Pb.Blob.encode ⟨some 3, some (.lz4 [1, 2])⟩) = some ⟨some 3, some (.lz4 [1, 2])⟩ := by decide +kernel

/-! ## C32: blob iteration terminates when sizes are not negative -/

/-- No blob header met during the iteration announces a negative size (as an unsigned length: 2^63 or more). -/
def SizesNonneg (file : Bytes) (it : BlobIter) : Prop :=
  ∀ n, ∀ d ∈ (takeBlobs file n it).1, d.length < 2 ^ 63

theorem SizesNonneg.head {file : Bytes} {it it' : BlobIter} {d : BlobDesc} (hs : SizesNonneg file it)
    (hn : it.next file = .ok (some (d, it'))) : d.length < 2 ^ 63 :=
  hs 1 d (by simp [takeBlobs, hn])

theorem SizesNonneg.tail {file : Bytes} {it it' : BlobIter} {d : BlobDesc} (hs : SizesNonneg file it)
    (hn : it.next file = .ok (some (d, it'))) : SizesNonneg file it' :=
  fun n d hd => hs (n + 1) d (by simp [takeBlobs, hn, hd])

theorem takeBlobs_ends (file : Bytes) (fuel : Nat) (it : BlobIter) (hs : SizesNonneg file it)
    (h : (file.length : Int) < it.pos + it.jump + 4 * fuel + 4) :
    (takeBlobs file (fuel + 1) it).2 ≠ .more := by
  induction fuel generalizing it with
  | zero =>
    simp only [takeBlobs]
    split
    · simp
    · rename_i d it' hn
      obtain ⟨hd, ok⟩ := next_some hn
      have := ok.pos; have := ok.room
      push_cast at h
      omega
    · simp
  | succ fuel ih =>
    rw [takeBlobs]
    split
    · simp
    · rename_i d it' hn
      obtain ⟨hd, ok⟩ := next_some hn
      have h2 := nonneg_length (i := hd.datasize) (by rw [← ok.length]; exact hs.head hn)
      have := ok.pos; have := ok.jump
      exact ih it' (hs.tail hn) (by push_cast at h; omega)
    · simp

theorem takeBlobs_spec (file : Bytes) (fuel : Nat) (it : BlobIter) (hs : SizesNonneg file it) :
    ((takeBlobs file fuel it).1.Pairwise fun a b => a.start + 4 ≤ b.start) ∧
    ∀ d ∈ (takeBlobs file fuel it).1, it.pos + it.jump + 4 ≤ d.start ∧ d.start ≤ file.length := by
  induction fuel generalizing it with
  | zero => simp [takeBlobs]
  | succ fuel ih =>
    rw [takeBlobs]
    split
    · simp
    · rename_i d it' hn
      obtain ⟨hd, ok⟩ := next_some hn
      have h2 := nonneg_length (i := hd.datasize) (by rw [← ok.length]; exact hs.head hn)
      obtain ⟨i1, i2⟩ := ih it' (hs.tail hn)
      have := ok.pos; have := ok.jump; have := ok.start; have := ok.room
      simp only
      refine ⟨List.pairwise_cons.mpr ⟨fun b hb => ?_, i1⟩, ?_⟩
      · have := (i2 b hb).1
        omega
      · intro b hb
        rcases List.mem_cons.mp hb with rfl | hb
        · constructor <;> omega
        · have := i2 b hb
          constructor <;> omega
    · simp

/-- C32. When no blob header announces a negative size, iteration over the blobs of any byte string ends (or panics on a
negative header length) after at most `length / 4` blobs; offsets increase strictly and stay within the file. -/
theorem C32_blob_iteration_terminates (file : Bytes) (hs : SizesNonneg file {}) :
    (takeBlobs file (file.length / 4 + 1) {}).2 ≠ .more ∧
    (takeBlobs file (file.length / 4 + 1) {}).1.length ≤ file.length / 4 ∧
    ((takeBlobs file (file.length / 4 + 1) {}).1.Pairwise fun a b => a.start < b.start) ∧
    ∀ d ∈ (takeBlobs file (file.length / 4 + 1) {}).1, d.start ≤ file.length := by
  have hend := takeBlobs_ends file (file.length / 4) {} hs (by simp; omega)
  obtain ⟨h1, h2⟩ := takeBlobs_spec file (file.length / 4 + 1) {} hs
  refine ⟨hend, ?_, h1.imp (by intro a b h; omega), fun d hd => (h2 d hd).2⟩
  -- the `k`-th offset is at least `4 (k + 1)`
  have key : ∀ (l : List BlobDesc) (n : Nat), (l.Pairwise fun a b => a.start + 4 ≤ b.start) →
      (∀ d ∈ l, n + 4 ≤ d.start ∧ d.start ≤ file.length) → n + 4 * l.length ≤ max n file.length := by
    intro l
    induction l with
    | nil => intro n _ _; simp
    | cons d l ih =>
      intro n hp hb
      rw [List.pairwise_cons] at hp
      have hd := hb d (by simp)
      have := ih d.start hp.2 fun x hx => ⟨hp.1 x hx, (hb x (by simp [hx])).2⟩
      rw [max_eq_right hd.2] at this
      rw [max_eq_right (by omega)]
      simp only [List.length_cons]
      omega
  have := key _ 0 h1 fun d hd => by have := h2 d hd; simp at this; omega
  simp at this
  omega

theorem takeBlobs_stable {file : Bytes} {m : Nat} {it : BlobIter} (h : (takeBlobs file m it).2 ≠ .more) (n : Nat) :
    ∀ d ∈ (takeBlobs file n it).1, d ∈ (takeBlobs file m it).1 := by
  induction m generalizing it n with
  | zero => exact absurd rfl h
  | succ m ih =>
    cases n with
    | zero => simp [takeBlobs]
    | succ n =>
      rw [takeBlobs] at h ⊢
      rw [takeBlobs]
      split <;> rename_i hn
      · simp
      · rw [hn] at h
        intro d hd
        simp only [List.mem_cons] at hd ⊢
        rcases hd with rfl | hd
        · simp
        · exact .inr (ih h n d hd)
      · simp

example : SizesNonneg exFile {} ∧ (takeBlobs exFile (exFile.length / 4 + 1) {}).1.length = 5 := by
  have h : (takeBlobs exFile 6 {}).2 ≠ .more ∧ ∀ d ∈ (takeBlobs exFile 6 {}).1, d.length < 2 ^ 63 := by decide +kernel
  exact ⟨fun n d hd => h.2 d (takeBlobs_stable h.1 n d hd), by decide +kernel⟩

/-- A file of one blob header announcing the size `-(4 + header length)`. -/
def loopFile : Bytes := blobBytes (Pb.BlobHeader.encode ⟨"", none, -17⟩) []

/-- C32. With a negative size the iteration can go on forever: for `loopFile` no number of steps exhausts it. -/
theorem C32_negative_size_loops (fuel : Nat) : (takeBlobs loopFile fuel {}).2 = .more ∧ (takeBlobs loopFile fuel {}).1.length = fuel := by
  have h0 : ∀ i, BlobIter.next loopFile ⟨0, 0, i⟩ = .ok (some (⟨i, 17, 18446744073709551599, ""⟩, ⟨17, -17, i + 1⟩)) := by
    intro i
    have ok : readAt loopFile 0 4 = some [0, 0, 0, 13] ∧ readAt loopFile 4 13 = some (Pb.BlobHeader.encode ⟨"", none, -17⟩) ∧
      ofBeBytes 0 0 0 13 = 13 := by decide +kernel
    have hd : Pb.BlobHeader.decode (Pb.BlobHeader.encode ⟨"", none, -17⟩) = some ⟨"", none, -17⟩ := by decide +kernel
    have e0 : ((0 : Nat) : Int) + 0 = 0 := rfl
    simp only [BlobIter.next, e0, lt_irrefl, if_false, Int.toNat_zero, ok.1, ok.2.2]
    rw [if_neg (by decide), show (13 : Int32).toInt.toNat = 13 from rfl, Nat.zero_add, ok.2.1]
    simp only [hd]
    rfl
  have h1 : ∀ i, BlobIter.next loopFile ⟨17, -17, i⟩ = BlobIter.next loopFile ⟨0, 0, i⟩ := by
    intro i; rfl
  have key : ∀ fuel i, (takeBlobs loopFile fuel ⟨17, -17, i⟩).2 = .more ∧ (takeBlobs loopFile fuel ⟨17, -17, i⟩).1.length = fuel := by
    intro fuel
    induction fuel with
    | zero => intro i; exact ⟨rfl, rfl⟩
    | succ fuel ih =>
      intro i
      simp only [takeBlobs, h1, h0]
      have := ih (i + 1)
      simp [this]
  cases fuel with
  | zero => exact ⟨rfl, rfl⟩
  | succ fuel =>
    simp only [takeBlobs, h0]
    have := key fuel 1
    simp [this]

end OsmIo
