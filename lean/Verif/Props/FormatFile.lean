import Verif.Lemmas.FormatFile
import Verif.Lemmas.ProtobufWrite
import Verif.Props.Header
/-!
# C57, C58: files are written and read as the published format says

`Format.IsFile inflates info blocks file` (`Spec/FormatFile.lean`) is the published meaning of the bytes of a file; `inflates` is
the relation defined by the zlib format.
-/
set_option linter.unusedSimpArgs false
set_option linter.flexible false
namespace OsmIo
open Wire Spec Spec.Protobuf

/-! ## C58: reading -/

/-- C58. A file which by the published format has the header `info` and data blocks `blocks` is opened with `info`, if its
required features are supported; iterating over its elements delivers those of the blocks one after the other and ends. -/
theorem C58_file_read_as_published (z : Zlib) (inflates : Format.Inflates) (hz : ∀ c d, inflates c d → z.stream c = d)
    (info : FileInfo) (blocks : List (List Element)) (file : Bytes) (h : Format.IsFile inflates info blocks file)
    (hs : ∀ f ∈ info.required_features, Supported f) :
    openReader z file = .ok info ∧ ∀ es r, ReadsElements z file es r ↔ es = blocks.flatten ∧ r = .done := by
  obtain ⟨h1, h2⟩ := file_published hz h (blocks.length + 2) (by omega)
  refine ⟨(C17_open_iff z file info).2 ⟨h2, hs⟩, fun es r => ?_⟩
  rw [reads_iff h1 (by simp)]
  simp [streamAll, stream_blocks]

/-- C58 (blocks). Iterating over the blocks delivers the header and the data blocks. -/
theorem C58_blocks_read_as_published (z : Zlib) (inflates : Format.Inflates) (hz : ∀ c d, inflates c d → z.stream c = d)
    (info : FileInfo) (blocks : List (List Element)) (file : Bytes) (h : Format.IsFile inflates info blocks file)
    (fuel : Nat) (hf : blocks.length + 1 < fuel) :
    takeBlocks z file fuel {} = (.header info :: blocks.map .data, .done) := (file_published hz h fuel hf).1

/-- C58 (one block). Any published encoding of a block with a published meaning is read as the elements it says. -/
theorem C58_block_bytes (b : Bytes) (p : Pb.PrimitiveBlock) (es : List Element) (hb : IsPrimitiveBlock p b) (h : Format.Block p es) :
    parseData b = .ok es := by
  rw [parseData, PrimitiveBlock.decode_of hb]
  exact C55_block_read_as_published p es h

/-- A varint of one byte. -/
theorem varint1 (n : Nat) (h : n < 128) : IsVarint n [UInt8.ofNat n] := by
  refine ⟨by simp [Protobuf.value]; omega, by omega, by simp, by simp, ?_⟩
  intro i b hb
  rcases i with _ | i
  · simp at hb; subst hb; simp; omega
  · simp at hb

/-- A varint of two bytes, even where one would do. -/
theorem varint2 (n : Nat) (h : n < 2 ^ 14) : IsVarint n [UInt8.ofNat (n % 128 + 128), UInt8.ofNat (n / 128)] := by
  refine ⟨by simp [Protobuf.value]; omega, by omega, by simp, by simp, ?_⟩
  intro i b hb
  rcases i with _ | _ | i
  · simp at hb; subst hb; simp; omega
  · simp at hb; subst hb; simp; omega
  · simp at hb

/-- A way in an encoding no encoder of this library would produce: unknown field 100, the id in two bytes, references partly
packed. -/
def exWayBytes : Bytes := [165, 6, 1, 2, 3, 4] ++ [34, 12, 24, 7, 8, 1, 16, 2, 32, 4, 40, 1, 8, 2] ++ [64, 6] ++ [8, 133, 0] ++ [66, 1, 1]
/-- The block: groups before strings, unknown field 15. -/
def exBlockBytes : Bytes := [18, 30, 26, 28] ++ exWayBytes ++ [120, 9] ++ [10, 5, 10, 0, 10, 1, 97]
/-- The header block. -/
def exHeaderBytes : Bytes := [34, 14] ++ utf8 "OsmSchema-V0.6"
/-- The file: a compressed header, the size before the type in the second blob header, an unknown field in its blob. -/
def exForeignFile : Bytes :=
  [0, 0, 0, 13] ++ ([10, 9] ++ utf8 "OSMHeader" ++ [24, 21]) ++ ([16, 16] ++ [26, 17, 7] ++ exHeaderBytes) ++
  ([0, 0, 0, 11] ++ ([24, 45] ++ [10, 7] ++ utf8 "OSMData") ++ ([72, 1] ++ [10, 41] ++ exBlockBytes))

/-- The way it holds. -/
def exForeignFileWay : Way :=
  { id := 5, version := 2, timestamp := 2000, changeset := 7, uid := 4, user := "a", visible := true, refs := [3, 2], tags := [] }

theorem Spec.Protobuf.Fields.mk1 {num : Nat} {item : Item} {wt : Nat} {b r : Bytes} {fs : List (Nat × Item)} (k : UInt8) (hk : k.toNat = 8 * num + wt)
    (h1 : 1 ≤ num) (hlt : 8 * num + wt < 128) (hp : Payload item wt b) (hr : Fields fs r) : Fields ((num, item) :: fs) (k :: (b ++ r)) := by
  have : [k] = [UInt8.ofNat (8 * num + wt)] := by rw [← hk]; simp
  have h := Fields.cons h1 (by omega) (this ▸ varint1 (8 * num + wt) hlt) hp hr
  simpa using h

theorem Spec.Protobuf.Payload.bytes1 {b : Bytes} (k : UInt8) (hk : k.toNat = b.length) (h : b.length < 128) : Payload (.bytes b) 2 (k :: b) := by
  have : [k] = [UInt8.ofNat b.length] := by rw [← hk]; simp
  exact .bytes (l := [k]) (this ▸ varint1 _ h)

theorem Spec.Protobuf.Payload.int1 {n : ℤ} (k : UInt8) (hk : k.toNat = twos n) (h : twos n < 128) : Payload (.int n) 0 [k] := by
  have : [k] = [UInt8.ofNat (twos n)] := by rw [← hk]; simp
  exact .int (this ▸ varint1 _ h)

theorem Spec.Protobuf.Payload.sint1 {n : ℤ} (k : UInt8) (hk : k.toNat = zigzag n) (h : zigzag n < 128) : Payload (.sint n) 0 [k] := by
  have : [k] = [UInt8.ofNat (zigzag n)] := by rw [← hk]; simp
  exact .sint (this ▸ varint1 _ h)

/-- The messages in it. -/
def exInfoMsg : Pb.Info := { version := some 2, timestamp := some 2, changeset := some 7, uid := some 4, user_sid := some 1 }
/-- The way. -/
def exWayMsg : Pb.Way := { id := 5, info := some exInfoMsg, refs := [3, -1] }
/-- The block. -/
def exBlockMsg : Pb.PrimitiveBlock := { stringtable := ⟨[[], [97]]⟩, primitivegroup := [{ ways := [exWayMsg] }] }

theorem exInfo_is : IsInfo exInfoMsg [24, 7, 8, 1, 16, 2, 32, 4, 40, 1, 8, 2] := by
  refine ⟨[(3, .int 7), (1, .int 1), (2, .int 2), (4, .int 4), (5, .int 1), (1, .int 2)], ?_, ⟨[1, 2], rfl, rfl⟩, ⟨[2], rfl, rfl⟩,
    ⟨[7], rfl, rfl⟩, ⟨[4], rfl, rfl⟩, ⟨[1], rfl, rfl⟩, ⟨[], rfl, rfl⟩⟩
  exact .mk1 (b := [7]) 24 rfl (by decide) (by decide) (.int1 7 rfl (by decide))
    (.mk1 (b := [1]) 8 rfl (by decide) (by decide) (.int1 1 rfl (by decide))
    (.mk1 (b := [2]) 16 rfl (by decide) (by decide) (.int1 2 rfl (by decide))
    (.mk1 (b := [4]) 32 rfl (by decide) (by decide) (.int1 4 rfl (by decide))
    (.mk1 (b := [1]) 40 rfl (by decide) (by decide) (.int1 1 rfl (by decide))
    (.mk1 (b := [2]) 8 rfl (by decide) (by decide) (.int1 2 rfl (by decide)) .nil)))))

theorem exWay_is : IsWay exWayMsg exWayBytes := by
  refine ⟨[(100, .fixed32 [1, 2, 3, 4]), (4, .bytes [24, 7, 8, 1, 16, 2, 32, 4, 40, 1, 8, 2]), (8, .sint 3), (1, .int 5), (8, .sints [-1])], ?_,
    ⟨[5], rfl, rfl⟩, ⟨[], .nil, rfl⟩, ⟨[], .nil, rfl⟩, ⟨_, rfl, exInfo_is⟩, ⟨[[3], [-1]], .cons .one (.cons .packed .nil), rfl⟩,
    ⟨[], .nil, rfl⟩, ⟨[], .nil, rfl⟩⟩
  have h1 : IsVarint (8 * 100 + 5) [165, 6] := varint2 805 (by decide)
  have h2 : Payload (.int 5) 0 [133, 0] := .int (varint2 5 (by decide))
  have h3 : Payload (.sints [-1]) 2 [1, 1] := .sints (bs := [[1]]) (l := [1]) (.cons (varint1 1 (by decide)) .nil) (varint1 1 (by decide))
  exact .cons (key := [165, 6]) (b := [1, 2, 3, 4]) (by decide) (by decide) h1 (.fixed32 rfl)
    (.mk1 (b := [12, 24, 7, 8, 1, 16, 2, 32, 4, 40, 1, 8, 2]) 34 rfl (by decide) (by decide) (.bytes1 12 rfl (by decide))
    (.mk1 (b := [6]) 64 rfl (by decide) (by decide) (.sint1 6 rfl (by decide))
    (.mk1 (b := [133, 0]) 8 rfl (by decide) (by decide) h2
    (.mk1 (b := [1, 1]) 66 rfl (by decide) (by decide) h3 .nil))))

theorem exBlock_is : IsPrimitiveBlock exBlockMsg exBlockBytes := by
  have hg : IsPrimitiveGroup { ways := [exWayMsg] } ([26, 28] ++ exWayBytes) := by
    refine ⟨[(3, .bytes exWayBytes)], .mk1 (b := 28 :: exWayBytes) 26 rfl (by decide) (by decide) (.bytes1 28 rfl (by decide)) .nil,
      ⟨[], rfl, .nil⟩, rfl, ⟨[_], rfl, .cons exWay_is .nil⟩, ⟨[], rfl, .nil⟩, ⟨[], rfl, .nil⟩⟩
  have hs : IsStringTable ⟨[[], [97]]⟩ [10, 0, 10, 1, 97] :=
    ⟨[(1, .bytes []), (1, .bytes [97])], .mk1 (b := [0]) 10 rfl (by decide) (by decide) (.bytes1 0 rfl (by decide))
      (.mk1 (b := [1, 97]) 10 rfl (by decide) (by decide) (.bytes1 1 rfl (by decide)) .nil), rfl⟩
  refine ⟨[(2, .bytes ([26, 28] ++ exWayBytes)), (15, .int 9), (1, .bytes [10, 0, 10, 1, 97])], ?_, ⟨_, rfl, hs⟩,
    ⟨[_], rfl, .cons hg .nil⟩, ⟨[], rfl, rfl⟩, ⟨[], rfl, rfl⟩, ⟨[], rfl, rfl⟩, ⟨[], rfl, rfl⟩⟩
  exact .mk1 (b := 30 :: ([26, 28] ++ exWayBytes)) 18 rfl (by decide) (by decide) (.bytes1 30 rfl (by decide))
    (.mk1 (b := [9]) 120 rfl (by decide) (by decide) (.int1 9 rfl (by decide))
    (.mk1 (b := [5, 10, 0, 10, 1, 97]) 10 rfl (by decide) (by decide) (.bytes1 5 rfl (by decide)) .nil))

theorem exBlockMsg_says : Format.Block exBlockMsg [.way exForeignFileWay] := by
  refine ⟨?_, by decide, [[.way exForeignFileWay]], rfl, .cons ?_ .nil⟩
  · intro b hb
    simp only [exBlockMsg, List.mem_cons, List.not_mem_nil, or_false] at hb
    rcases hb with rfl | rfl
    · exact ⟨"", rfl⟩
    · exact ⟨"a", rfl⟩
  · refine ⟨rfl, [], [], [exForeignFileWay], [], rfl, rfl, .nil, .cons ?_ .nil, .nil⟩
    refine ⟨rfl, rfl, ?_, ⟨_, rfl, rfl, ⟨2, rfl, by decide⟩, rfl, rfl, ⟨1, rfl, 1, by decide, rfl⟩, .inr ⟨rfl, rfl⟩⟩, [], rfl, rfl, .nil⟩
    intro i r h
    rcases i with _ | _ | i <;> simp [exForeignFileWay] at h <;> subst h <;> decide

/-- Its metadata. -/
def exForeignInfo : FileInfo := ⟨none, ["OsmSchema-V0.6"], [], none, none, none, none, none⟩

theorem exForeignFile_is : Format.IsFile (fun c d => exZ.stream c = d) exForeignInfo [[.way exForeignFileWay]] exForeignFile := by
  refine ⟨[0, 0, 0, 13] ++ ([10, 9] ++ utf8 "OSMHeader" ++ [24, 21]) ++ ([16, 16] ++ [26, 17, 7] ++ exHeaderBytes),
    [[0, 0, 0, 11] ++ ([24, 45] ++ [10, 7] ++ utf8 "OSMData") ++ ([72, 1] ++ [10, 41] ++ exBlockBytes)], by simp [exForeignFile],
    ⟨exHeaderBytes, { required_features := ["OsmSchema-V0.6"] }, ?_, ?_, ?_⟩,
    .cons ⟨exBlockBytes, exBlockMsg, ?_, exBlock_is, exBlockMsg_says⟩ .nil⟩
  · refine ⟨0, 0, 0, 13, _, _, { type := "OSMHeader", datasize := 21 }, rfl, rfl, by decide, ?_, rfl, rfl, by decide, .inr ⟨7 :: exHeaderBytes, rfl, ?_⟩⟩
    · exact ⟨[(1, .bytes (utf8 "OSMHeader")), (3, .int 21)], .mk1 (b := 9 :: utf8 "OSMHeader") 10 rfl (by decide) (by decide) (.bytes1 9 rfl (by decide))
        (.mk1 (b := [21]) 24 rfl (by decide) (by decide) (.int1 21 rfl (by decide)) .nil), ⟨["OSMHeader"], rfl, rfl⟩, ⟨[], rfl, rfl⟩, ⟨[21], rfl, rfl⟩⟩
    · exact ⟨[(2, .int 16), (3, .bytes (7 :: exHeaderBytes))], .mk1 (b := [16]) 16 rfl (by decide) (by decide) (.int1 16 rfl (by decide))
        (.mk1 (b := 17 :: 7 :: exHeaderBytes) 26 rfl (by decide) (by decide) (.bytes1 17 rfl (by decide)) .nil), ⟨[16], rfl, rfl⟩, ⟨[_], rfl, rfl⟩,
        by intro t ht; simp only [List.mem_cons, List.not_mem_nil, or_false] at ht; rcases ht with rfl | rfl | rfl | rfl | rfl <;> rfl⟩
  · exact ⟨[(4, .bytes (utf8 "OsmSchema-V0.6"))], .mk1 (b := 14 :: utf8 "OsmSchema-V0.6") 34 rfl (by decide) (by decide) (.bytes1 14 rfl (by decide)) .nil,
      rfl, rfl, rfl, ⟨[], rfl, rfl⟩, ⟨[], rfl, rfl⟩, ⟨[], rfl, rfl⟩, ⟨[], rfl, rfl⟩, ⟨[], rfl, rfl⟩⟩
  · exact ⟨rfl, rfl, rfl, rfl, rfl, rfl, rfl, rfl⟩
  · refine ⟨0, 0, 0, 11, _, _, { type := "OSMData", datasize := 45 }, rfl, rfl, by decide, ?_, rfl, rfl, by decide, .inl ?_⟩
    · exact ⟨[(3, .int 45), (1, .bytes (utf8 "OSMData"))], .mk1 (b := [45]) 24 rfl (by decide) (by decide) (.int1 45 rfl (by decide))
        (.mk1 (b := 7 :: utf8 "OSMData") 10 rfl (by decide) (by decide) (.bytes1 7 rfl (by decide)) .nil), ⟨["OSMData"], rfl, rfl⟩, ⟨[], rfl, rfl⟩, ⟨[45], rfl, rfl⟩⟩
    · exact ⟨[(9, .int 1), (1, .bytes exBlockBytes)], .mk1 (b := [1]) 72 rfl (by decide) (by decide) (.int1 1 rfl (by decide))
        (.mk1 (b := 41 :: exBlockBytes) 10 rfl (by decide) (by decide) (.bytes1 41 rfl (by decide)) .nil), ⟨[_], rfl, rfl⟩, ⟨none, [], rfl, rfl⟩,
        by intro t ht; simp only [List.mem_cons, List.not_mem_nil, or_false] at ht; rcases ht with rfl | rfl | rfl | rfl | rfl <;> rfl⟩

example : (∀ c d, exZ.stream c = d → exZ.stream c = d) ∧ ∀ f ∈ exForeignInfo.required_features, Supported f :=
  ⟨fun _ _ h => h, by simp [exForeignInfo, Supported]⟩

/-! ## C57: writing -/

theorem beBytes_value {n : Nat} (h : n < 2 ^ 31) : ∃ b3 b2 b1 b0 : UInt8, beBytes (Int32.ofNat n) = [b3, b2, b1, b0] ∧
    b3.toNat * 2 ^ 24 + b2.toNat * 2 ^ 16 + b1.toNat * 2 ^ 8 + b0.toNat = n := by
  have hu : (Int32.ofNat n).toUInt32.toNat = n := by
    show (UInt32.ofNat n).toNat = n
    exact UInt32.toNat_ofNat_of_lt' (by show n < 2 ^ 32; omega)
  refine ⟨_, _, _, _, rfl, ?_⟩
  generalize (Int32.ofNat n).toUInt32 = u at *
  simp [UInt32.toNat_shiftRight, hu, Nat.shiftRight_eq_div_pow]
  omega

theorem rawBlob_is (data : Bytes) (r : Int32) (hl : (Pb.Blob.encode ⟨some r, some (.raw data)⟩).length < 2 ^ 64) :
    IsRawBlob data (Pb.Blob.encode ⟨some r, some (.raw data)⟩) := by
  refine ⟨piece 1 [.bytes data] ++ piece 2 [.int r.toInt],
    ((Enc.bytes (by norm_num) (by norm_num)).append (Enc.int (by norm_num) (by norm_num) (ofInt32_twos r))) hl,
    OptBytes.mk (some data) (by simp [numbered_append, numbered_piece]),
    ⟨some r.toInt, OptInt.mk Int32.toInt (some r) (by simp [numbered_append, numbered_piece])⟩, ?_⟩
  intro t ht
  simp only [List.mem_cons, List.not_mem_nil, or_false] at ht
  rcases ht with rfl | rfl | rfl | rfl | rfl <;> simp [numbered_append, numbered_piece]

theorem zlibBlob_is (c : Bytes) (r : Int32) (hl : (Pb.Blob.encode ⟨some r, some (.zlib c)⟩).length < 2 ^ 64) :
    IsZlibBlob r.toInt c (Pb.Blob.encode ⟨some r, some (.zlib c)⟩) := by
  refine ⟨piece 3 [.bytes c] ++ piece 2 [.int r.toInt],
    ((Enc.bytes (by norm_num) (by norm_num)).append (Enc.int (by norm_num) (by norm_num) (ofInt32_twos r))) hl,
    OptInt.mk Int32.toInt (some r) (by simp [numbered_append, numbered_piece]),
    OptBytes.mk (some c) (by simp [numbered_append, numbered_piece]), ?_⟩
  intro t ht
  simp only [List.mem_cons, List.not_mem_nil, or_false] at ht
  rcases ht with rfl | rfl | rfl | rfl | rfl <;> simp [numbered_append, numbered_piece]

theorem frame_written {z : Zlib} {inflates : Format.Inflates} (hz : ∀ l d, inflates (z.deflate l d) d) {c : CompressionType} {b : FileBlock}
    (ok : BlockOk z c b) : Format.IsFrame inflates b.payload.1 b.payload.2.2 (blobBytes (b.serialize z c).1 (b.serialize z c).2) := by
  have hlen := ok.frame.header_len
  rw [← serialize_fst] at hlen
  obtain ⟨b3, b2, b1, b0, e1, e2⟩ := beBytes_value hlen
  refine ⟨b3, b2, b1, b0, (b.serialize z c).1, (b.serialize z c).2, b.blobHeader z c, by rw [blobBytes, e1], e2, hlen,
    BlobHeader.encode_is _ (lt_trans ok.frame.header_len (by norm_num)), rfl, toInt_ofNat32 ok.body, ok.size, ?_⟩
  have hb : (b.serialize z c).2.length < 2 ^ 64 := lt_trans ok.body (by norm_num)
  have he : b.payload.2.2.isEmpty = false := by simp [ok.nonempty]
  have e : (b.serialize z c).2 = (FileBlock.blob z c b.payload.2.1 b.payload.2.2).encode := rfl
  rw [e] at hb ⊢
  simp only [FileBlock.blob, he, Bool.false_eq_true, if_false] at hb ⊢
  cases c with
  | uncompressed => exact .inl (rawBlob_is _ _ hb)
  | zlib =>
    refine .inr ⟨_, hz b.payload.2.1 b.payload.2.2, ?_⟩
    have := zlibBlob_is _ _ hb
    rwa [toInt_ofNat32 ok.size] at this

theorem rounded_kind {a b : Element} (h : Rounded a b) : ((∃ n, a = .node n) → ∃ n, b = .node n) ∧ ((∃ n, a = .way n) → ∃ n, b = .way n) ∧
    ((∃ n, a = .relation n) → ∃ n, b = .relation n) := by
  cases a <;> cases b <;> simp [Rounded] at h ⊢

/-- The sides of a box are degrees. -/
def BoxInRange (b : BoundingBox) : Prop := |b.left| ≤ 180 ∧ |b.bottom| ≤ 180 ∧ |b.right| ≤ 180 ∧ |b.top| ≤ 180

theorem degrees_written {x : F64} (hx : |x| ≤ 180) : Format.Degrees (toNanodeg x).toInt (fromNanodeg (toNanodeg x)) := by
  have h := (toNanodeg_spec x hx).2
  refine ⟨h, ?_⟩
  rw [fromNanodeg, F64.ofI64_eq _ h, F64.div]
  norm_num

theorem header_written {i : FileInfo} (hb : ∀ b, i.bounding_box = some b → BoxInRange b) :
    Format.Header (toHeaderBlock i) (fromHeaderBlock (toHeaderBlock i)) := by
  refine ⟨?_, rfl, rfl, rfl, rfl, rfl, rfl, rfl⟩
  obtain ⟨box, _⟩ := i
  cases box with
  | none => rfl
  | some b =>
    obtain ⟨h1, h2, h3, h4⟩ := hb b rfl
    exact ⟨_, rfl, degrees_written h1, degrees_written h3, degrees_written h4, degrees_written h2⟩

/-- What it means that `info'` is `info` but for the bounding box, which moved by at most about a nanodegree. -/
def SameInfo (info' info : FileInfo) : Prop :=
  info' = { info with bounding_box := info'.bounding_box } ∧
  Option.Rel (fun b' b => |b'.left - b.left| < 10001 / 10 ^ 13 ∧ |b'.bottom - b.bottom| < 10001 / 10 ^ 13 ∧
    |b'.right - b.right| < 10001 / 10 ^ 13 ∧ |b'.top - b.top| < 10001 / 10 ^ 13) info'.bounding_box info.bounding_box

theorem blocks_written_as_published {z : Zlib} {inflates : Format.Inflates} (hz : ∀ l d, inflates (z.deflate l d) d)
    {c : CompressionType} {info : FileInfo} {blocks : List (List Element)}
    (hn : ¬ EmptyInfo info) (hh : HeaderFits z c info) (hb : ∀ b, info.bounding_box = some b → BoxInRange b)
    (hg : ∀ b ∈ blocks, Homogeneous b) (hm : ∀ b ∈ blocks, Format.Steps b) (hr : ∀ b ∈ blocks, ∀ e ∈ b, InRange e)
    (hfits : ∀ b ∈ blocks, Fits z c b) :
    ∃ info' blocks', Format.IsFile inflates info' blocks' (blockBytes z c (.header info :: blocks.map .data)) ∧
      List.Forall₂ (fun b b' => List.Forall₂ Rounded b b' ∧ Homogeneous b') blocks blocks' ∧ SameInfo info' info := by
  have hblk : ∀ b ∈ blocks, ∃ b', (List.Forall₂ Rounded b b' ∧ Homogeneous b') ∧ Format.IsDataFrame inflates b'
      (blobBytes ((FileBlock.data b).serialize z c).1 ((FileBlock.data b).serialize z c).2) := by
    intro b hb
    obtain ⟨b', h1, h2⟩ := C56_steps_written_as_published b (hg b hb) (hm b hb) (hr b hb) (hfits b hb).1
    refine ⟨b', ⟨h1, ?_⟩, _, _, frame_written hz (b := .data b) ⟨serializeData_ne_nil b, (hfits b hb).1, (hfits b hb).2⟩, ?_, h2⟩
    · have hk : ∀ (P Q : Element → Prop), (∀ a b, Rounded a b → P a → Q b) → (∀ e ∈ b, P e) → ∀ e ∈ b', Q e := by
        intro P Q hPQ hP e he
        obtain ⟨j, hj, rfl⟩ := List.mem_iff_getElem.1 he
        have := h1.get (h1.length_eq ▸ hj) hj
        exact hPQ _ _ this (hP _ (List.getElem_mem _))
      rcases hg b hb with g | g | g
      · exact .inl (hk _ (fun e => ∃ n, e = .node n) (fun a b h => (rounded_kind h).1) g)
      · exact .inr (.inl (hk _ (fun e => ∃ n, e = .way n) (fun a b h => (rounded_kind h).2.1) g))
      · exact .inr (.inr (hk _ (fun e => ∃ n, e = .relation n) (fun a b h => (rounded_kind h).2.2) g))
    · exact PrimitiveBlock.encode_is _ (lt_trans (hfits b hb).1 (by norm_num))
  have hex : ∃ blocks', List.Forall₂ (fun b b' => List.Forall₂ Rounded b b' ∧ Homogeneous b') blocks blocks' ∧
      List.Forall₂ (Format.IsDataFrame inflates) blocks' ((blocks.map .data).map fun b : FileBlock => blobBytes (b.serialize z c).1 (b.serialize z c).2) := by
    clear hg hm hr hfits
    induction blocks with
    | nil => exact ⟨[], .nil, .nil⟩
    | cons b bs ih =>
      obtain ⟨b', h1, h2⟩ := hblk b (by simp)
      obtain ⟨bs', h3, h4⟩ := ih fun b hb => hblk b (by simp [hb])
      exact ⟨b' :: bs', .cons h1 h3, .cons h2 h4⟩
  obtain ⟨blocks', h1, h2⟩ := hex
  refine ⟨fromHeaderBlock (toHeaderBlock info), blocks', ⟨_, _, rfl, ⟨_, _, frame_written hz (headerOk hn hh), ?_, header_written hb⟩, h2⟩,
    h1, rfl, ?_⟩
  · exact HeaderBlock.encode_is _ (lt_trans hh.1 (by norm_num))
  · obtain ⟨box, _⟩ := info
    cases box with
    | none => exact .none
    | some b =>
      obtain ⟨h1, h2, h3, h4⟩ := hb b rfl
      exact .some ⟨C16_bbox_side _ h1, C16_bbox_side _ h2, C16_bbox_side _ h3, C16_bbox_side _ h4⟩

/-- C57. If the differences between consecutive delta coded numbers can be represented: a file written element by element and closed is, by the published format, a file with the given metadata (a
bounding box moves by at most about a nanodegree) whose blocks hold, in order, the written elements (up to
the rounding of coordinates and timestamps); each block holds at most 8000 elements of one kind. -/
theorem C57_file_written_as_published (z : Zlib) (inflates : Format.Inflates) (hz : ∀ l d, inflates (z.deflate l d) d)
    (c : CompressionType) (info : FileInfo) (es : List Element) (w : Writer)
    (hn : ¬ EmptyInfo info) (hh : HeaderFits z c info) (hb : ∀ b, info.bounding_box = some b → BoxInRange b)
    (hm : Format.Steps (realOnes es)) (hr : ∀ e ∈ realOnes es, InRange e) (hfit : RunsFit z c (realOnes es))
    (hw : ((Writer.fromFileInfo info c).writeHeader z).writeAll z es = .ok w) :
    ∃ info' blocks, Format.IsFile inflates info' blocks (w.close z).file ∧
      List.Forall₂ Rounded (realOnes es) blocks.flatten ∧ (∀ b ∈ blocks, b.length ≤ 8000 ∧ Homogeneous b) ∧
      info' = { info with bounding_box := info'.bounding_box } ∧
      Option.Rel (fun b' b => |b'.left - b.left| < 10001 / 10 ^ 13 ∧ |b'.bottom - b.bottom| < 10001 / 10 ^ 13 ∧
        |b'.right - b.right| < 10001 / 10 ^ 13 ∧ |b'.top - b.top| < 10001 / 10 ^ 13) info'.bounding_box info.bounding_box := by
  obtain ⟨blocks, hf, hc, hg⟩ := C11_C12_writer_blocks z c info es w hw
  have hsub : ∀ b ∈ blocks, ∀ e ∈ b, e ∈ realOnes es := fun b hb e he => hc ▸ List.mem_flatten.2 ⟨b, hb, he⟩
  obtain ⟨info', blocks', h1, h2, h3⟩ := blocks_written_as_published hz hn hh hb (fun b hb => (hg b hb).1)
    (fun b hb => steps_infix hm (hc ▸ infix_of_mem_flatten hb)) (fun b hb e he => hr e (hsub b hb e he))
    (fun b hb => hfit b (hc ▸ infix_of_mem_flatten hb) (hg b hb).2)
  refine ⟨info', blocks', hf ▸ h1, ?_, ?_, h3⟩
  · rw [← hc]
    exact List.rel_flatten (h2.imp fun _ _ h => h.1)
  · intro b' hb'
    obtain ⟨i, hi, rfl⟩ := List.mem_iff_getElem.1 hb'
    have hil : i < blocks.length := h2.length_eq ▸ hi
    have h3 := h2.get hil hi
    simp only [List.get_eq_getElem] at h3
    exact ⟨h3.1.length_eq ▸ (hg blocks[i] (List.getElem_mem hil)).2, h3.2⟩

/-- A stream with references close to each other. -/
def exPlain : List Element := [.node exNode, .sentinel, .node { exNode with id := 8 }, .way { exWay with refs := [10, 7, -10] }, .relation exRelation]

theorem exPlain_fits : RunsFit exZ .zlib (realOnes exPlain) := by
  have h : ∀ run ∈ (realOnes exPlain).sublists, Fits exZ .zlib run := by
    unfold Fits
    decide +kernel
  exact fun run hr _ => h run (List.mem_sublists.mpr hr.sublist)

theorem exPlain_layered : Layered (realOnes exPlain) :=
  ⟨[.node exNode, .node { exNode with id := 8 }], [.way { exWay with refs := [10, 7, -10] }], [.relation exRelation], rfl, by simp, by simp, by simp, by simp⟩

theorem exPlain_moderate : ∀ e ∈ realOnes exPlain, Format.Moderate e := by
  intro e he
  simp [realOnes, exPlain, Element.isSentinel] at he
  rcases he with rfl | rfl | rfl | rfl
  · exact ⟨by unfold Format.Moderate64; decide, by unfold Format.Moderate64; decide, by unfold Format.Moderate32; decide⟩
  · exact ⟨by unfold Format.Moderate64; decide, by unfold Format.Moderate64; decide, by unfold Format.Moderate32; decide⟩
  · show ∀ r ∈ ({ exWay with refs := [10, 7, -10] } : Way).refs, Format.Moderate64 r
    unfold Format.Moderate64; decide
  · show ∀ r ∈ exRelation.members, Format.Moderate64 (Format.memberParts r).2.1
    unfold Format.Moderate64; decide

example : (∀ l d, exZ.stream (exZ.deflate l d) = d) ∧ ¬ EmptyInfo exInfo ∧ HeaderFits exZ .zlib exInfo ∧
    (∀ b, exInfo.bounding_box = some b → BoxInRange b) ∧ (∀ e ∈ realOnes exPlain, InRange e) ∧ RunsFit exZ .zlib (realOnes exPlain) ∧
    ∃ w, ((Writer.fromFileInfo exInfo .zlib).writeHeader exZ).writeAll exZ exPlain = .ok w := by
  refine ⟨fun _ _ => rfl, exInfo_nonempty, exInfo_fits, ?_, ?_, exPlain_fits, (C13_writer_accepts_iff exZ .zlib exInfo exPlain).1.mpr exPlain_layered⟩
  · intro b hb
    have : b = ⟨rnd (-4819 / 1000), rnd (52 + 1 / 3), rnd (201 / 100), 53⟩ := by simpa [exInfo] using hb.symm
    subst this
    unfold BoxInRange
    decide +kernel
  · intro e he
    simp [realOnes, exPlain, Element.isSentinel] at he
    rcases he with rfl | rfl | rfl | rfl
    · exact ⟨by decide +kernel, by decide +kernel⟩
    · exact ⟨by decide +kernel, by decide +kernel⟩
    · trivial
    · trivial

end OsmIo
