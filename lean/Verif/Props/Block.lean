import Verif.Lemmas.Quant
import Verif.Lemmas.Decode
/-!
# Properties of data blocks: C01-C07, C29, C30, C37, C38

`serializeData` models `OsmData::serialize`, `parseData` models `OsmData::new`
(bytes in, elements out), `Pb.*.encode/decode` model the protobuf layer.
-/
namespace OsmIo
open Wire Spec

/-! ## Sample data for the non-vacuity examples -/

/-- A node on the grid with repeated and empty tag strings. -/
def exNode : Node :=
  { id := 7, version := 2, coordinate := ⟨rnd ((522931007 : ℤ) / 10 ^ 7), rnd ((-48190123 : ℤ) / 10 ^ 7)⟩
    timestamp := 1600000000000, changeset := 5, uid := 3
    user := "grüß", visible := true, tags := [⟨"k", "v"⟩, ⟨"k", "v"⟩, ⟨"", "x"⟩] }

/-- A way with extreme references. -/
def exWay : Way :=
  { id := -3, version := 1, timestamp := -5000, changeset := 8, uid := -1, user := "u", visible := false
    refs := [5, 9223372036854775807, -9223372036854775808, 5], tags := [⟨"highway", ""⟩] }

/-- A relation with members of all kinds. -/
def exRelation : Relation :=
  { id := 11, version := 4, timestamp := 0, changeset := 8, uid := 2, user := "", visible := true
    members := [.node ⟨3, "stop"⟩, .way ⟨-3, ""⟩, .relation ⟨11, "stop"⟩], tags := [⟨"type", "route"⟩] }

theorem exNode_exact : Exact (.node exNode) :=
  ⟨⟨522931007, by norm_num, rfl⟩, ⟨-48190123, by norm_num, rfl⟩, ⟨1600000000, rfl⟩⟩
theorem exWay_exact : Exact (.way exWay) := ⟨-5, rfl⟩
theorem exRelation_exact : Exact (.relation exRelation) := ⟨0, rfl⟩

/-! ## The rounding function used in the statements -/

/-- `rnd q` is a double and no double is closer to `q`. -/
theorem rnd_is_nearest_double (q : ℚ) : IsDouble (rnd q) ∧ ∀ d, IsDouble d → |rnd q - q| ≤ |d - q| :=
  ⟨rnd_isDouble q, fun d hd => rnd_nearest q d hd⟩

/-! ## C01-C03: block round trips -/

/-- C01. A block of nodes survives serialising and parsing. -/
theorem C01_node_block_roundtrip (ns : List Node) (hx : ∀ n ∈ ns, Exact (.node n))
    (hl : (serializeData (ns.map .node)).length < 2 ^ 31) :
    parseData (serializeData (ns.map .node)) = .ok (ns.map .node) :=
  parse_serialize_exact (.inl (by simp)) (by simpa using hx) hl

example : (∀ n ∈ [exNode, { exNode with id := -9223372036854775808 }], Exact (.node n)) ∧
    (serializeData ([exNode, { exNode with id := -9223372036854775808 }].map .node)).length < 2 ^ 31 :=
  ⟨by simpa using ⟨exNode_exact, exNode_exact⟩, by decide +kernel⟩

/-- C02. A block of ways survives serialising and parsing. -/
theorem C02_way_block_roundtrip (ws : List Way) (hx : ∀ w ∈ ws, WholeSecond w.timestamp)
    (hl : (serializeData (ws.map .way)).length < 2 ^ 31) :
    parseData (serializeData (ws.map .way)) = .ok (ws.map .way) :=
  parse_serialize_exact (.inr (.inl (by simp))) (by simpa [Exact] using hx) hl

example : (∀ w ∈ [exWay, exWay], WholeSecond w.timestamp) ∧ (serializeData ([exWay, exWay].map .way)).length < 2 ^ 31 :=
  ⟨by have h : WholeSecond exWay.timestamp := exWay_exact; simpa using h, by decide +kernel⟩

/-- C03. A block of relations survives serialising and parsing. -/
theorem C03_relation_block_roundtrip (rs : List Relation) (hx : ∀ r ∈ rs, WholeSecond r.timestamp)
    (hl : (serializeData (rs.map .relation)).length < 2 ^ 31) :
    parseData (serializeData (rs.map .relation)) = .ok (rs.map .relation) :=
  parse_serialize_exact (.inr (.inr (by simp))) (by simpa [Exact] using hx) hl

example : (∀ r ∈ [exRelation], WholeSecond r.timestamp) ∧ (serializeData ([exRelation].map .relation)).length < 2 ^ 31 :=
  ⟨by have h : WholeSecond exRelation.timestamp := exRelation_exact; simpa using h, by decide +kernel⟩

/-! ## C04, C05: rounding of coordinates and timestamps -/

/-- C04, C05. Any homogeneous block with coordinates within 360 degrees comes back with the same elements in the
same order, coordinates rounded to the 1e-7 grid and timestamps truncated toward zero to whole seconds, every
other field unchanged. -/
theorem C04_C05_block_rounded (es : List Element) (hh : Homogeneous es) (hr : ∀ e ∈ es, InRange e)
    (hl : (serializeData es).length < 2 ^ 31) :
    ∃ es', parseData (serializeData es) = .ok es' ∧ List.Forall₂ Rounded es es' := by
  refine ⟨es.map Element.quant, by rw [parse_serialize es hl, kept_homogeneous hh], ?_⟩
  rw [List.forall₂_map_right_iff]
  exact List.forall₂_same.2 fun e he => quant_rounded (hr e he)

/-- C04. A coordinate that already is the double nearest to a grid point comes back bit-identical. -/
theorem C04_grid_exact (n n' : Node) (h1 : OnGrid n.coordinate.lat) (h2 : OnGrid n.coordinate.lon)
    (hl : (serializeData [.node n]).length < 2 ^ 31)
    (h : parseData (serializeData [.node n]) = .ok [.node n']) : n'.coordinate = n.coordinate := by
  rw [parse_serialize _ hl] at h
  simp only [kept, nodesOf, List.filterMap_cons, List.filterMap_nil, ne_eq, reduceCtorEq, not_false_eq_true, if_true,
    List.map_cons, List.map_nil, Element.quant, Out.ok.injEq, List.cons.injEq, Element.node.injEq, and_true] at h
  rw [← h]
  simp [Node.quant, quantCoord_grid h1, quantCoord_grid h2]

/-- A node off the grid in both respects, used below. -/
def exOff : Node := { exNode with coordinate := ⟨rnd (1 / 3), -180⟩, timestamp := -1999 }

theorem exOff_range : InRange (.node exOff) :=
  ⟨by decide +kernel, by decide +kernel⟩

example : Homogeneous [.node exOff] ∧ InRange (.node exOff) ∧ (serializeData [.node exOff]).length < 2 ^ 31 :=
  ⟨.inl (by simp), exOff_range, by decide +kernel⟩

/-- C05. Timestamps of every kind of element: truncation toward zero, for every i64. -/
theorem C05_timestamp_truncated (e e' : Element) (hl : (serializeData [e]).length < 2 ^ 31)
    (h : parseData (serializeData [e]) = .ok [e']) :
    match e, e' with
    | .node n, .node n' => TruncatedToSecond n.timestamp n'.timestamp
    | .way w, .way w' => TruncatedToSecond w.timestamp w'.timestamp
    | .relation r, .relation r' => TruncatedToSecond r.timestamp r'.timestamp
    | _, _ => False := by
  rw [parse_serialize _ hl] at h
  cases e <;> simp [kept, nodesOf, waysOf, relationsOf, Element.quant] at h <;> subst h <;>
    exact quantTime_spec _

example : ∃ e', parseData (serializeData [.node exOff]) = .ok [e'] := ⟨_, by rw [parse_serialize _ (by decide +kernel)]; rfl⟩

/-! ## C06: string table -/

/-- The history of adding strings one after the other: indices handed out, final builder. -/
def addAll (b : StringTableBuilder) : List String → List Int32 × StringTableBuilder
  | [] => ([], b)
  | s :: ss =>
    let r := addAll (b.add s).2 ss
    ((b.add s).1 :: r.1, r.2)

/-- The builder holds exactly the distinct strings `T` in order of first appearance. -/
def STFull (b : StringTableBuilder) (T : List String) : Prop :=
  b.table = ("" :: T).map strBytes ∧ T.Nodup ∧
    ∀ s, b.index.lookup s = if s ∈ T then some (Int32.ofNat (T.idxOf s + 1)) else none

theorem STFull.add {b T} (h : STFull b T) (s : String) :
    ∃ T', T <+: T' ∧ STFull (b.add s).2 T' ∧ s ∈ T' ∧ (∀ t, t ∈ T' ↔ t ∈ T ∨ t = s) ∧
      (b.add s).1 = Int32.ofNat (T'.idxOf s + 1) := by
  obtain ⟨h1, h2, h3⟩ := h
  by_cases hs : s ∈ T
  · refine ⟨T, List.prefix_rfl, ?_, hs, ?_, ?_⟩
    · have : (b.add s).2 = b := by simp [StringTableBuilder.add, h3, hs]
      rw [this]; exact ⟨h1, h2, h3⟩
    · intro t; constructor
      · exact .inl
      · rintro (h | rfl) <;> assumption
    · simp [StringTableBuilder.add, h3, hs]
  · have hidx : (T ++ [s]).idxOf s = T.length := by
      rw [List.idxOf_append_of_notMem hs]; simp
    have hi : Int32.ofNat (b.table ++ [strBytes s]).length - 1 = Int32.ofNat (T.length + 1) := by
      simp [h1, Int32.ofNat_add]
    refine ⟨T ++ [s], by simp, ?_, by simp, by simp, ?_⟩
    · simp only [StringTableBuilder.add, h3, hs, if_false]
      refine ⟨by simp [h1], by rw [List.nodup_append]; exact ⟨h2, by simp, by simpa using fun a ha (hh : a = s) => hs (hh ▸ ha)⟩, ?_⟩
      intro t
      rw [List.lookup_cons]
      by_cases hts : t = s
      · subst hts
        simp only [BEq.rfl, List.mem_append, List.mem_singleton, or_true, if_true]
        rw [hi, hidx]
      · have : (t == s) = false := by simp [hts]
        simp only [this, h3, List.mem_append, List.mem_singleton, hts, or_false]
        by_cases ht : t ∈ T
        · simp only [ht, if_true]; rw [List.idxOf_append_of_mem ht]
        · simp [ht]
    · simp only [StringTableBuilder.add, h3, hs, if_false]
      rw [hi, hidx]

theorem STFull.addAll {b T} (h : STFull b T) (ss : List String) :
    ∃ T', T <+: T' ∧ STFull (addAll b ss).2 T' ∧ (∀ t, t ∈ T' ↔ t ∈ T ∨ t ∈ ss) ∧
      List.Forall₂ (fun s i => i = Int32.ofNat (T'.idxOf s + 1)) ss (OsmIo.addAll b ss).1 := by
  induction ss generalizing b T with
  | nil => exact ⟨T, List.prefix_rfl, h, by simp, .nil⟩
  | cons s ss ih =>
    obtain ⟨T1, p1, f1, m1, e1, i1⟩ := h.add s
    obtain ⟨T2, p2, f2, e2, i2⟩ := ih f1
    refine ⟨T2, p1.trans p2, f2, ?_, .cons ?_ i2⟩
    · intro t; rw [e2, e1]; simp [or_assoc]
    · obtain ⟨u, rfl⟩ := p2
      rw [i1, List.idxOf_append_of_mem m1]

/-- C06. For every sequence of added strings (fewer than 2^31 - 1 distinct ones), the finished table is `""` followed by
the distinct strings without repetition; every index handed out is not 0 and denotes, in the finished table, the
string for which it was handed out; two calls get the same index iff they pass the same string. -/
theorem C06_string_table (ss : List String) (hsmall : ss.dedup.length + 1 < 2 ^ 31) :
    ∃ T : List String, (addAll StringTableBuilder.new ss).2.build.s = ("" :: T).map strBytes ∧ T.Nodup ∧
      (∀ t, t ∈ T ↔ t ∈ ss) ∧
      List.Forall₂ (fun s i => i ≠ 0 ∧ ("" :: T)[i32AsUsize i]? = some s) ss (addAll StringTableBuilder.new ss).1 ∧
      ∀ (j k : Nat) (s t : String) (i i' : Int32), ss[j]? = some s → ss[k]? = some t → (addAll StringTableBuilder.new ss).1[j]? = some i →
        (addAll StringTableBuilder.new ss).1[k]? = some i' → (s = t ↔ i = i') := by
  have h0 : STFull StringTableBuilder.new [] := ⟨by simp [StringTableBuilder.new], by simp, by simp [StringTableBuilder.new]⟩
  obtain ⟨T, -, f, e, i⟩ := h0.addAll ss
  have e' : ∀ t, t ∈ T ↔ t ∈ ss := by simpa using e
  have hlen : T.length = ss.dedup.length := by
    apply List.Perm.length_eq
    rw [List.perm_ext_iff_of_nodup f.2.1 (List.nodup_dedup ss)]
    simpa using e'
  have hden : ∀ s ∈ ss, i32AsUsize (Int32.ofNat (T.idxOf s + 1)) = T.idxOf s + 1 := by
    intro s hs
    have := List.idxOf_lt_length_iff.2 ((e' s).2 hs)
    exact ofNat_usize (by omega)
  refine ⟨T, f.1, f.2.1, e', ?_, ?_⟩
  · have : ∀ s ∈ ss, Int32.ofNat (T.idxOf s + 1) ≠ 0 ∧ ("" :: T)[i32AsUsize (Int32.ofNat (T.idxOf s + 1))]? = some s := by
      intro s hs
      have hlt := List.idxOf_lt_length_iff.2 ((e' s).2 hs)
      refine ⟨ofNat_ne_zero (by omega) (by omega), ?_⟩
      rw [hden s hs]
      simp [List.getElem?_eq_getElem hlt]
    revert this
    clear hden
    generalize (addAll StringTableBuilder.new ss).1 = is at i
    intro this
    induction i with
    | nil => exact .nil
    | @cons s j ss js h1 h2 ih =>
      subst h1
      exact .cons (this s (by simp)) (by
        clear ih f e e' hlen hsmall
        induction h2 with
        | nil => exact .nil
        | @cons s' j' ss' js' h1 h2 ih =>
          subst h1
          exact .cons (this s' (by simp)) (ih fun x hx => this x (by simp at hx ⊢; rcases hx with h | h <;> simp [h])))
  · intro j k s t i1 i2 hj hk hi1 hi2
    have g : ∀ (j : Nat) (s : String) (i1 : Int32), ss[j]? = some s → (addAll StringTableBuilder.new ss).1[j]? = some i1 →
        i1 = Int32.ofNat (T.idxOf s + 1) := by
      generalize (addAll StringTableBuilder.new ss).1 = is at i
      clear hj hk hi1 hi2 hden e e' hlen hsmall f
      induction i with
      | nil => simp
      | cons h1 _ ih =>
        intro j s i1 h2 h3
        cases j with
        | zero => simp at h2 h3; subst h2; subst h3; exact h1
        | succ j => exact ih j s i1 (by simpa using h2) (by simpa using h3)
    have g1 := g j s i1 hj hi1
    have g2 := g k t i2 hk hi2
    have ms := List.mem_of_getElem? hj
    have mt := List.mem_of_getElem? hk
    constructor
    · rintro rfl; rw [g1, g2]
    · intro hii
      have : T.idxOf s = T.idxOf t := by
        have h1 := hden s ms
        have h2 := hden t mt
        rw [← g1] at h1; rw [← g2] at h2
        rw [hii] at h1; omega
      have l1 := List.getElem?_idxOf ((e' s).2 ms)
      have l2 := List.getElem?_idxOf ((e' t).2 mt)
      rw [this] at l1
      rw [l1] at l2
      exact Option.some.inj l2

example : (["a", "", "b", "a", ""].dedup.length + 1 < 2 ^ 31) ∧
    (addAll StringTableBuilder.new ["a", "", "b", "a", ""]).1 = [1, 2, 3, 1, 2] := by decide +kernel

/-! ## C07: protobuf -/

/-- C07. Varints: every 64-bit value is decoded from its encoding, leaving the rest of the buffer untouched. -/
theorem C07_varint (n : Nat) (hn : n < 2 ^ 64) (rest : Bytes) : decVarint (encVarint n ++ rest) = some (n, rest) :=
  decVarint_enc n rest hn

/-- C07. All scalar codings are inverse, zigzag included. -/
theorem C07_scalars :
    (∀ x : Int64, toInt64 (ofInt64 x) = x) ∧ (∀ x : Int32, toInt32 (ofInt32 x) = x) ∧
    (∀ x : UInt32, toUInt32 (ofUInt32 x) = x) ∧ (∀ x : Bool, toBool (ofBool x) = x) ∧
    (∀ x : Int64, toSInt64 (ofSInt64 x) = x) ∧ (∀ x : Int32, toSInt32 (ofSInt32 x) = x) ∧
    (∀ s : String, strOf (strBytes s) = some s) :=
  ⟨toInt64_of, toInt32_of, toUInt32_of, toBool_of, toSInt64_of, toSInt32_of, strOf_strBytes⟩

/-- C07. Every message of the format is decoded from its encoding (encodings below 2^64 bytes, which is every
encoding that exists). -/
theorem C07_messages :
    (∀ m : Pb.Blob, m.encode.length < 2 ^ 64 → Pb.Blob.decode m.encode = some m) ∧
    (∀ m : Pb.BlobHeader, m.encode.length < 2 ^ 64 → Pb.BlobHeader.decode m.encode = some m) ∧
    (∀ m : Pb.HeaderBlock, m.encode.length < 2 ^ 64 → Pb.HeaderBlock.decode m.encode = some m) ∧
    (∀ m : Pb.PrimitiveBlock, m.encode.length < 2 ^ 64 → Pb.PrimitiveBlock.decode m.encode = some m) :=
  ⟨fun m h => Pb.Blob.decode_encode m h, fun m h => Pb.BlobHeader.merge_encode m h,
   fun m h => Pb.HeaderBlock.merge_encode m h, fun m h => Pb.PrimitiveBlock.merge_encode m h⟩

example : (toPrimitiveBlock [.relation exRelation]).encode.length < 2 ^ 64 ∧
    (toPrimitiveBlock [.relation exRelation]).primitivegroup ≠ [{}] := by decide +kernel

/-! ## C29: re-encoding -/

theorem encode_quant {c : F64} (h : |c| ≤ 360) : encodeCoord 100 0 (quantCoord c) = encodeCoord 100 0 c := by
  obtain ⟨k, h1, h2, h3⟩ := encodeCoord_near c h
  rw [quantCoord, h1, decodeCoord_grid k h3, encodeCoord_grid k h3]

theorem quantTime_div (t : Int64) : quantTime t / (1000 : Int32).toInt64 = t / (1000 : Int32).toInt64 := by
  obtain ⟨s, h1, h2⟩ := quantTime_spec t
  have e : (1000 : Int32).toInt64.toInt = 1000 := rfl
  have hd : ∀ a : Int64, (a / (1000 : Int32).toInt64).toInt = a.toInt.tdiv 1000 := by
    intro a
    rw [Int64.toInt_div_of_ne_right _ _ (by decide), e]
  apply Int64.toInt_inj.1
  rw [hd, hd]
  have e1 : (quantTime t).toInt.tdiv 1000 = s := by
    rw [h1, Int.mul_tdiv_cancel_left _ (by norm_num)]
  rw [e1]
  have q1 : t.toInt.tdiv 1000 * 1000 + t.toInt.tmod 1000 = t.toInt := Int.tdiv_mul_add_tmod _ _
  rcases Int.le_total 0 t.toInt with h | h
  · have := Int.tmod_nonneg 1000 h
    have := Int.tmod_lt_of_pos t.toInt (b := 1000) (by omega)
    omega
  · have : t.toInt.tmod 1000 = -((-t.toInt).tmod 1000) := by rw [Int.neg_tmod]; omega
    have := Int.tmod_nonneg 1000 (a := -t.toInt) (by omega)
    have := Int.tmod_lt_of_pos (-t.toInt) (b := 1000) (by omega)
    omega

theorem step_quant (s : SerState) (e : Element) (h : InRange e)
    (hd : ∀ d, s.dense = some d → d.granularity = 100 ∧ d.date_granularity = 1000 ∧ d.lat_offset = 0 ∧ d.lon_offset = 0) :
    s.step e.quant = s.step e := by
  cases e with
  | node n =>
    have e1 := encode_quant h.1
    have e2 := encode_quant h.2
    have e3 := quantTime_div n.timestamp
    unfold Element.quant SerState.step
    cases hs : s.dense with
    | none =>
      simp only [DenseGroupBuilder.new, Node.quant, e1, e2, e3]
    | some d =>
      obtain ⟨a, b, c, f⟩ := hd d hs
      simp only [DenseGroupBuilder.add, Node.quant, a, b, c, f, e1, e2, e3]
  | way w => simp only [Element.quant, SerState.step, convertWay, Way.quant, quantTime_div]
  | relation r => simp only [Element.quant, SerState.step, convertRelation, Relation.quant, quantTime_div]
  | sentinel => rfl

theorem serialize_quant (es : List Element) (h : ∀ e ∈ es, InRange e) :
    serializeData (es.map Element.quant) = serializeData es := by
  have gen : ∀ (es : List Element) (pre : List Element) (s : SerState), SerInv s pre → (∀ e ∈ es, InRange e) →
      (es.map Element.quant).foldl SerState.step s = es.foldl SerState.step s := by
    intro es
    induction es with
    | nil => intros; rfl
    | cons e es ih =>
      intro pre s hs hr
      simp only [List.map_cons, List.foldl_cons]
      rw [step_quant s e (hr e (by simp)) (by
        intro d hd
        rcases hs.dense with ⟨_, h⟩ | ⟨_, rs, _, h⟩
        · rw [h] at hd; cases hd
        · rw [h] at hd; injection hd with hd; subst hd; exact ⟨rfl, rfl, rfl, rfl⟩)]
      exact ih (pre ++ [e]) _ (hs.step e) fun e he => hr e (by simp [he])
  unfold serializeData toPrimitiveBlock
  rw [gen es [] _ ⟨STInv.new, .inl ⟨rfl, rfl⟩, .inl ⟨rfl, rfl⟩, .inl ⟨rfl, rfl⟩⟩ h]

/-- C29. Parsing a serialised block and serialising the result gives the identical bytes, even for elements off the grid. -/
theorem C29_reencode_idempotent (es : List Element) (hh : Homogeneous es) (hr : ∀ e ∈ es, InRange e)
    (hl : (serializeData es).length < 2 ^ 31) :
    ∃ es', parseData (serializeData es) = .ok es' ∧ serializeData es' = serializeData es :=
  ⟨es.map Element.quant, by rw [parse_serialize es hl, kept_homogeneous hh], serialize_quant es hr⟩

example : Homogeneous [.node exOff, .node exNode] ∧ InRange (.node exOff) ∧ InRange (.node exNode) ∧
    (serializeData [.node exOff, .node exNode]).length < 2 ^ 31 :=
  ⟨.inl (by simp), exOff_range, ⟨by decide +kernel, by decide +kernel⟩, by decide +kernel⟩

/-! ## C30: defaults -/

/-- C30. Absent granularities and offsets mean 100, 1000, 0 and 0. -/
theorem C30_default_scales (p : Pb.PrimitiveBlock) :
    fromPrimitiveBlock { p with granularity := none } = fromPrimitiveBlock { p with granularity := some 100 } ∧
    fromPrimitiveBlock { p with date_granularity := none } = fromPrimitiveBlock { p with date_granularity := some 1000 } ∧
    fromPrimitiveBlock { p with lat_offset := none } = fromPrimitiveBlock { p with lat_offset := some 0 } ∧
    fromPrimitiveBlock { p with lon_offset := none } = fromPrimitiveBlock { p with lon_offset := some 0 } :=
  ⟨rfl, rfl, rfl, rfl⟩

/-- C30. If no group carries metadata, every decoded element has version 0, changeset -1, uid -1, no user and is visible. -/
theorem C30_default_metadata (p : Pb.PrimitiveBlock) (es : List Element)
    (hno : ∀ g ∈ p.primitivegroup, (∀ d, g.dense = some d → d.denseinfo = none) ∧
      (∀ n ∈ g.nodes, n.info = none) ∧ (∀ w ∈ g.ways, w.info = none) ∧ (∀ r ∈ g.relations, r.info = none))
    (h : fromPrimitiveBlock p = .ok es) : ∀ e ∈ es, DefaultMeta e := by
  refine decode_forall (P := DefaultMeta) h ?_ ?_ ?_ ?_
  · intro tbl _ g hg d hd gr dg la lo es hes e he
    have hnone := (hno g hg).1 d hd
    obtain ⟨n, rfl, hn⟩ := readDenseGo_forall
      (P := fun n => n.version = 0 ∧ n.changeset = -1 ∧ n.uid = -1 ∧ n.user = "" ∧ n.visible = true)
      (S := fun s => s.last_changeset = -1 ∧ s.uid = -1 ∧ s.visible = true)
      (by
        intro i s s' v u tags kv hs h1 h2
        rw [hnone] at h1
        simp only [readDenseInfo, Out.ok.injEq, Prod.mk.injEq] at h1
        obtain ⟨rfl, rfl, rfl⟩ := h1
        exact ⟨hs, fun c => ⟨rfl, hs.1, hs.2.1, rfl, hs.2.2⟩⟩)
      (fun s a b c hs => hs) d.id 0 _ es (by simp [DenseState.init, hnone]) hes e he
    exact hn
  · intro tbl _ g hg n hn gr dg la lo e he
    simp only [readNode, (hno g hg).2.1 n hn, readInfo, Out.bind_eq_ok, Out.ok.injEq] at he
    obtain ⟨m, rfl, tags, _, rfl⟩ := he
    exact ⟨rfl, rfl, rfl, rfl, rfl⟩
  · intro tbl _ g hg n hn dg e he
    simp only [readWay, (hno g hg).2.2.1 n hn, readInfo, Out.bind_eq_ok, Out.ok.injEq] at he
    obtain ⟨m, rfl, tags, _, rfl⟩ := he
    exact ⟨rfl, rfl, rfl, rfl, rfl⟩
  · intro tbl _ g hg n hn dg e he
    simp only [readRelation, (hno g hg).2.2.2 n hn, readInfo, Out.bind_eq_ok, Out.ok.injEq] at he
    obtain ⟨m, rfl, ms, _, tags, _, rfl⟩ := he
    exact ⟨rfl, rfl, rfl, rfl, rfl⟩

/-- C30. Missing visibility flags mean visible. -/
theorem C30_default_visible (p : Pb.PrimitiveBlock) (es : List Element)
    (hno : ∀ g ∈ p.primitivegroup,
      (∀ d i, g.dense = some d → d.denseinfo = some i → i.visible = []) ∧
      (∀ n ∈ g.nodes, ∀ i, n.info = some i → i.visible = none) ∧
      (∀ w ∈ g.ways, ∀ i, w.info = some i → i.visible = none) ∧
      (∀ r ∈ g.relations, ∀ i, r.info = some i → i.visible = none))
    (h : fromPrimitiveBlock p = .ok es) : ∀ e ∈ es, visible e = true := by
  have hinfo : ∀ tbl dg (info : Option Pb.Info) m, (∀ i, info = some i → i.visible = none) → readInfo tbl dg info = .ok m →
      m.visible = true := by
    intro tbl dg info m hi hm
    cases info with
    | none => simp [readInfo] at hm; rw [← hm]
    | some i =>
      simp only [readInfo, Out.bind_eq_ok, Out.ok.injEq] at hm
      obtain ⟨u, _, rfl⟩ := hm
      simp [hi i rfl]
  refine decode_forall (P := fun e => visible e = true) h ?_ ?_ ?_ ?_
  · intro tbl _ g hg d hd gr dg la lo es hes e he
    obtain ⟨n, rfl, hn⟩ := readDenseGo_forall (P := fun n => n.visible = true) (S := fun s => s.visible = true)
      (by
        intro i s s' v u tags kv hs h1 h2
        cases hinf : d.denseinfo with
        | none =>
          rw [hinf] at h1
          simp only [readDenseInfo, Out.ok.injEq, Prod.mk.injEq] at h1
          obtain ⟨rfl, rfl, rfl⟩ := h1
          exact ⟨hs, fun c => hs⟩
        | some inf =>
          have := (hno g hg).1 d inf hd hinf
          rw [hinf] at h1
          simp only [readDenseInfo, Out.bind_eq_ok, Out.ok.injEq, Prod.mk.injEq] at h1
          obtain ⟨_, _, _, _, _, _, _, _, _, _, _, _, rfl, _, _⟩ := h1
          simp [this])
      (fun s a b c hs => hs) d.id 0 _ es rfl hes e he
    exact hn
  · intro tbl _ g hg n hn gr dg la lo e he
    simp only [readNode, Out.bind_eq_ok, Out.ok.injEq] at he
    obtain ⟨m, hm, tags, _, rfl⟩ := he
    exact hinfo _ _ _ m ((hno g hg).2.1 n hn) hm
  · intro tbl _ g hg n hn dg e he
    simp only [readWay, Out.bind_eq_ok, Out.ok.injEq] at he
    obtain ⟨m, hm, tags, _, rfl⟩ := he
    exact hinfo _ _ _ m ((hno g hg).2.2.1 n hn) hm
  · intro tbl _ g hg n hn dg e he
    simp only [readRelation, Out.bind_eq_ok, Out.ok.injEq] at he
    obtain ⟨m, hm, ms, _, tags, _, rfl⟩ := he
    exact hinfo _ _ _ m ((hno g hg).2.2.2 n hn) hm

/-- A block without any optional part: two dense nodes, a plain node, a way and a relation. -/
def exBare : Pb.PrimitiveBlock :=
  { stringtable := { s := [[], strBytes "a", strBytes "b"] }
    primitivegroup := [{ dense := some { id := [5, 1], lat := [3, 4], lon := [5, 6], keys_vals := [1, 2, 0, 0] }
                         nodes := [{ id := 3, keys := [1], vals := [2], lat := 1, lon := 2 }] },
                       { ways := [{ id := 1, refs := [5, 1] }] },
                       { relations := [{ id := 1, memids := [4], roles_sid := [2], types := [1] }] }] }

example : (∃ es, fromPrimitiveBlock exBare = .ok es ∧ es.length = 5) ∧
    ∀ g ∈ exBare.primitivegroup, (∀ d, g.dense = some d → d.denseinfo = none) ∧
      (∀ n ∈ g.nodes, n.info = none) ∧ (∀ w ∈ g.ways, w.info = none) ∧ (∀ r ∈ g.relations, r.info = none) := by
  refine ⟨⟨_, rfl, rfl⟩, ?_⟩
  simp [exBare]

/-! ## C37: one element type per block -/

/-- C37. Whatever mixture is handed to a block, what comes back is exactly the nodes if there is any node, else
the ways if there is any way, else the relations; the rest is lost. -/
theorem C37_one_type_per_block (es : List Element) (hx : ∀ e ∈ es, Exact e) (hl : (serializeData es).length < 2 ^ 31) :
    parseData (serializeData es) = .ok
      (if es.any Element.isNode then es.filter Element.isNode
       else if es.any Element.isWay then es.filter Element.isWay
       else es.filter Element.isRelation) := by
  have hn : (nodesOf es).map Element.node = es.filter Element.isNode := by
    clear hx hl
    induction es with
    | nil => rfl
    | cons e es ih => simp only [nodesOf] at ih; cases e <;> simp [nodesOf, ih, List.filter_cons, Element.isNode]
  have hw : (waysOf es).map Element.way = es.filter Element.isWay := by
    clear hx hl hn
    induction es with
    | nil => rfl
    | cons e es ih => simp only [waysOf] at ih; cases e <;> simp [waysOf, ih, List.filter_cons, Element.isWay]
  have hr : (relationsOf es).map Element.relation = es.filter Element.isRelation := by
    clear hx hl hn hw
    induction es with
    | nil => rfl
    | cons e es ih => simp only [relationsOf] at ih; cases e <;> simp [relationsOf, ih, List.filter_cons, Element.isRelation]
  have an : es.any Element.isNode = true ↔ nodesOf es ≠ [] := by
    have := (List.map_eq_nil_iff (f := Element.node) (l := nodesOf es)).not; rw [Ne, ← this, hn]; simp
  have aw : es.any Element.isWay = true ↔ waysOf es ≠ [] := by
    have := (List.map_eq_nil_iff (f := Element.way) (l := waysOf es)).not; rw [Ne, ← this, hw]; simp
  have hk : kept es = (if es.any Element.isNode then es.filter Element.isNode
       else if es.any Element.isWay then es.filter Element.isWay
       else es.filter Element.isRelation) := by
    unfold kept
    rw [hn, hw, hr]
    simp only [an, aw]
  rw [parse_serialize es hl, ← hk]
  congr 1
  apply map_quant_exact
  intro e he
  apply hx
  rw [hk] at he
  split_ifs at he <;> exact List.mem_of_mem_filter he

/-- C37. `parse ∘ serialise` is faithful exactly on homogeneous lists. -/
theorem C37_faithful_iff (es : List Element) (hx : ∀ e ∈ es, Exact e) (hl : (serializeData es).length < 2 ^ 31) :
    parseData (serializeData es) = .ok es ↔ Homogeneous es := by
  refine ⟨fun h => ?_, fun h => parse_serialize_exact h hx hl⟩
  rw [C37_one_type_per_block es hx hl, Out.ok.injEq] at h
  split_ifs at h
  · left; intro e he; rw [← h] at he
    have := List.of_mem_filter he
    cases e <;> simp_all [Element.isNode]
  · right; left; intro e he; rw [← h] at he
    have := List.of_mem_filter he
    cases e <;> simp_all [Element.isWay]
  · right; right; intro e he; rw [← h] at he
    have := List.of_mem_filter he
    cases e <;> simp_all [Element.isRelation]

example : (∀ e ∈ [Element.way exWay, .relation exRelation, .node exNode], Exact e) ∧
    (serializeData [.way exWay, .relation exRelation, .node exNode]).length < 2 ^ 31 :=
  ⟨by simpa using ⟨exWay_exact, exRelation_exact, exNode_exact⟩, by decide +kernel⟩

/-! ## C38: no invented strings -/

/-- C38. Every tag key, tag value and role of a decoded element is an entry of the block's string table, and the user
name is such an entry or the empty default; this holds for every block that decodes, well formed or not. -/
theorem C38_strings_from_table (p : Pb.PrimitiveBlock) (es : List Element) (h : fromPrimitiveBlock p = .ok es) :
    ∀ e ∈ es, (∀ s ∈ strings e, strBytes s ∈ p.stringtable.s) ∧
      ∀ u, user e = some u → u = "" ∨ strBytes u ∈ p.stringtable.s := by
  have htbl : ∀ tbl, (p.stringtable.s.mapM fun b => Out.unwrap (strOf b)) = .ok tbl → ∀ s ∈ tbl, strBytes s ∈ p.stringtable.s := by
    intro tbl ht s hs
    obtain ⟨b, hb, he⟩ := mapM_ok_mem ht s hs
    cases hso : strOf b with
    | none => simp [hso] at he
    | some t =>
      simp [hso] at he; subst he
      rw [strBytes_of_strOf hso]; exact hb
  have htags : ∀ (tbl : List String), (∀ s ∈ tbl, strBytes s ∈ p.stringtable.s) → ∀ tags : List Tag,
      (∀ t ∈ tags, t.k ∈ tbl ∧ t.v ∈ tbl) → ∀ s ∈ tags.flatMap fun t => [t.k, t.v], strBytes s ∈ p.stringtable.s := by
    intro tbl htb tags ht s hs
    simp only [List.mem_flatMap, List.mem_cons, List.not_mem_nil, or_false] at hs
    obtain ⟨t, htm, rfl | rfl⟩ := hs
    · exact htb _ (ht t htm).1
    · exact htb _ (ht t htm).2
  refine decode_forall (P := fun e => (∀ s ∈ strings e, strBytes s ∈ p.stringtable.s) ∧
      ∀ u, user e = some u → u = "" ∨ strBytes u ∈ p.stringtable.s) h ?_ ?_ ?_ ?_
  · intro tbl ht g hg d hd gr dg la lo es hes e he
    have htb := htbl tbl ht
    obtain ⟨n, rfl, hn⟩ := readDenseGo_forall
      (P := fun n => (∀ t ∈ n.tags, t.k ∈ tbl ∧ t.v ∈ tbl) ∧ (n.user = "" ∨ n.user ∈ tbl)) (S := fun _ => True)
      (by
        intro i s s' v u tags kv hs h1 h2
        refine ⟨trivial, fun c => ⟨readKeyVals_strings h2, ?_⟩⟩
        cases hinf : d.denseinfo with
        | none =>
          rw [hinf] at h1
          simp only [readDenseInfo, Out.ok.injEq, Prod.mk.injEq] at h1
          exact .inl h1.2.2.symm
        | some inf =>
          rw [hinf] at h1
          simp only [readDenseInfo, Out.bind_eq_ok, Out.ok.injEq, Prod.mk.injEq] at h1
          obtain ⟨_, _, _, _, _, _, _, _, _, _, u', hu, _, _, rfl⟩ := h1
          exact .inr (strAt_ok hu))
      (fun s a b c hs => hs) d.id 0 _ es trivial hes e he
    refine ⟨htags tbl htb n.tags hn.1, ?_⟩
    intro u hu
    simp only [user, Option.some.injEq] at hu
    subst hu
    exact hn.2.imp_right (htb _)
  · intro tbl ht g hg n hn gr dg la lo e he
    have htb := htbl tbl ht
    simp only [readNode, Out.bind_eq_ok, Out.ok.injEq] at he
    obtain ⟨m, hm, tags, hts, rfl⟩ := he
    refine ⟨htags tbl htb _ (readTags_strings hts), ?_⟩
    intro u hu; simp only [user, Option.some.injEq] at hu; subst hu
    exact (readInfo_user hm).imp_right (htb _)
  · intro tbl ht g hg n hn dg e he
    have htb := htbl tbl ht
    simp only [readWay, Out.bind_eq_ok, Out.ok.injEq] at he
    obtain ⟨m, hm, tags, hts, rfl⟩ := he
    refine ⟨htags tbl htb _ (readTags_strings hts), ?_⟩
    intro u hu; simp only [user, Option.some.injEq] at hu; subst hu
    exact (readInfo_user hm).imp_right (htb _)
  · intro tbl ht g hg n hn dg e he
    have htb := htbl tbl ht
    simp only [readRelation, Out.bind_eq_ok, Out.ok.injEq] at he
    obtain ⟨m, hm, ms, hms, tags, hts, rfl⟩ := he
    refine ⟨?_, ?_⟩
    · intro s hs
      simp only [strings, List.mem_append, List.mem_map] at hs
      rcases hs with ⟨mm, hmm, rfl⟩ | hs
      · have := htb _ (readMembers_strings hms mm hmm)
        cases mm <;> exact this
      · exact htags tbl htb _ (readTags_strings hts) s hs
    · intro u hu; simp only [user, Option.some.injEq] at hu; subst hu
      exact (readInfo_user hm).imp_right (htb _)

example : ∃ es, fromPrimitiveBlock exBare = .ok es ∧ es.map strings = [["a", "b"], [], ["a", "b"], [], ["b"]] :=
  ⟨_, rfl, rfl⟩

end OsmIo
