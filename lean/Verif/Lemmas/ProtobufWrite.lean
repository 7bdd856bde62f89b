import Verif.Lemmas.ProtobufRead
/-! # Every encoded message is a published encoding of it -/
set_option linter.unusedSimpArgs false
set_option linter.unusedVariables false
set_option linter.flexible false
namespace OsmIo
open Wire Spec Spec.Protobuf

/-- Fields of one number. -/
def piece (t : Nat) (is : List Item) : List (Nat × Item) := is.map fun i => (t, i)

theorem numbered_piece (t s : Nat) (is : List Item) : numbered t (piece s is) = if s = t then is else [] := by
  unfold numbered piece
  by_cases h : s = t <;> induction is <;> simp_all

theorem numbered_append (t : Nat) (a b : List (Nat × Item)) : numbered t (a ++ b) = numbered t a ++ numbered t b := by
  simp [numbered]

/-- The encoder's fields are an encoding of the items, if they are not too long. -/
def Enc (items : List (Nat × Item)) (fs : List Field) : Prop := (encFields fs).length < 2 ^ 64 → Fields items (encFields fs)

theorem Fields.append {a b : List (Nat × Item)} {x y : Bytes} (h : Fields a x) (h' : Fields b y) : Fields (a ++ b) (x ++ y) := by
  induction h with
  | nil => exact h'
  | group h1 h2 h3 h4 _ ih =>
    rw [List.append_assoc]
    exact .group h1 h2 h3 h4 ih
  | cons h1 h2 h3 h4 _ ih =>
    rw [List.append_assoc]
    exact .cons h1 h2 h3 h4 ih

theorem Enc.append {a b : List (Nat × Item)} {x y : List Field} (h : Enc a x) (h' : Enc b y) : Enc (a ++ b) (x ++ y) := by
  intro hl
  rw [encFields_append, List.length_append] at hl
  rw [encFields_append]
  exact Fields.append (h (by omega)) (h' (by omega))

theorem Enc.nil : Enc [] [] := fun _ => .nil

theorem Enc.one {t : Nat} {i : Item} {v : Val} {wt : Nat} {b : Bytes} (h1 : 1 ≤ t) (h2 : t < 2 ^ 29) (hwt : wt < 8)
    (he : v.wt = wt) (hb : encVal v = b) (hp : b.length < 2 ^ 64 → Payload i wt b) : Enc (piece t [i]) [⟨t, v⟩] := by
  intro hl
  have he' : encField ⟨t, v⟩ = encVarint (8 * t + wt) ++ b := by rw [encField, he, hb, Nat.mul_comm]
  rw [encFields_cons, encFields_nil, List.append_nil, he', List.length_append] at hl
  rw [encFields_cons, encFields_nil, he']
  exact .cons h1 h2 (isVarint_enc (by omega)) (hp (by omega)) .nil

theorem Enc.int {t : Nat} {n : ℤ} {v : Nat} (h1 : 1 ≤ t) (h2 : t < 2 ^ 29) (hv : v = twos n) :
    Enc (piece t [.int n]) [⟨t, .varint v⟩] :=
  .one (wt := 0) (b := encVarint v) h1 h2 (by norm_num) rfl rfl fun _ => by
    subst hv
    exact .int (isVarint_enc (by unfold twos; omega))

theorem Enc.sint {t : Nat} {n : ℤ} {v : Nat} (h1 : 1 ≤ t) (h2 : t < 2 ^ 29) (hv : v = zigzag n) (hlt : v < 2 ^ 64) :
    Enc (piece t [.sint n]) [⟨t, .varint v⟩] :=
  .one (wt := 0) (b := encVarint v) h1 h2 (by norm_num) rfl rfl fun _ => by
    subst hv
    exact .sint (isVarint_enc hlt)

theorem Enc.bytes {t : Nat} {b : Bytes} (h1 : 1 ≤ t) (h2 : t < 2 ^ 29) : Enc (piece t [.bytes b]) [⟨t, .len b⟩] :=
  .one (wt := 2) (b := encVarint b.length ++ b) h1 h2 (by norm_num) rfl rfl fun hl => .bytes (isVarint_enc (by simp at hl; omega))

theorem Enc.ints {α : Type} {t : Nat} (val : α → ℤ) (enc : α → Nat) (he : ∀ x, enc x = twos (val x)) (xs : List α)
    (h1 : 1 ≤ t) (h2 : t < 2 ^ 29) : Enc (piece t (if xs.isEmpty then [] else [.ints (xs.map val)])) (packF t enc xs) := by
  unfold packF
  split
  · exact .nil
  · refine .one (wt := 2) (b := encVarint (packBytes enc xs).length ++ packBytes enc xs) h1 h2 (by norm_num) rfl rfl fun hl => ?_
    refine .ints ?_ (isVarint_enc (by simp [packBytes] at hl ⊢; omega))
    rw [List.forall₂_map_left_iff, List.forall₂_map_right_iff]
    exact List.forall₂_same.2 fun x _ => he x ▸ isVarint_enc (by rw [he]; unfold twos; omega)

theorem Enc.sints {α : Type} {t : Nat} (val : α → ℤ) (enc : α → Nat) (he : ∀ x, enc x = zigzag (val x)) (hlt : ∀ x, enc x < 2 ^ 64) (xs : List α)
    (h1 : 1 ≤ t) (h2 : t < 2 ^ 29) : Enc (piece t (if xs.isEmpty then [] else [.sints (xs.map val)])) (packF t enc xs) := by
  unfold packF
  split
  · exact .nil
  · refine .one (wt := 2) (b := encVarint (packBytes enc xs).length ++ packBytes enc xs) h1 h2 (by norm_num) rfl rfl fun hl => ?_
    refine .sints ?_ (isVarint_enc (by simp [packBytes] at hl ⊢; omega))
    rw [List.forall₂_map_left_iff, List.forall₂_map_right_iff]
    exact List.forall₂_same.2 fun x _ => he x ▸ isVarint_enc (hlt x)

theorem Enc.opt {α : Type} {t : Nat} (f : α → Item) (enc : α → Val) (h : ∀ x, Enc (piece t [f x]) [⟨t, enc x⟩]) (o : Option α) :
    Enc (piece t (o.toList.map f)) (optF t enc o) := by
  cases o with
  | none => exact .nil
  | some x => exact h x

theorem Enc.rep {α : Type} {t : Nat} (f : α → Item) (enc : α → Val) (h : ∀ x, Enc (piece t [f x]) [⟨t, enc x⟩]) (xs : List α) :
    Enc (piece t (xs.map f)) (repF t enc xs) := by
  induction xs with
  | nil => exact .nil
  | cons x xs ih => exact (h x).append ih

theorem OptInt.mk {α : Type} {t : Nat} {fs : List (Nat × Item)} (val : α → ℤ) (o : Option α)
    (h : numbered t fs = o.toList.map fun x => .int (val x)) : OptInt t fs (o.map val) :=
  ⟨(o.map val).toList, by cases o <;> simpa using h, by cases o <;> rfl⟩
theorem ReqInt.mk {t : Nat} {fs : List (Nat × Item)} (n : ℤ) (h : numbered t fs = [.int n]) : ReqInt t fs n := ⟨[n], h, rfl⟩
theorem ReqSint.mk {t : Nat} {fs : List (Nat × Item)} (n : ℤ) (h : numbered t fs = [.sint n]) : ReqSint t fs n := ⟨[n], h, rfl⟩
theorem OptBytes.mk {t : Nat} {fs : List (Nat × Item)} (o : Option Bytes) (h : numbered t fs = o.toList.map .bytes) : OptBytes t fs o :=
  ⟨o.toList, h, by cases o <;> rfl⟩
theorem OptText.mk {t : Nat} {fs : List (Nat × Item)} (o : Option String) (h : numbered t fs = o.toList.map fun s => .bytes (utf8 s)) :
    OptText t fs o := ⟨o.toList, h, by cases o <;> rfl⟩
theorem RepInt.mk {t : Nat} {fs : List (Nat × Item)} (ns : List ℤ) (b : Bool) (hb : b = true → ns = [])
    (h : numbered t fs = if b then [] else [.ints ns]) : RepInt t fs ns := by
  cases b with
  | true => exact ⟨[], by rw [h]; exact .nil, by simp [hb rfl]⟩
  | false => exact ⟨[ns], by rw [h]; exact .cons .packed .nil, by simp⟩
theorem RepSint.mk {t : Nat} {fs : List (Nat × Item)} (ns : List ℤ) (b : Bool) (hb : b = true → ns = [])
    (h : numbered t fs = if b then [] else [.sints ns]) : RepSint t fs ns := by
  cases b with
  | true => exact ⟨[], by rw [h]; exact .nil, by simp [hb rfl]⟩
  | false => exact ⟨[ns], by rw [h]; exact .cons .packed .nil, by simp⟩
theorem OptMsg.mk {α : Type} {t : Nat} {fs : List (Nat × Item)} {R : α → Bytes → Prop} (enc : α → Bytes) (o : Option α)
    (h : numbered t fs = o.toList.map fun x => .bytes (enc x)) (hr : ∀ x ∈ o, R x (enc x)) : OptMsg t fs R o := by
  cases o with
  | none => exact h
  | some x => exact ⟨enc x, h, hr x rfl⟩
theorem RepMsg.mk {α : Type} {t : Nat} {fs : List (Nat × Item)} {R : α → Bytes → Prop} (enc : α → Bytes) (xs : List α)
    (h : numbered t fs = xs.map fun x => .bytes (enc x)) (hr : ∀ x ∈ xs, R x (enc x)) : RepMsg t fs R xs :=
  ⟨xs.map enc, by rw [h, List.map_map]; rfl, by rw [List.forall₂_map_right_iff]; exact List.forall₂_same.2 hr⟩

theorem repF_mem {α : Type} (t : Nat) (enc : α → Val) {xs : List α} {x : α} (h : x ∈ xs) : (⟨t, enc x⟩ : Field) ∈ repF t enc xs :=
  List.mem_map.2 ⟨x, h, rfl⟩

theorem sub_len {fs : List Field} {t : Nat} {b : Bytes} (hl : (encFields fs).length < 2 ^ 64) (h : (⟨t, .len b⟩ : Field) ∈ fs) : b.length < 2 ^ 64 := by
  have h2 := encField_mem_le h
  have h3 := encField_len_le t b
  omega

theorem StringTable.encode_is (m : Pb.StringTable) (hl : (encFields (Pb.StringTable.fields m)).length < 2 ^ 64) : IsStringTable m (encFields (Pb.StringTable.fields m)) :=
  ⟨piece 1 (m.s.map .bytes),
   (Enc.rep _ _ (fun x => Enc.bytes (by norm_num) (by norm_num)) m.s) hl,
   (show _ = _ by simp [numbered_append, numbered_piece])⟩

theorem Info.encode_is (m : Pb.Info) (hl : (encFields (Pb.Info.fields m)).length < 2 ^ 64) : IsInfo m (encFields (Pb.Info.fields m)) :=
  ⟨piece 1 (m.version.toList.map fun x => .int (Int32.toInt x)) ++
    piece 2 (m.timestamp.toList.map fun x => .int (Int64.toInt x)) ++
    piece 3 (m.changeset.toList.map fun x => .int (Int64.toInt x)) ++
    piece 4 (m.uid.toList.map fun x => .int (Int32.toInt x)) ++
    piece 5 (m.user_sid.toList.map fun x => .int ((fun x => (UInt32.toNat x : ℤ)) x)) ++
    piece 6 (m.visible.toList.map fun x => .int (bit x)),
   ((((((Enc.opt _ _ (fun x => Enc.int (by norm_num) (by norm_num) (ofInt32_twos x)) m.version).append (Enc.opt _ _ (fun x => Enc.int (by norm_num) (by norm_num) (ofInt64_twos x)) m.timestamp)).append (Enc.opt _ _ (fun x => Enc.int (by norm_num) (by norm_num) (ofInt64_twos x)) m.changeset)).append (Enc.opt _ _ (fun x => Enc.int (by norm_num) (by norm_num) (ofInt32_twos x)) m.uid)).append (Enc.opt _ _ (fun x => Enc.int (by norm_num) (by norm_num) (ofUInt32_twos x)) m.user_sid)).append (Enc.opt _ _ (fun x => Enc.int (by norm_num) (by norm_num) (ofBool_twos x)) m.visible)) hl,
   OptInt.mk Int32.toInt m.version (by simp [numbered_append, numbered_piece]),
   OptInt.mk Int64.toInt m.timestamp (by simp [numbered_append, numbered_piece]),
   OptInt.mk Int64.toInt m.changeset (by simp [numbered_append, numbered_piece]),
   OptInt.mk Int32.toInt m.uid (by simp [numbered_append, numbered_piece]),
   OptInt.mk (fun x => (UInt32.toNat x : ℤ)) m.user_sid (by simp [numbered_append, numbered_piece]),
   OptInt.mk bit m.visible (by simp [numbered_append, numbered_piece])⟩

theorem DenseInfo.encode_is (m : Pb.DenseInfo) (hl : (encFields (Pb.DenseInfo.fields m)).length < 2 ^ 64) : IsDenseInfo m (encFields (Pb.DenseInfo.fields m)) :=
  ⟨piece 1 (if m.version.isEmpty then [] else [.ints (m.version.map Int32.toInt)]) ++
    piece 2 (if m.timestamp.isEmpty then [] else [.sints (m.timestamp.map Int64.toInt)]) ++
    piece 3 (if m.changeset.isEmpty then [] else [.sints (m.changeset.map Int64.toInt)]) ++
    piece 4 (if m.uid.isEmpty then [] else [.sints (m.uid.map Int32.toInt)]) ++
    piece 5 (if m.user_sid.isEmpty then [] else [.sints (m.user_sid.map Int32.toInt)]) ++
    piece 6 (if m.visible.isEmpty then [] else [.ints (m.visible.map bit)]),
   ((((((Enc.ints Int32.toInt ofInt32 ofInt32_twos m.version (by norm_num) (by norm_num)).append (Enc.sints Int64.toInt ofSInt64 ofSInt64_zigzag ofSInt64_lt m.timestamp (by norm_num) (by norm_num))).append (Enc.sints Int64.toInt ofSInt64 ofSInt64_zigzag ofSInt64_lt m.changeset (by norm_num) (by norm_num))).append (Enc.sints Int32.toInt ofSInt32 ofSInt32_zigzag ofSInt32_lt m.uid (by norm_num) (by norm_num))).append (Enc.sints Int32.toInt ofSInt32 ofSInt32_zigzag ofSInt32_lt m.user_sid (by norm_num) (by norm_num))).append (Enc.ints bit ofBool ofBool_twos m.visible (by norm_num) (by norm_num))) hl,
   RepInt.mk _ m.version.isEmpty (by simp) (by simp [numbered_append, numbered_piece]),
   RepSint.mk _ m.timestamp.isEmpty (by simp) (by simp [numbered_append, numbered_piece]),
   RepSint.mk _ m.changeset.isEmpty (by simp) (by simp [numbered_append, numbered_piece]),
   RepSint.mk _ m.uid.isEmpty (by simp) (by simp [numbered_append, numbered_piece]),
   RepSint.mk _ m.user_sid.isEmpty (by simp) (by simp [numbered_append, numbered_piece]),
   RepInt.mk _ m.visible.isEmpty (by simp) (by simp [numbered_append, numbered_piece])⟩

theorem ChangeSet.encode_is (m : Pb.ChangeSet) (hl : (encFields (Pb.ChangeSet.fields m)).length < 2 ^ 64) : IsChangeSet m (encFields (Pb.ChangeSet.fields m)) :=
  ⟨piece 1 [.int (Int64.toInt m.id)],
   (Enc.int (by norm_num) (by norm_num) (ofInt64_twos _)) hl,
   ReqInt.mk _ (by simp [numbered_append, numbered_piece])⟩

theorem Node.encode_is (m : Pb.Node) (hl : (encFields (Pb.Node.fields m)).length < 2 ^ 64) : IsNode m (encFields (Pb.Node.fields m)) :=
  ⟨piece 1 [.sint (Int64.toInt m.id)] ++
    piece 2 (if m.keys.isEmpty then [] else [.ints (m.keys.map (fun x => (UInt32.toNat x : ℤ)))]) ++
    piece 3 (if m.vals.isEmpty then [] else [.ints (m.vals.map (fun x => (UInt32.toNat x : ℤ)))]) ++
    piece 4 (m.info.toList.map (fun x => .bytes (encFields (Pb.Info.fields x)))) ++
    piece 8 [.sint (Int64.toInt m.lat)] ++
    piece 9 [.sint (Int64.toInt m.lon)],
   ((((((Enc.sint (by norm_num) (by norm_num) (ofSInt64_zigzag _) (ofSInt64_lt _)).append (Enc.ints (fun x => (UInt32.toNat x : ℤ)) ofUInt32 ofUInt32_twos m.keys (by norm_num) (by norm_num))).append (Enc.ints (fun x => (UInt32.toNat x : ℤ)) ofUInt32 ofUInt32_twos m.vals (by norm_num) (by norm_num))).append (Enc.opt _ _ (fun x => Enc.bytes (by norm_num) (by norm_num)) m.info)).append (Enc.sint (by norm_num) (by norm_num) (ofSInt64_zigzag _) (ofSInt64_lt _))).append (Enc.sint (by norm_num) (by norm_num) (ofSInt64_zigzag _) (ofSInt64_lt _))) hl,
   ReqSint.mk _ (by simp [numbered_append, numbered_piece]),
   RepInt.mk _ m.keys.isEmpty (by simp) (by simp [numbered_append, numbered_piece]),
   RepInt.mk _ m.vals.isEmpty (by simp) (by simp [numbered_append, numbered_piece]),
   OptMsg.mk (fun x => encFields (Pb.Info.fields x)) m.info (by simp [numbered_append, numbered_piece]) (fun x hx => Info.encode_is x (sub_len hl (by simp only [Option.mem_def] at hx; simp [Pb.Node.fields, optF, repF, hx] : (⟨4, .len (encFields (Pb.Info.fields x))⟩ : Field) ∈ Pb.Node.fields m))),
   ReqSint.mk _ (by simp [numbered_append, numbered_piece]),
   ReqSint.mk _ (by simp [numbered_append, numbered_piece])⟩

theorem DenseNodes.encode_is (m : Pb.DenseNodes) (hl : (encFields (Pb.DenseNodes.fields m)).length < 2 ^ 64) : IsDenseNodes m (encFields (Pb.DenseNodes.fields m)) :=
  ⟨piece 1 (if m.id.isEmpty then [] else [.sints (m.id.map Int64.toInt)]) ++
    piece 5 (m.denseinfo.toList.map (fun x => .bytes (encFields (Pb.DenseInfo.fields x)))) ++
    piece 8 (if m.lat.isEmpty then [] else [.sints (m.lat.map Int64.toInt)]) ++
    piece 9 (if m.lon.isEmpty then [] else [.sints (m.lon.map Int64.toInt)]) ++
    piece 10 (if m.keys_vals.isEmpty then [] else [.ints (m.keys_vals.map Int32.toInt)]),
   (((((Enc.sints Int64.toInt ofSInt64 ofSInt64_zigzag ofSInt64_lt m.id (by norm_num) (by norm_num)).append (Enc.opt _ _ (fun x => Enc.bytes (by norm_num) (by norm_num)) m.denseinfo)).append (Enc.sints Int64.toInt ofSInt64 ofSInt64_zigzag ofSInt64_lt m.lat (by norm_num) (by norm_num))).append (Enc.sints Int64.toInt ofSInt64 ofSInt64_zigzag ofSInt64_lt m.lon (by norm_num) (by norm_num))).append (Enc.ints Int32.toInt ofInt32 ofInt32_twos m.keys_vals (by norm_num) (by norm_num))) hl,
   RepSint.mk _ m.id.isEmpty (by simp) (by simp [numbered_append, numbered_piece]),
   OptMsg.mk (fun x => encFields (Pb.DenseInfo.fields x)) m.denseinfo (by simp [numbered_append, numbered_piece]) (fun x hx => DenseInfo.encode_is x (sub_len hl (by simp only [Option.mem_def] at hx; simp [Pb.DenseNodes.fields, optF, repF, hx] : (⟨5, .len (encFields (Pb.DenseInfo.fields x))⟩ : Field) ∈ Pb.DenseNodes.fields m))),
   RepSint.mk _ m.lat.isEmpty (by simp) (by simp [numbered_append, numbered_piece]),
   RepSint.mk _ m.lon.isEmpty (by simp) (by simp [numbered_append, numbered_piece]),
   RepInt.mk _ m.keys_vals.isEmpty (by simp) (by simp [numbered_append, numbered_piece])⟩

theorem Way.encode_is (m : Pb.Way) (hl : (encFields (Pb.Way.fields m)).length < 2 ^ 64) : IsWay m (encFields (Pb.Way.fields m)) :=
  ⟨piece 1 [.int (Int64.toInt m.id)] ++
    piece 2 (if m.keys.isEmpty then [] else [.ints (m.keys.map (fun x => (UInt32.toNat x : ℤ)))]) ++
    piece 3 (if m.vals.isEmpty then [] else [.ints (m.vals.map (fun x => (UInt32.toNat x : ℤ)))]) ++
    piece 4 (m.info.toList.map (fun x => .bytes (encFields (Pb.Info.fields x)))) ++
    piece 8 (if m.refs.isEmpty then [] else [.sints (m.refs.map Int64.toInt)]) ++
    piece 9 (if m.lat.isEmpty then [] else [.sints (m.lat.map Int64.toInt)]) ++
    piece 10 (if m.lon.isEmpty then [] else [.sints (m.lon.map Int64.toInt)]),
   (((((((Enc.int (by norm_num) (by norm_num) (ofInt64_twos _)).append (Enc.ints (fun x => (UInt32.toNat x : ℤ)) ofUInt32 ofUInt32_twos m.keys (by norm_num) (by norm_num))).append (Enc.ints (fun x => (UInt32.toNat x : ℤ)) ofUInt32 ofUInt32_twos m.vals (by norm_num) (by norm_num))).append (Enc.opt _ _ (fun x => Enc.bytes (by norm_num) (by norm_num)) m.info)).append (Enc.sints Int64.toInt ofSInt64 ofSInt64_zigzag ofSInt64_lt m.refs (by norm_num) (by norm_num))).append (Enc.sints Int64.toInt ofSInt64 ofSInt64_zigzag ofSInt64_lt m.lat (by norm_num) (by norm_num))).append (Enc.sints Int64.toInt ofSInt64 ofSInt64_zigzag ofSInt64_lt m.lon (by norm_num) (by norm_num))) hl,
   ReqInt.mk _ (by simp [numbered_append, numbered_piece]),
   RepInt.mk _ m.keys.isEmpty (by simp) (by simp [numbered_append, numbered_piece]),
   RepInt.mk _ m.vals.isEmpty (by simp) (by simp [numbered_append, numbered_piece]),
   OptMsg.mk (fun x => encFields (Pb.Info.fields x)) m.info (by simp [numbered_append, numbered_piece]) (fun x hx => Info.encode_is x (sub_len hl (by simp only [Option.mem_def] at hx; simp [Pb.Way.fields, optF, repF, hx] : (⟨4, .len (encFields (Pb.Info.fields x))⟩ : Field) ∈ Pb.Way.fields m))),
   RepSint.mk _ m.refs.isEmpty (by simp) (by simp [numbered_append, numbered_piece]),
   RepSint.mk _ m.lat.isEmpty (by simp) (by simp [numbered_append, numbered_piece]),
   RepSint.mk _ m.lon.isEmpty (by simp) (by simp [numbered_append, numbered_piece])⟩

theorem Relation.encode_is (m : Pb.Relation) (hl : (encFields (Pb.Relation.fields m)).length < 2 ^ 64) : IsRelation m (encFields (Pb.Relation.fields m)) :=
  ⟨piece 1 [.int (Int64.toInt m.id)] ++
    piece 2 (if m.keys.isEmpty then [] else [.ints (m.keys.map (fun x => (UInt32.toNat x : ℤ)))]) ++
    piece 3 (if m.vals.isEmpty then [] else [.ints (m.vals.map (fun x => (UInt32.toNat x : ℤ)))]) ++
    piece 4 (m.info.toList.map (fun x => .bytes (encFields (Pb.Info.fields x)))) ++
    piece 8 (if m.roles_sid.isEmpty then [] else [.ints (m.roles_sid.map Int32.toInt)]) ++
    piece 9 (if m.memids.isEmpty then [] else [.sints (m.memids.map Int64.toInt)]) ++
    piece 10 (if m.types.isEmpty then [] else [.ints (m.types.map Int32.toInt)]),
   (((((((Enc.int (by norm_num) (by norm_num) (ofInt64_twos _)).append (Enc.ints (fun x => (UInt32.toNat x : ℤ)) ofUInt32 ofUInt32_twos m.keys (by norm_num) (by norm_num))).append (Enc.ints (fun x => (UInt32.toNat x : ℤ)) ofUInt32 ofUInt32_twos m.vals (by norm_num) (by norm_num))).append (Enc.opt _ _ (fun x => Enc.bytes (by norm_num) (by norm_num)) m.info)).append (Enc.ints Int32.toInt ofInt32 ofInt32_twos m.roles_sid (by norm_num) (by norm_num))).append (Enc.sints Int64.toInt ofSInt64 ofSInt64_zigzag ofSInt64_lt m.memids (by norm_num) (by norm_num))).append (Enc.ints Int32.toInt ofInt32 ofInt32_twos m.types (by norm_num) (by norm_num))) hl,
   ReqInt.mk _ (by simp [numbered_append, numbered_piece]),
   RepInt.mk _ m.keys.isEmpty (by simp) (by simp [numbered_append, numbered_piece]),
   RepInt.mk _ m.vals.isEmpty (by simp) (by simp [numbered_append, numbered_piece]),
   OptMsg.mk (fun x => encFields (Pb.Info.fields x)) m.info (by simp [numbered_append, numbered_piece]) (fun x hx => Info.encode_is x (sub_len hl (by simp only [Option.mem_def] at hx; simp [Pb.Relation.fields, optF, repF, hx] : (⟨4, .len (encFields (Pb.Info.fields x))⟩ : Field) ∈ Pb.Relation.fields m))),
   RepInt.mk _ m.roles_sid.isEmpty (by simp) (by simp [numbered_append, numbered_piece]),
   RepSint.mk _ m.memids.isEmpty (by simp) (by simp [numbered_append, numbered_piece]),
   RepInt.mk _ m.types.isEmpty (by simp) (by simp [numbered_append, numbered_piece])⟩

theorem PrimitiveGroup.encode_is (m : Pb.PrimitiveGroup) (hl : (encFields (Pb.PrimitiveGroup.fields m)).length < 2 ^ 64) : IsPrimitiveGroup m (encFields (Pb.PrimitiveGroup.fields m)) :=
  ⟨piece 1 (m.nodes.map (fun x => .bytes (encFields (Pb.Node.fields x)))) ++
    piece 2 (m.dense.toList.map (fun x => .bytes (encFields (Pb.DenseNodes.fields x)))) ++
    piece 3 (m.ways.map (fun x => .bytes (encFields (Pb.Way.fields x)))) ++
    piece 4 (m.relations.map (fun x => .bytes (encFields (Pb.Relation.fields x)))) ++
    piece 5 (m.changesets.map (fun x => .bytes (encFields (Pb.ChangeSet.fields x)))),
   (((((Enc.rep _ _ (fun x => Enc.bytes (by norm_num) (by norm_num)) m.nodes).append (Enc.opt _ _ (fun x => Enc.bytes (by norm_num) (by norm_num)) m.dense)).append (Enc.rep _ _ (fun x => Enc.bytes (by norm_num) (by norm_num)) m.ways)).append (Enc.rep _ _ (fun x => Enc.bytes (by norm_num) (by norm_num)) m.relations)).append (Enc.rep _ _ (fun x => Enc.bytes (by norm_num) (by norm_num)) m.changesets)) hl,
   RepMsg.mk (fun x => encFields (Pb.Node.fields x)) m.nodes (by simp [numbered_append, numbered_piece]) (fun x hx => Node.encode_is x (sub_len hl (by have := repF_mem 1 (fun x => Val.len (encFields (Pb.Node.fields x))) hx; simp only [Pb.PrimitiveGroup.fields, List.mem_append]; tauto : (⟨1, .len (encFields (Pb.Node.fields x))⟩ : Field) ∈ Pb.PrimitiveGroup.fields m))),
   OptMsg.mk (fun x => encFields (Pb.DenseNodes.fields x)) m.dense (by simp [numbered_append, numbered_piece]) (fun x hx => DenseNodes.encode_is x (sub_len hl (by simp only [Option.mem_def] at hx; simp [Pb.PrimitiveGroup.fields, optF, repF, hx] : (⟨2, .len (encFields (Pb.DenseNodes.fields x))⟩ : Field) ∈ Pb.PrimitiveGroup.fields m))),
   RepMsg.mk (fun x => encFields (Pb.Way.fields x)) m.ways (by simp [numbered_append, numbered_piece]) (fun x hx => Way.encode_is x (sub_len hl (by have := repF_mem 3 (fun x => Val.len (encFields (Pb.Way.fields x))) hx; simp only [Pb.PrimitiveGroup.fields, List.mem_append]; tauto : (⟨3, .len (encFields (Pb.Way.fields x))⟩ : Field) ∈ Pb.PrimitiveGroup.fields m))),
   RepMsg.mk (fun x => encFields (Pb.Relation.fields x)) m.relations (by simp [numbered_append, numbered_piece]) (fun x hx => Relation.encode_is x (sub_len hl (by have := repF_mem 4 (fun x => Val.len (encFields (Pb.Relation.fields x))) hx; simp only [Pb.PrimitiveGroup.fields, List.mem_append]; tauto : (⟨4, .len (encFields (Pb.Relation.fields x))⟩ : Field) ∈ Pb.PrimitiveGroup.fields m))),
   RepMsg.mk (fun x => encFields (Pb.ChangeSet.fields x)) m.changesets (by simp [numbered_append, numbered_piece]) (fun x hx => ChangeSet.encode_is x (sub_len hl (by have := repF_mem 5 (fun x => Val.len (encFields (Pb.ChangeSet.fields x))) hx; simp only [Pb.PrimitiveGroup.fields, List.mem_append]; tauto : (⟨5, .len (encFields (Pb.ChangeSet.fields x))⟩ : Field) ∈ Pb.PrimitiveGroup.fields m)))⟩

theorem PrimitiveBlock.encode_is (m : Pb.PrimitiveBlock) (hl : (encFields (Pb.PrimitiveBlock.fields m)).length < 2 ^ 64) : IsPrimitiveBlock m (encFields (Pb.PrimitiveBlock.fields m)) :=
  ⟨piece 1 [.bytes (encFields (Pb.StringTable.fields m.stringtable))] ++
    piece 2 (m.primitivegroup.map (fun x => .bytes (encFields (Pb.PrimitiveGroup.fields x)))) ++
    piece 17 (m.granularity.toList.map fun x => .int (Int32.toInt x)) ++
    piece 18 (m.date_granularity.toList.map fun x => .int (Int32.toInt x)) ++
    piece 19 (m.lat_offset.toList.map fun x => .int (Int64.toInt x)) ++
    piece 20 (m.lon_offset.toList.map fun x => .int (Int64.toInt x)),
   ((((((Enc.bytes (by norm_num) (by norm_num)).append (Enc.rep _ _ (fun x => Enc.bytes (by norm_num) (by norm_num)) m.primitivegroup)).append (Enc.opt _ _ (fun x => Enc.int (by norm_num) (by norm_num) (ofInt32_twos x)) m.granularity)).append (Enc.opt _ _ (fun x => Enc.int (by norm_num) (by norm_num) (ofInt32_twos x)) m.date_granularity)).append (Enc.opt _ _ (fun x => Enc.int (by norm_num) (by norm_num) (ofInt64_twos x)) m.lat_offset)).append (Enc.opt _ _ (fun x => Enc.int (by norm_num) (by norm_num) (ofInt64_twos x)) m.lon_offset)) hl,
   OptMsg.mk (fun x => encFields (Pb.StringTable.fields x)) (some m.stringtable) (by simp [numbered_append, numbered_piece]) (fun x hx => StringTable.encode_is x (sub_len hl (by simp only [Option.mem_def, Option.some.injEq] at hx; subst hx; simp [Pb.PrimitiveBlock.fields, optF, repF] : (⟨1, .len (encFields (Pb.StringTable.fields x))⟩ : Field) ∈ Pb.PrimitiveBlock.fields m))),
   RepMsg.mk (fun x => encFields (Pb.PrimitiveGroup.fields x)) m.primitivegroup (by simp [numbered_append, numbered_piece]) (fun x hx => PrimitiveGroup.encode_is x (sub_len hl (by have := repF_mem 2 (fun x => Val.len (encFields (Pb.PrimitiveGroup.fields x))) hx; simp only [Pb.PrimitiveBlock.fields, List.mem_append]; tauto : (⟨2, .len (encFields (Pb.PrimitiveGroup.fields x))⟩ : Field) ∈ Pb.PrimitiveBlock.fields m))),
   OptInt.mk Int32.toInt m.granularity (by simp [numbered_append, numbered_piece]),
   OptInt.mk Int32.toInt m.date_granularity (by simp [numbered_append, numbered_piece]),
   OptInt.mk Int64.toInt m.lat_offset (by simp [numbered_append, numbered_piece]),
   OptInt.mk Int64.toInt m.lon_offset (by simp [numbered_append, numbered_piece])⟩

theorem HeaderBBox.encode_is (m : Pb.HeaderBBox) (hl : (encFields (Pb.HeaderBBox.fields m)).length < 2 ^ 64) : IsHeaderBBox m (encFields (Pb.HeaderBBox.fields m)) :=
  ⟨piece 1 [.sint (Int64.toInt m.left)] ++
    piece 2 [.sint (Int64.toInt m.right)] ++
    piece 3 [.sint (Int64.toInt m.top)] ++
    piece 4 [.sint (Int64.toInt m.bottom)],
   ((((Enc.sint (by norm_num) (by norm_num) (ofSInt64_zigzag _) (ofSInt64_lt _)).append (Enc.sint (by norm_num) (by norm_num) (ofSInt64_zigzag _) (ofSInt64_lt _))).append (Enc.sint (by norm_num) (by norm_num) (ofSInt64_zigzag _) (ofSInt64_lt _))).append (Enc.sint (by norm_num) (by norm_num) (ofSInt64_zigzag _) (ofSInt64_lt _))) hl,
   ReqSint.mk _ (by simp [numbered_append, numbered_piece]),
   ReqSint.mk _ (by simp [numbered_append, numbered_piece]),
   ReqSint.mk _ (by simp [numbered_append, numbered_piece]),
   ReqSint.mk _ (by simp [numbered_append, numbered_piece])⟩

theorem HeaderBlock.encode_is (m : Pb.HeaderBlock) (hl : (encFields (Pb.HeaderBlock.fields m)).length < 2 ^ 64) : IsHeaderBlock m (encFields (Pb.HeaderBlock.fields m)) :=
  ⟨piece 1 (m.bbox.toList.map (fun x => .bytes (encFields (Pb.HeaderBBox.fields x)))) ++
    piece 4 (m.required_features.map fun s => .bytes (utf8 s)) ++
    piece 5 (m.optional_features.map fun s => .bytes (utf8 s)) ++
    piece 16 (m.writingprogram.toList.map fun s => .bytes (utf8 s)) ++
    piece 17 (m.source.toList.map fun s => .bytes (utf8 s)) ++
    piece 32 (m.osmosis_replication_timestamp.toList.map fun x => .int (Int64.toInt x)) ++
    piece 33 (m.osmosis_replication_sequence_number.toList.map fun x => .int (Int64.toInt x)) ++
    piece 34 (m.osmosis_replication_base_url.toList.map fun s => .bytes (utf8 s)),
   ((((((((Enc.opt _ _ (fun x => Enc.bytes (by norm_num) (by norm_num)) m.bbox).append (Enc.rep _ _ (fun x => Enc.bytes (by norm_num) (by norm_num)) m.required_features)).append (Enc.rep _ _ (fun x => Enc.bytes (by norm_num) (by norm_num)) m.optional_features)).append (Enc.opt _ _ (fun x => Enc.bytes (by norm_num) (by norm_num)) m.writingprogram)).append (Enc.opt _ _ (fun x => Enc.bytes (by norm_num) (by norm_num)) m.source)).append (Enc.opt _ _ (fun x => Enc.int (by norm_num) (by norm_num) (ofInt64_twos x)) m.osmosis_replication_timestamp)).append (Enc.opt _ _ (fun x => Enc.int (by norm_num) (by norm_num) (ofInt64_twos x)) m.osmosis_replication_sequence_number)).append (Enc.opt _ _ (fun x => Enc.bytes (by norm_num) (by norm_num)) m.osmosis_replication_base_url)) hl,
   OptMsg.mk (fun x => encFields (Pb.HeaderBBox.fields x)) m.bbox (by simp [numbered_append, numbered_piece]) (fun x hx => HeaderBBox.encode_is x (sub_len hl (by simp only [Option.mem_def] at hx; simp [Pb.HeaderBlock.fields, optF, repF, hx] : (⟨1, .len (encFields (Pb.HeaderBBox.fields x))⟩ : Field) ∈ Pb.HeaderBlock.fields m))),
   (show _ = _ by simp [numbered_append, numbered_piece]),
   (show _ = _ by simp [numbered_append, numbered_piece]),
   OptText.mk _ (by simp [numbered_append, numbered_piece]),
   OptText.mk _ (by simp [numbered_append, numbered_piece]),
   OptInt.mk Int64.toInt m.osmosis_replication_timestamp (by simp [numbered_append, numbered_piece]),
   OptInt.mk Int64.toInt m.osmosis_replication_sequence_number (by simp [numbered_append, numbered_piece]),
   OptText.mk _ (by simp [numbered_append, numbered_piece])⟩

theorem BlobHeader.encode_is (m : Pb.BlobHeader) (hl : (encFields (Pb.BlobHeader.fields m)).length < 2 ^ 64) : IsBlobHeader m (encFields (Pb.BlobHeader.fields m)) :=
  ⟨piece 1 [.bytes (utf8 m.type)] ++
    piece 2 (m.indexdata.toList.map .bytes) ++
    piece 3 [.int (Int32.toInt m.datasize)],
   (((Enc.bytes (by norm_num) (by norm_num)).append (Enc.opt _ _ (fun x => Enc.bytes (by norm_num) (by norm_num)) m.indexdata)).append (Enc.int (by norm_num) (by norm_num) (ofInt32_twos _))) hl,
   OptText.mk (some m.type) (by simp [numbered_append, numbered_piece]),
   OptBytes.mk _ (by simp [numbered_append, numbered_piece]),
   ReqInt.mk _ (by simp [numbered_append, numbered_piece])⟩

end OsmIo
