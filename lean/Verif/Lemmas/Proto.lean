import Verif.Lemmas.Wire
/-! # Every message decodes to itself -/
set_option linter.unusedSimpArgs false
set_option linter.unusedTactic false
set_option linter.unreachableTactic false
set_option linter.flexible false
namespace OsmIo.Pb
open OsmIo.Wire

theorem BlobHeader.pre (m : BlobHeader) : ∀ f ∈ m.fields, f.Pre := by
  intro f hf
  simp only [BlobHeader.fields, List.mem_append] at hf
  rcases hf with ((hf | hf) | hf)
  · simp at hf; subst hf; exact ⟨by norm_num, by norm_num, trivial⟩
  · exact pre_optF _ (fun _ => ⟨by norm_num, by norm_num, trivial⟩) f hf
  · simp at hf; subst hf; exact ⟨by norm_num, by norm_num, ofInt32_lt _⟩

theorem BlobHeader.merge_encode (m : BlobHeader) (hl : m.encode.length < 2 ^ 64) :
    BlobHeader.merge {} m.encode = some m := by
  unfold BlobHeader.merge BlobHeader.encode at *
  rw [parse_enc_of_pre m.pre hl]
  simp only [Option.bind_some, BlobHeader.fields, List.foldlM_append]
  have p0 : ∀ a : BlobHeader, [(⟨1, .len (strBytes m.type)⟩ : Field)].foldlM BlobHeader.step a =
      some { a with type := m.type } := fun a => by simp [BlobHeader.step, getStr, strOf_strBytes]
  have p1 : ∀ a : BlobHeader, (optF 2 (fun x => Val.len x) m.indexdata).foldlM BlobHeader.step a =
      some (m.indexdata.elim a fun x => { a with indexdata := some x }) := fun a =>
    foldlM_optF BlobHeader.step 2 _ (fun a x => { a with indexdata := some x }) m.indexdata
      (fun a x _ => by simp [BlobHeader.step, getBytes]) a
  have p2 : ∀ a : BlobHeader, [(⟨3, .varint (ofInt32 m.datasize)⟩ : Field)].foldlM BlobHeader.step a =
      some { a with datasize := m.datasize } := fun a => by simp [BlobHeader.step, getVarint, toInt32_of]
  clear hl
  obtain ⟨type, indexdata, datasize⟩ := m
  simp only at *
  rw [p0]
  simp only [Option.bind_some, Option.bind_eq_bind]
  rw [p1]
  simp only [Option.bind_some, Option.bind_eq_bind]
  rw [p2]
  rcases indexdata with _ | indexdata <;> simp

theorem HeaderBBox.pre (m : HeaderBBox) : ∀ f ∈ m.fields, f.Pre := by
  intro f hf
  simp only [HeaderBBox.fields, List.mem_append] at hf
  rcases hf with (((hf | hf) | hf) | hf)
  · simp at hf; subst hf; exact ⟨by norm_num, by norm_num, ofSInt64_lt _⟩
  · simp at hf; subst hf; exact ⟨by norm_num, by norm_num, ofSInt64_lt _⟩
  · simp at hf; subst hf; exact ⟨by norm_num, by norm_num, ofSInt64_lt _⟩
  · simp at hf; subst hf; exact ⟨by norm_num, by norm_num, ofSInt64_lt _⟩

theorem HeaderBBox.merge_encode (m : HeaderBBox) (hl : m.encode.length < 2 ^ 64) :
    HeaderBBox.merge {} m.encode = some m := by
  unfold HeaderBBox.merge HeaderBBox.encode at *
  rw [parse_enc_of_pre m.pre hl]
  simp only [Option.bind_some, HeaderBBox.fields, List.foldlM_append]
  have p0 : ∀ a : HeaderBBox, [(⟨1, .varint (ofSInt64 m.left)⟩ : Field)].foldlM HeaderBBox.step a =
      some { a with left := m.left } := fun a => by simp [HeaderBBox.step, getVarint, toSInt64_of]
  have p1 : ∀ a : HeaderBBox, [(⟨2, .varint (ofSInt64 m.right)⟩ : Field)].foldlM HeaderBBox.step a =
      some { a with right := m.right } := fun a => by simp [HeaderBBox.step, getVarint, toSInt64_of]
  have p2 : ∀ a : HeaderBBox, [(⟨3, .varint (ofSInt64 m.top)⟩ : Field)].foldlM HeaderBBox.step a =
      some { a with top := m.top } := fun a => by simp [HeaderBBox.step, getVarint, toSInt64_of]
  have p3 : ∀ a : HeaderBBox, [(⟨4, .varint (ofSInt64 m.bottom)⟩ : Field)].foldlM HeaderBBox.step a =
      some { a with bottom := m.bottom } := fun a => by simp [HeaderBBox.step, getVarint, toSInt64_of]
  clear hl
  obtain ⟨left, right, top, bottom⟩ := m
  simp only at *
  rw [p0]
  simp only [Option.bind_some, Option.bind_eq_bind]
  rw [p1]
  simp only [Option.bind_some, Option.bind_eq_bind]
  rw [p2]
  simp only [Option.bind_some, Option.bind_eq_bind]
  rw [p3]
  try simp

theorem HeaderBlock.pre (m : HeaderBlock) : ∀ f ∈ m.fields, f.Pre := by
  intro f hf
  simp only [HeaderBlock.fields, List.mem_append] at hf
  rcases hf with (((((((hf | hf) | hf) | hf) | hf) | hf) | hf) | hf)
  · exact pre_optF _ (fun _ => ⟨by norm_num, by norm_num, trivial⟩) f hf
  · exact pre_repF _ (fun _ => ⟨by norm_num, by norm_num, trivial⟩) f hf
  · exact pre_repF _ (fun _ => ⟨by norm_num, by norm_num, trivial⟩) f hf
  · exact pre_optF _ (fun _ => ⟨by norm_num, by norm_num, trivial⟩) f hf
  · exact pre_optF _ (fun _ => ⟨by norm_num, by norm_num, trivial⟩) f hf
  · exact pre_optF _ (fun _ => ⟨by norm_num, by norm_num, ofInt64_lt _⟩) f hf
  · exact pre_optF _ (fun _ => ⟨by norm_num, by norm_num, ofInt64_lt _⟩) f hf
  · exact pre_optF _ (fun _ => ⟨by norm_num, by norm_num, trivial⟩) f hf

theorem HeaderBlock.merge_encode (m : HeaderBlock) (hl : m.encode.length < 2 ^ 64) :
    HeaderBlock.merge {} m.encode = some m := by
  unfold HeaderBlock.merge HeaderBlock.encode at *
  rw [parse_enc_of_pre m.pre hl]
  simp only [Option.bind_some, HeaderBlock.fields, List.foldlM_append]
  have hb0 : ∀ x ∈ m.bbox, (encFields (HeaderBBox.fields x)).length < 2 ^ 64 := by
    intro x hx
    have h1 : (⟨1, .len (encFields (HeaderBBox.fields x))⟩ : Field) ∈ m.fields := by
      have hx' : m.bbox = some x := hx
      simp [HeaderBlock.fields, optF, repF, hx']
    have h2 := encField_mem_le h1
    have h3 := encField_len_le 1 (encFields (HeaderBBox.fields x))
    omega
  have p0 : ∀ a : HeaderBlock, a.bbox = none → (optF 1 (fun x => Val.len (encFields (HeaderBBox.fields x))) m.bbox).foldlM HeaderBlock.step a =
      some (m.bbox.elim a fun x => { a with bbox := some x }) := by
    intro a ha
    cases hm : m.bbox with
    | none => rfl
    | some x =>
      have := HeaderBBox.merge_encode x (hb0 x hm)
      simp only [HeaderBBox.encode] at this
      simp [optF, HeaderBlock.step, getBytes, ha, this]
  have p1 : ∀ a : HeaderBlock, (repF 4 (fun x => Val.len (strBytes x)) m.required_features).foldlM HeaderBlock.step a =
      some { a with required_features := a.required_features ++ m.required_features } := fun a =>
    foldlM_repF HeaderBlock.step 4 _ (fun a l => { a with required_features := a.required_features ++ l }) m.required_features
      (fun a x hx => by simp [HeaderBlock.step, getStr, strOf_strBytes]) (fun a => by simp) (fun a b c => by simp) a
  have p2 : ∀ a : HeaderBlock, (repF 5 (fun x => Val.len (strBytes x)) m.optional_features).foldlM HeaderBlock.step a =
      some { a with optional_features := a.optional_features ++ m.optional_features } := fun a =>
    foldlM_repF HeaderBlock.step 5 _ (fun a l => { a with optional_features := a.optional_features ++ l }) m.optional_features
      (fun a x hx => by simp [HeaderBlock.step, getStr, strOf_strBytes]) (fun a => by simp) (fun a b c => by simp) a
  have p3 : ∀ a : HeaderBlock, (optF 16 (fun x => Val.len (strBytes x)) m.writingprogram).foldlM HeaderBlock.step a =
      some (m.writingprogram.elim a fun x => { a with writingprogram := some x }) := fun a =>
    foldlM_optF HeaderBlock.step 16 _ (fun a x => { a with writingprogram := some x }) m.writingprogram
      (fun a x _ => by simp [HeaderBlock.step, getStr, strOf_strBytes]) a
  have p4 : ∀ a : HeaderBlock, (optF 17 (fun x => Val.len (strBytes x)) m.source).foldlM HeaderBlock.step a =
      some (m.source.elim a fun x => { a with source := some x }) := fun a =>
    foldlM_optF HeaderBlock.step 17 _ (fun a x => { a with source := some x }) m.source
      (fun a x _ => by simp [HeaderBlock.step, getStr, strOf_strBytes]) a
  have p5 : ∀ a : HeaderBlock, (optF 32 (fun x => Val.varint (ofInt64 x)) m.osmosis_replication_timestamp).foldlM HeaderBlock.step a =
      some (m.osmosis_replication_timestamp.elim a fun x => { a with osmosis_replication_timestamp := some x }) := fun a =>
    foldlM_optF HeaderBlock.step 32 _ (fun a x => { a with osmosis_replication_timestamp := some x }) m.osmosis_replication_timestamp
      (fun a x _ => by simp [HeaderBlock.step, getVarint, toInt64_of]) a
  have p6 : ∀ a : HeaderBlock, (optF 33 (fun x => Val.varint (ofInt64 x)) m.osmosis_replication_sequence_number).foldlM HeaderBlock.step a =
      some (m.osmosis_replication_sequence_number.elim a fun x => { a with osmosis_replication_sequence_number := some x }) := fun a =>
    foldlM_optF HeaderBlock.step 33 _ (fun a x => { a with osmosis_replication_sequence_number := some x }) m.osmosis_replication_sequence_number
      (fun a x _ => by simp [HeaderBlock.step, getVarint, toInt64_of]) a
  have p7 : ∀ a : HeaderBlock, (optF 34 (fun x => Val.len (strBytes x)) m.osmosis_replication_base_url).foldlM HeaderBlock.step a =
      some (m.osmosis_replication_base_url.elim a fun x => { a with osmosis_replication_base_url := some x }) := fun a =>
    foldlM_optF HeaderBlock.step 34 _ (fun a x => { a with osmosis_replication_base_url := some x }) m.osmosis_replication_base_url
      (fun a x _ => by simp [HeaderBlock.step, getStr, strOf_strBytes]) a
  clear hl
  clear hb0
  obtain ⟨bbox, required_features, optional_features, writingprogram, source, osmosis_replication_timestamp, osmosis_replication_sequence_number, osmosis_replication_base_url⟩ := m
  simp only at *
  rw [p0 _ (by rfl)]
  simp only [Option.bind_some, Option.bind_eq_bind]
  rw [p1]
  simp only [Option.bind_some, Option.bind_eq_bind]
  rw [p2]
  simp only [Option.bind_some, Option.bind_eq_bind]
  rw [p3]
  simp only [Option.bind_some, Option.bind_eq_bind]
  rw [p4]
  simp only [Option.bind_some, Option.bind_eq_bind]
  rw [p5]
  simp only [Option.bind_some, Option.bind_eq_bind]
  rw [p6]
  simp only [Option.bind_some, Option.bind_eq_bind]
  rw [p7]
  rcases bbox with _ | bbox <;> rcases writingprogram with _ | writingprogram <;> rcases source with _ | source <;> rcases osmosis_replication_timestamp with _ | osmosis_replication_timestamp <;> rcases osmosis_replication_sequence_number with _ | osmosis_replication_sequence_number <;> rcases osmosis_replication_base_url with _ | osmosis_replication_base_url <;> simp

theorem StringTable.pre (m : StringTable) : ∀ f ∈ m.fields, f.Pre := by
  intro f hf
  simp only [StringTable.fields, List.mem_append] at hf
  exact pre_repF _ (fun _ => ⟨by norm_num, by norm_num, trivial⟩) f hf

theorem StringTable.merge_encode (m : StringTable) (hl : m.encode.length < 2 ^ 64) :
    StringTable.merge {} m.encode = some m := by
  unfold StringTable.merge StringTable.encode at *
  rw [parse_enc_of_pre m.pre hl]
  simp only [Option.bind_some, StringTable.fields, List.foldlM_append]
  have p0 : ∀ a : StringTable, (repF 1 (fun x => Val.len x) m.s).foldlM StringTable.step a =
      some { a with s := a.s ++ m.s } := fun a =>
    foldlM_repF StringTable.step 1 _ (fun a l => { a with s := a.s ++ l }) m.s
      (fun a x hx => by simp [StringTable.step, getBytes]) (fun a => by simp) (fun a b c => by simp) a
  clear hl
  obtain ⟨s⟩ := m
  simp only at *
  rw [p0]
  try simp

theorem Info.pre (m : Info) : ∀ f ∈ m.fields, f.Pre := by
  intro f hf
  simp only [Info.fields, List.mem_append] at hf
  rcases hf with (((((hf | hf) | hf) | hf) | hf) | hf)
  · exact pre_optF _ (fun _ => ⟨by norm_num, by norm_num, ofInt32_lt _⟩) f hf
  · exact pre_optF _ (fun _ => ⟨by norm_num, by norm_num, ofInt64_lt _⟩) f hf
  · exact pre_optF _ (fun _ => ⟨by norm_num, by norm_num, ofInt64_lt _⟩) f hf
  · exact pre_optF _ (fun _ => ⟨by norm_num, by norm_num, ofInt32_lt _⟩) f hf
  · exact pre_optF _ (fun _ => ⟨by norm_num, by norm_num, ofUInt32_lt _⟩) f hf
  · exact pre_optF _ (fun _ => ⟨by norm_num, by norm_num, ofBool_lt _⟩) f hf

theorem Info.merge_encode (m : Info) (hl : m.encode.length < 2 ^ 64) :
    Info.merge {} m.encode = some m := by
  unfold Info.merge Info.encode at *
  rw [parse_enc_of_pre m.pre hl]
  simp only [Option.bind_some, Info.fields, List.foldlM_append]
  have p0 : ∀ a : Info, (optF 1 (fun x => Val.varint (ofInt32 x)) m.version).foldlM Info.step a =
      some (m.version.elim a fun x => { a with version := some x }) := fun a =>
    foldlM_optF Info.step 1 _ (fun a x => { a with version := some x }) m.version
      (fun a x _ => by simp [Info.step, getVarint, toInt32_of]) a
  have p1 : ∀ a : Info, (optF 2 (fun x => Val.varint (ofInt64 x)) m.timestamp).foldlM Info.step a =
      some (m.timestamp.elim a fun x => { a with timestamp := some x }) := fun a =>
    foldlM_optF Info.step 2 _ (fun a x => { a with timestamp := some x }) m.timestamp
      (fun a x _ => by simp [Info.step, getVarint, toInt64_of]) a
  have p2 : ∀ a : Info, (optF 3 (fun x => Val.varint (ofInt64 x)) m.changeset).foldlM Info.step a =
      some (m.changeset.elim a fun x => { a with changeset := some x }) := fun a =>
    foldlM_optF Info.step 3 _ (fun a x => { a with changeset := some x }) m.changeset
      (fun a x _ => by simp [Info.step, getVarint, toInt64_of]) a
  have p3 : ∀ a : Info, (optF 4 (fun x => Val.varint (ofInt32 x)) m.uid).foldlM Info.step a =
      some (m.uid.elim a fun x => { a with uid := some x }) := fun a =>
    foldlM_optF Info.step 4 _ (fun a x => { a with uid := some x }) m.uid
      (fun a x _ => by simp [Info.step, getVarint, toInt32_of]) a
  have p4 : ∀ a : Info, (optF 5 (fun x => Val.varint (ofUInt32 x)) m.user_sid).foldlM Info.step a =
      some (m.user_sid.elim a fun x => { a with user_sid := some x }) := fun a =>
    foldlM_optF Info.step 5 _ (fun a x => { a with user_sid := some x }) m.user_sid
      (fun a x _ => by simp [Info.step, getVarint, toUInt32_of]) a
  have p5 : ∀ a : Info, (optF 6 (fun x => Val.varint (ofBool x)) m.visible).foldlM Info.step a =
      some (m.visible.elim a fun x => { a with visible := some x }) := fun a =>
    foldlM_optF Info.step 6 _ (fun a x => { a with visible := some x }) m.visible
      (fun a x _ => by simp [Info.step, getVarint, toBool_of]) a
  clear hl
  obtain ⟨version, timestamp, changeset, uid, user_sid, visible⟩ := m
  simp only at *
  rw [p0]
  simp only [Option.bind_some, Option.bind_eq_bind]
  rw [p1]
  simp only [Option.bind_some, Option.bind_eq_bind]
  rw [p2]
  simp only [Option.bind_some, Option.bind_eq_bind]
  rw [p3]
  simp only [Option.bind_some, Option.bind_eq_bind]
  rw [p4]
  simp only [Option.bind_some, Option.bind_eq_bind]
  rw [p5]
  rcases version with _ | version <;> rcases timestamp with _ | timestamp <;> rcases changeset with _ | changeset <;> rcases uid with _ | uid <;> rcases user_sid with _ | user_sid <;> rcases visible with _ | visible <;> simp

theorem DenseInfo.pre (m : DenseInfo) : ∀ f ∈ m.fields, f.Pre := by
  intro f hf
  simp only [DenseInfo.fields, List.mem_append] at hf
  rcases hf with (((((hf | hf) | hf) | hf) | hf) | hf)
  · exact pre_packF _ (by norm_num) (by norm_num) f hf
  · exact pre_packF _ (by norm_num) (by norm_num) f hf
  · exact pre_packF _ (by norm_num) (by norm_num) f hf
  · exact pre_packF _ (by norm_num) (by norm_num) f hf
  · exact pre_packF _ (by norm_num) (by norm_num) f hf
  · exact pre_packF _ (by norm_num) (by norm_num) f hf

theorem DenseInfo.merge_encode (m : DenseInfo) (hl : m.encode.length < 2 ^ 64) :
    DenseInfo.merge {} m.encode = some m := by
  unfold DenseInfo.merge DenseInfo.encode at *
  rw [parse_enc_of_pre m.pre hl]
  simp only [Option.bind_some, DenseInfo.fields, List.foldlM_append]
  have p0 : ∀ a : DenseInfo, (packF 1 ofInt32 m.version).foldlM DenseInfo.step a =
      some { a with version := a.version ++ m.version } := fun a =>
    foldlM_packF DenseInfo.step 1 ofInt32 (fun a l => { a with version := a.version ++ l }) m.version
      (fun a => by simp only [DenseInfo.step, getRep_pack ofInt32 toInt32 ofInt32_lt toInt32_of]; rfl) (fun a => by simp) a
  have p1 : ∀ a : DenseInfo, (packF 2 ofSInt64 m.timestamp).foldlM DenseInfo.step a =
      some { a with timestamp := a.timestamp ++ m.timestamp } := fun a =>
    foldlM_packF DenseInfo.step 2 ofSInt64 (fun a l => { a with timestamp := a.timestamp ++ l }) m.timestamp
      (fun a => by simp only [DenseInfo.step, getRep_pack ofSInt64 toSInt64 ofSInt64_lt toSInt64_of]; rfl) (fun a => by simp) a
  have p2 : ∀ a : DenseInfo, (packF 3 ofSInt64 m.changeset).foldlM DenseInfo.step a =
      some { a with changeset := a.changeset ++ m.changeset } := fun a =>
    foldlM_packF DenseInfo.step 3 ofSInt64 (fun a l => { a with changeset := a.changeset ++ l }) m.changeset
      (fun a => by simp only [DenseInfo.step, getRep_pack ofSInt64 toSInt64 ofSInt64_lt toSInt64_of]; rfl) (fun a => by simp) a
  have p3 : ∀ a : DenseInfo, (packF 4 ofSInt32 m.uid).foldlM DenseInfo.step a =
      some { a with uid := a.uid ++ m.uid } := fun a =>
    foldlM_packF DenseInfo.step 4 ofSInt32 (fun a l => { a with uid := a.uid ++ l }) m.uid
      (fun a => by simp only [DenseInfo.step, getRep_pack ofSInt32 toSInt32 ofSInt32_lt toSInt32_of]; rfl) (fun a => by simp) a
  have p4 : ∀ a : DenseInfo, (packF 5 ofSInt32 m.user_sid).foldlM DenseInfo.step a =
      some { a with user_sid := a.user_sid ++ m.user_sid } := fun a =>
    foldlM_packF DenseInfo.step 5 ofSInt32 (fun a l => { a with user_sid := a.user_sid ++ l }) m.user_sid
      (fun a => by simp only [DenseInfo.step, getRep_pack ofSInt32 toSInt32 ofSInt32_lt toSInt32_of]; rfl) (fun a => by simp) a
  have p5 : ∀ a : DenseInfo, (packF 6 ofBool m.visible).foldlM DenseInfo.step a =
      some { a with visible := a.visible ++ m.visible } := fun a =>
    foldlM_packF DenseInfo.step 6 ofBool (fun a l => { a with visible := a.visible ++ l }) m.visible
      (fun a => by simp only [DenseInfo.step, getRep_pack ofBool toBool ofBool_lt toBool_of]; rfl) (fun a => by simp) a
  clear hl
  obtain ⟨version, timestamp, changeset, uid, user_sid, visible⟩ := m
  simp only at *
  rw [p0]
  simp only [Option.bind_some, Option.bind_eq_bind]
  rw [p1]
  simp only [Option.bind_some, Option.bind_eq_bind]
  rw [p2]
  simp only [Option.bind_some, Option.bind_eq_bind]
  rw [p3]
  simp only [Option.bind_some, Option.bind_eq_bind]
  rw [p4]
  simp only [Option.bind_some, Option.bind_eq_bind]
  rw [p5]
  try simp

theorem ChangeSet.pre (m : ChangeSet) : ∀ f ∈ m.fields, f.Pre := by
  intro f hf
  simp only [ChangeSet.fields, List.mem_append] at hf
  simp at hf; subst hf; exact ⟨by norm_num, by norm_num, ofInt64_lt _⟩

theorem ChangeSet.merge_encode (m : ChangeSet) (hl : m.encode.length < 2 ^ 64) :
    ChangeSet.merge {} m.encode = some m := by
  unfold ChangeSet.merge ChangeSet.encode at *
  rw [parse_enc_of_pre m.pre hl]
  simp only [Option.bind_some, ChangeSet.fields, List.foldlM_append]
  have p0 : ∀ a : ChangeSet, [(⟨1, .varint (ofInt64 m.id)⟩ : Field)].foldlM ChangeSet.step a =
      some { a with id := m.id } := fun a => by simp [ChangeSet.step, getVarint, toInt64_of]
  clear hl
  obtain ⟨id⟩ := m
  simp only at *
  rw [p0]
  try simp

theorem Node.pre (m : Node) : ∀ f ∈ m.fields, f.Pre := by
  intro f hf
  simp only [Node.fields, List.mem_append] at hf
  rcases hf with (((((hf | hf) | hf) | hf) | hf) | hf)
  · simp at hf; subst hf; exact ⟨by norm_num, by norm_num, ofSInt64_lt _⟩
  · exact pre_packF _ (by norm_num) (by norm_num) f hf
  · exact pre_packF _ (by norm_num) (by norm_num) f hf
  · exact pre_optF _ (fun _ => ⟨by norm_num, by norm_num, trivial⟩) f hf
  · simp at hf; subst hf; exact ⟨by norm_num, by norm_num, ofSInt64_lt _⟩
  · simp at hf; subst hf; exact ⟨by norm_num, by norm_num, ofSInt64_lt _⟩

theorem Node.merge_encode (m : Node) (hl : m.encode.length < 2 ^ 64) :
    Node.merge {} m.encode = some m := by
  unfold Node.merge Node.encode at *
  rw [parse_enc_of_pre m.pre hl]
  simp only [Option.bind_some, Node.fields, List.foldlM_append]
  have hb3 : ∀ x ∈ m.info, (encFields (Info.fields x)).length < 2 ^ 64 := by
    intro x hx
    have h1 : (⟨4, .len (encFields (Info.fields x))⟩ : Field) ∈ m.fields := by
      have hx' : m.info = some x := hx
      simp [Node.fields, optF, repF, hx']
    have h2 := encField_mem_le h1
    have h3 := encField_len_le 4 (encFields (Info.fields x))
    omega
  have p0 : ∀ a : Node, [(⟨1, .varint (ofSInt64 m.id)⟩ : Field)].foldlM Node.step a =
      some { a with id := m.id } := fun a => by simp [Node.step, getVarint, toSInt64_of]
  have p1 : ∀ a : Node, (packF 2 ofUInt32 m.keys).foldlM Node.step a =
      some { a with keys := a.keys ++ m.keys } := fun a =>
    foldlM_packF Node.step 2 ofUInt32 (fun a l => { a with keys := a.keys ++ l }) m.keys
      (fun a => by simp only [Node.step, getRep_pack ofUInt32 toUInt32 ofUInt32_lt toUInt32_of]; rfl) (fun a => by simp) a
  have p2 : ∀ a : Node, (packF 3 ofUInt32 m.vals).foldlM Node.step a =
      some { a with vals := a.vals ++ m.vals } := fun a =>
    foldlM_packF Node.step 3 ofUInt32 (fun a l => { a with vals := a.vals ++ l }) m.vals
      (fun a => by simp only [Node.step, getRep_pack ofUInt32 toUInt32 ofUInt32_lt toUInt32_of]; rfl) (fun a => by simp) a
  have p3 : ∀ a : Node, a.info = none → (optF 4 (fun x => Val.len (encFields (Info.fields x))) m.info).foldlM Node.step a =
      some (m.info.elim a fun x => { a with info := some x }) := by
    intro a ha
    cases hm : m.info with
    | none => rfl
    | some x =>
      have := Info.merge_encode x (hb3 x hm)
      simp only [Info.encode] at this
      simp [optF, Node.step, getBytes, ha, this]
  have p4 : ∀ a : Node, [(⟨8, .varint (ofSInt64 m.lat)⟩ : Field)].foldlM Node.step a =
      some { a with lat := m.lat } := fun a => by simp [Node.step, getVarint, toSInt64_of]
  have p5 : ∀ a : Node, [(⟨9, .varint (ofSInt64 m.lon)⟩ : Field)].foldlM Node.step a =
      some { a with lon := m.lon } := fun a => by simp [Node.step, getVarint, toSInt64_of]
  clear hl
  clear hb3
  obtain ⟨id, keys, vals, info, lat, lon⟩ := m
  simp only at *
  rw [p0]
  simp only [Option.bind_some, Option.bind_eq_bind]
  rw [p1]
  simp only [Option.bind_some, Option.bind_eq_bind]
  rw [p2]
  simp only [Option.bind_some, Option.bind_eq_bind]
  rw [p3 _ (by first | rfl | simp)]
  simp only [Option.bind_some, Option.bind_eq_bind]
  rw [p4]
  simp only [Option.bind_some, Option.bind_eq_bind]
  rw [p5]
  rcases info with _ | info <;> simp

theorem DenseNodes.pre (m : DenseNodes) : ∀ f ∈ m.fields, f.Pre := by
  intro f hf
  simp only [DenseNodes.fields, List.mem_append] at hf
  rcases hf with ((((hf | hf) | hf) | hf) | hf)
  · exact pre_packF _ (by norm_num) (by norm_num) f hf
  · exact pre_optF _ (fun _ => ⟨by norm_num, by norm_num, trivial⟩) f hf
  · exact pre_packF _ (by norm_num) (by norm_num) f hf
  · exact pre_packF _ (by norm_num) (by norm_num) f hf
  · exact pre_packF _ (by norm_num) (by norm_num) f hf

theorem DenseNodes.merge_encode (m : DenseNodes) (hl : m.encode.length < 2 ^ 64) :
    DenseNodes.merge {} m.encode = some m := by
  unfold DenseNodes.merge DenseNodes.encode at *
  rw [parse_enc_of_pre m.pre hl]
  simp only [Option.bind_some, DenseNodes.fields, List.foldlM_append]
  have hb1 : ∀ x ∈ m.denseinfo, (encFields (DenseInfo.fields x)).length < 2 ^ 64 := by
    intro x hx
    have h1 : (⟨5, .len (encFields (DenseInfo.fields x))⟩ : Field) ∈ m.fields := by
      have hx' : m.denseinfo = some x := hx
      simp [DenseNodes.fields, optF, repF, hx']
    have h2 := encField_mem_le h1
    have h3 := encField_len_le 5 (encFields (DenseInfo.fields x))
    omega
  have p0 : ∀ a : DenseNodes, (packF 1 ofSInt64 m.id).foldlM DenseNodes.step a =
      some { a with id := a.id ++ m.id } := fun a =>
    foldlM_packF DenseNodes.step 1 ofSInt64 (fun a l => { a with id := a.id ++ l }) m.id
      (fun a => by simp only [DenseNodes.step, getRep_pack ofSInt64 toSInt64 ofSInt64_lt toSInt64_of]; rfl) (fun a => by simp) a
  have p1 : ∀ a : DenseNodes, a.denseinfo = none → (optF 5 (fun x => Val.len (encFields (DenseInfo.fields x))) m.denseinfo).foldlM DenseNodes.step a =
      some (m.denseinfo.elim a fun x => { a with denseinfo := some x }) := by
    intro a ha
    cases hm : m.denseinfo with
    | none => rfl
    | some x =>
      have := DenseInfo.merge_encode x (hb1 x hm)
      simp only [DenseInfo.encode] at this
      simp [optF, DenseNodes.step, getBytes, ha, this]
  have p2 : ∀ a : DenseNodes, (packF 8 ofSInt64 m.lat).foldlM DenseNodes.step a =
      some { a with lat := a.lat ++ m.lat } := fun a =>
    foldlM_packF DenseNodes.step 8 ofSInt64 (fun a l => { a with lat := a.lat ++ l }) m.lat
      (fun a => by simp only [DenseNodes.step, getRep_pack ofSInt64 toSInt64 ofSInt64_lt toSInt64_of]; rfl) (fun a => by simp) a
  have p3 : ∀ a : DenseNodes, (packF 9 ofSInt64 m.lon).foldlM DenseNodes.step a =
      some { a with lon := a.lon ++ m.lon } := fun a =>
    foldlM_packF DenseNodes.step 9 ofSInt64 (fun a l => { a with lon := a.lon ++ l }) m.lon
      (fun a => by simp only [DenseNodes.step, getRep_pack ofSInt64 toSInt64 ofSInt64_lt toSInt64_of]; rfl) (fun a => by simp) a
  have p4 : ∀ a : DenseNodes, (packF 10 ofInt32 m.keys_vals).foldlM DenseNodes.step a =
      some { a with keys_vals := a.keys_vals ++ m.keys_vals } := fun a =>
    foldlM_packF DenseNodes.step 10 ofInt32 (fun a l => { a with keys_vals := a.keys_vals ++ l }) m.keys_vals
      (fun a => by simp only [DenseNodes.step, getRep_pack ofInt32 toInt32 ofInt32_lt toInt32_of]; rfl) (fun a => by simp) a
  clear hl
  clear hb1
  obtain ⟨id, denseinfo, lat, lon, keys_vals⟩ := m
  simp only at *
  rw [p0]
  simp only [Option.bind_some, Option.bind_eq_bind]
  rw [p1 _ (by first | rfl | simp)]
  simp only [Option.bind_some, Option.bind_eq_bind]
  rw [p2]
  simp only [Option.bind_some, Option.bind_eq_bind]
  rw [p3]
  simp only [Option.bind_some, Option.bind_eq_bind]
  rw [p4]
  rcases denseinfo with _ | denseinfo <;> simp

theorem Way.pre (m : Way) : ∀ f ∈ m.fields, f.Pre := by
  intro f hf
  simp only [Way.fields, List.mem_append] at hf
  rcases hf with ((((((hf | hf) | hf) | hf) | hf) | hf) | hf)
  · simp at hf; subst hf; exact ⟨by norm_num, by norm_num, ofInt64_lt _⟩
  · exact pre_packF _ (by norm_num) (by norm_num) f hf
  · exact pre_packF _ (by norm_num) (by norm_num) f hf
  · exact pre_optF _ (fun _ => ⟨by norm_num, by norm_num, trivial⟩) f hf
  · exact pre_packF _ (by norm_num) (by norm_num) f hf
  · exact pre_packF _ (by norm_num) (by norm_num) f hf
  · exact pre_packF _ (by norm_num) (by norm_num) f hf

theorem Way.merge_encode (m : Way) (hl : m.encode.length < 2 ^ 64) :
    Way.merge {} m.encode = some m := by
  unfold Way.merge Way.encode at *
  rw [parse_enc_of_pre m.pre hl]
  simp only [Option.bind_some, Way.fields, List.foldlM_append]
  have hb3 : ∀ x ∈ m.info, (encFields (Info.fields x)).length < 2 ^ 64 := by
    intro x hx
    have h1 : (⟨4, .len (encFields (Info.fields x))⟩ : Field) ∈ m.fields := by
      have hx' : m.info = some x := hx
      simp [Way.fields, optF, repF, hx']
    have h2 := encField_mem_le h1
    have h3 := encField_len_le 4 (encFields (Info.fields x))
    omega
  have p0 : ∀ a : Way, [(⟨1, .varint (ofInt64 m.id)⟩ : Field)].foldlM Way.step a =
      some { a with id := m.id } := fun a => by simp [Way.step, getVarint, toInt64_of]
  have p1 : ∀ a : Way, (packF 2 ofUInt32 m.keys).foldlM Way.step a =
      some { a with keys := a.keys ++ m.keys } := fun a =>
    foldlM_packF Way.step 2 ofUInt32 (fun a l => { a with keys := a.keys ++ l }) m.keys
      (fun a => by simp only [Way.step, getRep_pack ofUInt32 toUInt32 ofUInt32_lt toUInt32_of]; rfl) (fun a => by simp) a
  have p2 : ∀ a : Way, (packF 3 ofUInt32 m.vals).foldlM Way.step a =
      some { a with vals := a.vals ++ m.vals } := fun a =>
    foldlM_packF Way.step 3 ofUInt32 (fun a l => { a with vals := a.vals ++ l }) m.vals
      (fun a => by simp only [Way.step, getRep_pack ofUInt32 toUInt32 ofUInt32_lt toUInt32_of]; rfl) (fun a => by simp) a
  have p3 : ∀ a : Way, a.info = none → (optF 4 (fun x => Val.len (encFields (Info.fields x))) m.info).foldlM Way.step a =
      some (m.info.elim a fun x => { a with info := some x }) := by
    intro a ha
    cases hm : m.info with
    | none => rfl
    | some x =>
      have := Info.merge_encode x (hb3 x hm)
      simp only [Info.encode] at this
      simp [optF, Way.step, getBytes, ha, this]
  have p4 : ∀ a : Way, (packF 8 ofSInt64 m.refs).foldlM Way.step a =
      some { a with refs := a.refs ++ m.refs } := fun a =>
    foldlM_packF Way.step 8 ofSInt64 (fun a l => { a with refs := a.refs ++ l }) m.refs
      (fun a => by simp only [Way.step, getRep_pack ofSInt64 toSInt64 ofSInt64_lt toSInt64_of]; rfl) (fun a => by simp) a
  have p5 : ∀ a : Way, (packF 9 ofSInt64 m.lat).foldlM Way.step a =
      some { a with lat := a.lat ++ m.lat } := fun a =>
    foldlM_packF Way.step 9 ofSInt64 (fun a l => { a with lat := a.lat ++ l }) m.lat
      (fun a => by simp only [Way.step, getRep_pack ofSInt64 toSInt64 ofSInt64_lt toSInt64_of]; rfl) (fun a => by simp) a
  have p6 : ∀ a : Way, (packF 10 ofSInt64 m.lon).foldlM Way.step a =
      some { a with lon := a.lon ++ m.lon } := fun a =>
    foldlM_packF Way.step 10 ofSInt64 (fun a l => { a with lon := a.lon ++ l }) m.lon
      (fun a => by simp only [Way.step, getRep_pack ofSInt64 toSInt64 ofSInt64_lt toSInt64_of]; rfl) (fun a => by simp) a
  clear hl
  clear hb3
  obtain ⟨id, keys, vals, info, refs, lat, lon⟩ := m
  simp only at *
  rw [p0]
  simp only [Option.bind_some, Option.bind_eq_bind]
  rw [p1]
  simp only [Option.bind_some, Option.bind_eq_bind]
  rw [p2]
  simp only [Option.bind_some, Option.bind_eq_bind]
  rw [p3 _ (by first | rfl | simp)]
  simp only [Option.bind_some, Option.bind_eq_bind]
  rw [p4]
  simp only [Option.bind_some, Option.bind_eq_bind]
  rw [p5]
  simp only [Option.bind_some, Option.bind_eq_bind]
  rw [p6]
  rcases info with _ | info <;> simp

theorem Relation.pre (m : Relation) : ∀ f ∈ m.fields, f.Pre := by
  intro f hf
  simp only [Relation.fields, List.mem_append] at hf
  rcases hf with ((((((hf | hf) | hf) | hf) | hf) | hf) | hf)
  · simp at hf; subst hf; exact ⟨by norm_num, by norm_num, ofInt64_lt _⟩
  · exact pre_packF _ (by norm_num) (by norm_num) f hf
  · exact pre_packF _ (by norm_num) (by norm_num) f hf
  · exact pre_optF _ (fun _ => ⟨by norm_num, by norm_num, trivial⟩) f hf
  · exact pre_packF _ (by norm_num) (by norm_num) f hf
  · exact pre_packF _ (by norm_num) (by norm_num) f hf
  · exact pre_packF _ (by norm_num) (by norm_num) f hf

theorem Relation.merge_encode (m : Relation) (hl : m.encode.length < 2 ^ 64) :
    Relation.merge {} m.encode = some m := by
  unfold Relation.merge Relation.encode at *
  rw [parse_enc_of_pre m.pre hl]
  simp only [Option.bind_some, Relation.fields, List.foldlM_append]
  have hb3 : ∀ x ∈ m.info, (encFields (Info.fields x)).length < 2 ^ 64 := by
    intro x hx
    have h1 : (⟨4, .len (encFields (Info.fields x))⟩ : Field) ∈ m.fields := by
      have hx' : m.info = some x := hx
      simp [Relation.fields, optF, repF, hx']
    have h2 := encField_mem_le h1
    have h3 := encField_len_le 4 (encFields (Info.fields x))
    omega
  have p0 : ∀ a : Relation, [(⟨1, .varint (ofInt64 m.id)⟩ : Field)].foldlM Relation.step a =
      some { a with id := m.id } := fun a => by simp [Relation.step, getVarint, toInt64_of]
  have p1 : ∀ a : Relation, (packF 2 ofUInt32 m.keys).foldlM Relation.step a =
      some { a with keys := a.keys ++ m.keys } := fun a =>
    foldlM_packF Relation.step 2 ofUInt32 (fun a l => { a with keys := a.keys ++ l }) m.keys
      (fun a => by simp only [Relation.step, getRep_pack ofUInt32 toUInt32 ofUInt32_lt toUInt32_of]; rfl) (fun a => by simp) a
  have p2 : ∀ a : Relation, (packF 3 ofUInt32 m.vals).foldlM Relation.step a =
      some { a with vals := a.vals ++ m.vals } := fun a =>
    foldlM_packF Relation.step 3 ofUInt32 (fun a l => { a with vals := a.vals ++ l }) m.vals
      (fun a => by simp only [Relation.step, getRep_pack ofUInt32 toUInt32 ofUInt32_lt toUInt32_of]; rfl) (fun a => by simp) a
  have p3 : ∀ a : Relation, a.info = none → (optF 4 (fun x => Val.len (encFields (Info.fields x))) m.info).foldlM Relation.step a =
      some (m.info.elim a fun x => { a with info := some x }) := by
    intro a ha
    cases hm : m.info with
    | none => rfl
    | some x =>
      have := Info.merge_encode x (hb3 x hm)
      simp only [Info.encode] at this
      simp [optF, Relation.step, getBytes, ha, this]
  have p4 : ∀ a : Relation, (packF 8 ofInt32 m.roles_sid).foldlM Relation.step a =
      some { a with roles_sid := a.roles_sid ++ m.roles_sid } := fun a =>
    foldlM_packF Relation.step 8 ofInt32 (fun a l => { a with roles_sid := a.roles_sid ++ l }) m.roles_sid
      (fun a => by simp only [Relation.step, getRep_pack ofInt32 toInt32 ofInt32_lt toInt32_of]; rfl) (fun a => by simp) a
  have p5 : ∀ a : Relation, (packF 9 ofSInt64 m.memids).foldlM Relation.step a =
      some { a with memids := a.memids ++ m.memids } := fun a =>
    foldlM_packF Relation.step 9 ofSInt64 (fun a l => { a with memids := a.memids ++ l }) m.memids
      (fun a => by simp only [Relation.step, getRep_pack ofSInt64 toSInt64 ofSInt64_lt toSInt64_of]; rfl) (fun a => by simp) a
  have p6 : ∀ a : Relation, (packF 10 ofInt32 m.types).foldlM Relation.step a =
      some { a with types := a.types ++ m.types } := fun a =>
    foldlM_packF Relation.step 10 ofInt32 (fun a l => { a with types := a.types ++ l }) m.types
      (fun a => by simp only [Relation.step, getRep_pack ofInt32 toInt32 ofInt32_lt toInt32_of]; rfl) (fun a => by simp) a
  clear hl
  clear hb3
  obtain ⟨id, keys, vals, info, roles_sid, memids, types⟩ := m
  simp only at *
  rw [p0]
  simp only [Option.bind_some, Option.bind_eq_bind]
  rw [p1]
  simp only [Option.bind_some, Option.bind_eq_bind]
  rw [p2]
  simp only [Option.bind_some, Option.bind_eq_bind]
  rw [p3 _ (by first | rfl | simp)]
  simp only [Option.bind_some, Option.bind_eq_bind]
  rw [p4]
  simp only [Option.bind_some, Option.bind_eq_bind]
  rw [p5]
  simp only [Option.bind_some, Option.bind_eq_bind]
  rw [p6]
  rcases info with _ | info <;> simp

theorem PrimitiveGroup.pre (m : PrimitiveGroup) : ∀ f ∈ m.fields, f.Pre := by
  intro f hf
  simp only [PrimitiveGroup.fields, List.mem_append] at hf
  rcases hf with ((((hf | hf) | hf) | hf) | hf)
  · exact pre_repF _ (fun _ => ⟨by norm_num, by norm_num, trivial⟩) f hf
  · exact pre_optF _ (fun _ => ⟨by norm_num, by norm_num, trivial⟩) f hf
  · exact pre_repF _ (fun _ => ⟨by norm_num, by norm_num, trivial⟩) f hf
  · exact pre_repF _ (fun _ => ⟨by norm_num, by norm_num, trivial⟩) f hf
  · exact pre_repF _ (fun _ => ⟨by norm_num, by norm_num, trivial⟩) f hf

theorem PrimitiveGroup.merge_encode (m : PrimitiveGroup) (hl : m.encode.length < 2 ^ 64) :
    PrimitiveGroup.merge {} m.encode = some m := by
  unfold PrimitiveGroup.merge PrimitiveGroup.encode at *
  rw [parse_enc_of_pre m.pre hl]
  simp only [Option.bind_some, PrimitiveGroup.fields, List.foldlM_append]
  have hb0 : ∀ x ∈ m.nodes, (encFields (Node.fields x)).length < 2 ^ 64 := by
    intro x hx
    have h1 : (⟨1, .len (encFields (Node.fields x))⟩ : Field) ∈ m.fields := by
      unfold PrimitiveGroup.fields
      simp only [List.mem_append, repF, List.mem_map]
      have key : ∃ a ∈ m.nodes, encFields a.fields = encFields x.fields := ⟨x, hx, rfl⟩
      simp [key]
    have h2 := encField_mem_le h1
    have h3 := encField_len_le 1 (encFields (Node.fields x))
    omega
  have hb1 : ∀ x ∈ m.dense, (encFields (DenseNodes.fields x)).length < 2 ^ 64 := by
    intro x hx
    have h1 : (⟨2, .len (encFields (DenseNodes.fields x))⟩ : Field) ∈ m.fields := by
      have hx' : m.dense = some x := hx
      simp [PrimitiveGroup.fields, optF, repF, hx']
    have h2 := encField_mem_le h1
    have h3 := encField_len_le 2 (encFields (DenseNodes.fields x))
    omega
  have hb2 : ∀ x ∈ m.ways, (encFields (Way.fields x)).length < 2 ^ 64 := by
    intro x hx
    have h1 : (⟨3, .len (encFields (Way.fields x))⟩ : Field) ∈ m.fields := by
      unfold PrimitiveGroup.fields
      simp only [List.mem_append, repF, List.mem_map]
      have key : ∃ a ∈ m.ways, encFields a.fields = encFields x.fields := ⟨x, hx, rfl⟩
      simp [key]
    have h2 := encField_mem_le h1
    have h3 := encField_len_le 3 (encFields (Way.fields x))
    omega
  have hb3 : ∀ x ∈ m.relations, (encFields (Relation.fields x)).length < 2 ^ 64 := by
    intro x hx
    have h1 : (⟨4, .len (encFields (Relation.fields x))⟩ : Field) ∈ m.fields := by
      unfold PrimitiveGroup.fields
      simp only [List.mem_append, repF, List.mem_map]
      have key : ∃ a ∈ m.relations, encFields a.fields = encFields x.fields := ⟨x, hx, rfl⟩
      simp [key]
    have h2 := encField_mem_le h1
    have h3 := encField_len_le 4 (encFields (Relation.fields x))
    omega
  have hb4 : ∀ x ∈ m.changesets, (encFields (ChangeSet.fields x)).length < 2 ^ 64 := by
    intro x hx
    have h1 : (⟨5, .len (encFields (ChangeSet.fields x))⟩ : Field) ∈ m.fields := by
      unfold PrimitiveGroup.fields
      simp only [List.mem_append, repF, List.mem_map]
      have key : ∃ a ∈ m.changesets, encFields a.fields = encFields x.fields := ⟨x, hx, rfl⟩
      simp [key]
    have h2 := encField_mem_le h1
    have h3 := encField_len_le 5 (encFields (ChangeSet.fields x))
    omega
  have p0 : ∀ a : PrimitiveGroup, (repF 1 (fun x => Val.len (encFields (Node.fields x))) m.nodes).foldlM PrimitiveGroup.step a =
      some { a with nodes := a.nodes ++ m.nodes } := fun a =>
    foldlM_repF PrimitiveGroup.step 1 _ (fun a l => { a with nodes := a.nodes ++ l }) m.nodes
      (fun a x hx => by have := Node.merge_encode x (hb0 x hx); simp only [Node.encode] at this; simp [PrimitiveGroup.step, getBytes, this]) (fun a => by simp) (fun a b c => by simp) a
  have p1 : ∀ a : PrimitiveGroup, a.dense = none → (optF 2 (fun x => Val.len (encFields (DenseNodes.fields x))) m.dense).foldlM PrimitiveGroup.step a =
      some (m.dense.elim a fun x => { a with dense := some x }) := by
    intro a ha
    cases hm : m.dense with
    | none => rfl
    | some x =>
      have := DenseNodes.merge_encode x (hb1 x hm)
      simp only [DenseNodes.encode] at this
      simp [optF, PrimitiveGroup.step, getBytes, ha, this]
  have p2 : ∀ a : PrimitiveGroup, (repF 3 (fun x => Val.len (encFields (Way.fields x))) m.ways).foldlM PrimitiveGroup.step a =
      some { a with ways := a.ways ++ m.ways } := fun a =>
    foldlM_repF PrimitiveGroup.step 3 _ (fun a l => { a with ways := a.ways ++ l }) m.ways
      (fun a x hx => by have := Way.merge_encode x (hb2 x hx); simp only [Way.encode] at this; simp [PrimitiveGroup.step, getBytes, this]) (fun a => by simp) (fun a b c => by simp) a
  have p3 : ∀ a : PrimitiveGroup, (repF 4 (fun x => Val.len (encFields (Relation.fields x))) m.relations).foldlM PrimitiveGroup.step a =
      some { a with relations := a.relations ++ m.relations } := fun a =>
    foldlM_repF PrimitiveGroup.step 4 _ (fun a l => { a with relations := a.relations ++ l }) m.relations
      (fun a x hx => by have := Relation.merge_encode x (hb3 x hx); simp only [Relation.encode] at this; simp [PrimitiveGroup.step, getBytes, this]) (fun a => by simp) (fun a b c => by simp) a
  have p4 : ∀ a : PrimitiveGroup, (repF 5 (fun x => Val.len (encFields (ChangeSet.fields x))) m.changesets).foldlM PrimitiveGroup.step a =
      some { a with changesets := a.changesets ++ m.changesets } := fun a =>
    foldlM_repF PrimitiveGroup.step 5 _ (fun a l => { a with changesets := a.changesets ++ l }) m.changesets
      (fun a x hx => by have := ChangeSet.merge_encode x (hb4 x hx); simp only [ChangeSet.encode] at this; simp [PrimitiveGroup.step, getBytes, this]) (fun a => by simp) (fun a b c => by simp) a
  clear hl
  clear hb0
  clear hb1
  clear hb2
  clear hb3
  clear hb4
  obtain ⟨nodes, dense, ways, relations, changesets⟩ := m
  simp only at *
  rw [p0]
  simp only [Option.bind_some, Option.bind_eq_bind]
  rw [p1 _ (by first | rfl | simp)]
  simp only [Option.bind_some, Option.bind_eq_bind]
  rw [p2]
  simp only [Option.bind_some, Option.bind_eq_bind]
  rw [p3]
  simp only [Option.bind_some, Option.bind_eq_bind]
  rw [p4]
  rcases dense with _ | dense <;> simp

theorem PrimitiveBlock.pre (m : PrimitiveBlock) : ∀ f ∈ m.fields, f.Pre := by
  intro f hf
  simp only [PrimitiveBlock.fields, List.mem_append] at hf
  rcases hf with (((((hf | hf) | hf) | hf) | hf) | hf)
  · simp at hf; subst hf; exact ⟨by norm_num, by norm_num, trivial⟩
  · exact pre_repF _ (fun _ => ⟨by norm_num, by norm_num, trivial⟩) f hf
  · exact pre_optF _ (fun _ => ⟨by norm_num, by norm_num, ofInt32_lt _⟩) f hf
  · exact pre_optF _ (fun _ => ⟨by norm_num, by norm_num, ofInt32_lt _⟩) f hf
  · exact pre_optF _ (fun _ => ⟨by norm_num, by norm_num, ofInt64_lt _⟩) f hf
  · exact pre_optF _ (fun _ => ⟨by norm_num, by norm_num, ofInt64_lt _⟩) f hf

theorem PrimitiveBlock.merge_encode (m : PrimitiveBlock) (hl : m.encode.length < 2 ^ 64) :
    PrimitiveBlock.merge {} m.encode = some m := by
  unfold PrimitiveBlock.merge PrimitiveBlock.encode at *
  rw [parse_enc_of_pre m.pre hl]
  simp only [Option.bind_some, PrimitiveBlock.fields, List.foldlM_append]
  have hb0 : (encFields (m.stringtable.fields)).length < 2 ^ 64 := by
    have h1 : (⟨1, .len (encFields (m.stringtable.fields))⟩ : Field) ∈ m.fields := by simp [PrimitiveBlock.fields, optF, repF]
    have h2 := encField_mem_le h1
    have h3 := encField_len_le 1 (encFields (m.stringtable.fields))
    omega
  have hb1 : ∀ x ∈ m.primitivegroup, (encFields (PrimitiveGroup.fields x)).length < 2 ^ 64 := by
    intro x hx
    have h1 : (⟨2, .len (encFields (PrimitiveGroup.fields x))⟩ : Field) ∈ m.fields := by
      unfold PrimitiveBlock.fields
      simp only [List.mem_append, repF, List.mem_map]
      have key : ∃ a ∈ m.primitivegroup, encFields a.fields = encFields x.fields := ⟨x, hx, rfl⟩
      simp [key]
    have h2 := encField_mem_le h1
    have h3 := encField_len_le 2 (encFields (PrimitiveGroup.fields x))
    omega
  have p0 : ∀ a : PrimitiveBlock, a.stringtable = {} → [(⟨1, .len (encFields (StringTable.fields m.stringtable))⟩ : Field)].foldlM PrimitiveBlock.step a =
      some { a with stringtable := m.stringtable } := by
    intro a ha
    have := StringTable.merge_encode m.stringtable hb0
    simp only [StringTable.encode] at this
    simp [PrimitiveBlock.step, getBytes, ha, this]
  have p1 : ∀ a : PrimitiveBlock, (repF 2 (fun x => Val.len (encFields (PrimitiveGroup.fields x))) m.primitivegroup).foldlM PrimitiveBlock.step a =
      some { a with primitivegroup := a.primitivegroup ++ m.primitivegroup } := fun a =>
    foldlM_repF PrimitiveBlock.step 2 _ (fun a l => { a with primitivegroup := a.primitivegroup ++ l }) m.primitivegroup
      (fun a x hx => by have := PrimitiveGroup.merge_encode x (hb1 x hx); simp only [PrimitiveGroup.encode] at this; simp [PrimitiveBlock.step, getBytes, this]) (fun a => by simp) (fun a b c => by simp) a
  have p2 : ∀ a : PrimitiveBlock, (optF 17 (fun x => Val.varint (ofInt32 x)) m.granularity).foldlM PrimitiveBlock.step a =
      some (m.granularity.elim a fun x => { a with granularity := some x }) := fun a =>
    foldlM_optF PrimitiveBlock.step 17 _ (fun a x => { a with granularity := some x }) m.granularity
      (fun a x _ => by simp [PrimitiveBlock.step, getVarint, toInt32_of]) a
  have p3 : ∀ a : PrimitiveBlock, (optF 18 (fun x => Val.varint (ofInt32 x)) m.date_granularity).foldlM PrimitiveBlock.step a =
      some (m.date_granularity.elim a fun x => { a with date_granularity := some x }) := fun a =>
    foldlM_optF PrimitiveBlock.step 18 _ (fun a x => { a with date_granularity := some x }) m.date_granularity
      (fun a x _ => by simp [PrimitiveBlock.step, getVarint, toInt32_of]) a
  have p4 : ∀ a : PrimitiveBlock, (optF 19 (fun x => Val.varint (ofInt64 x)) m.lat_offset).foldlM PrimitiveBlock.step a =
      some (m.lat_offset.elim a fun x => { a with lat_offset := some x }) := fun a =>
    foldlM_optF PrimitiveBlock.step 19 _ (fun a x => { a with lat_offset := some x }) m.lat_offset
      (fun a x _ => by simp [PrimitiveBlock.step, getVarint, toInt64_of]) a
  have p5 : ∀ a : PrimitiveBlock, (optF 20 (fun x => Val.varint (ofInt64 x)) m.lon_offset).foldlM PrimitiveBlock.step a =
      some (m.lon_offset.elim a fun x => { a with lon_offset := some x }) := fun a =>
    foldlM_optF PrimitiveBlock.step 20 _ (fun a x => { a with lon_offset := some x }) m.lon_offset
      (fun a x _ => by simp [PrimitiveBlock.step, getVarint, toInt64_of]) a
  clear hl
  clear hb0
  clear hb1
  obtain ⟨stringtable, primitivegroup, granularity, date_granularity, lat_offset, lon_offset⟩ := m
  simp only at *
  rw [p0 _ (by rfl)]
  simp only [Option.bind_some, Option.bind_eq_bind]
  rw [p1]
  simp only [Option.bind_some, Option.bind_eq_bind]
  rw [p2]
  simp only [Option.bind_some, Option.bind_eq_bind]
  rw [p3]
  simp only [Option.bind_some, Option.bind_eq_bind]
  rw [p4]
  simp only [Option.bind_some, Option.bind_eq_bind]
  rw [p5]
  rcases granularity with _ | granularity <;> rcases date_granularity with _ | date_granularity <;> rcases lat_offset with _ | lat_offset <;> rcases lon_offset with _ | lon_offset <;> simp

theorem Blob.pre (m : Blob) : ∀ f ∈ m.fields, f.Pre := by
  intro f hf
  simp only [Blob.fields, List.mem_append] at hf
  rcases hf with hf | hf
  · rcases hd : m.data with _ | d
    · simp [hd] at hf
    · rw [hd] at hf
      cases d <;> simp [BlobData.field] at hf <;> subst hf <;> exact ⟨by norm_num, by norm_num, trivial⟩
  · exact pre_optF _ (fun _ => ⟨by norm_num, by norm_num, ofInt32_lt _⟩) f hf

theorem Blob.decode_encode (m : Blob) (hl : m.encode.length < 2 ^ 64) : Blob.decode m.encode = some m := by
  unfold Blob.decode Blob.encode at *
  rw [parse_enc_of_pre m.pre hl]
  obtain ⟨rs, d⟩ := m
  rcases rs with _ | rs <;> rcases d with _ | d <;> try cases d
  all_goals simp [Blob.fields, BlobData.field, optF, Blob.step, getBytes, getVarint, toInt32_of]

end OsmIo.Pb
