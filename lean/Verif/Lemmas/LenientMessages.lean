import Verif.Lemmas.LenientRules
/-! # Each message is read exactly by its rules -/
set_option linter.unusedSimpArgs false
namespace OsmIo
open Wire
open Spec.Lenient (Entry FieldList)

theorem BlobHeader.fold_iff (raw : List Field) (m : Pb.BlobHeader) : raw.foldlM Pb.BlobHeader.step {} = some m ↔ Spec.Lenient.BlobHeader (raw.map entryOf) m := by
  rw [foldlM_by_tags BlobHeader.commutes [1, 2, 3] (by decide) raw (fun _ _ => trivial) (by
    intro f _ hf m
    obtain ⟨t, v⟩ := f
    simp only [Pb.BlobHeader.step]
    split <;> first | rfl | exact absurd (by simp) hf) {}]
  simp only [List.flatMap_cons, List.flatMap_nil, List.append_nil, List.foldlM_append]
  simp only [seg_lens (step := Pb.BlobHeader.step) 1 (fun _ v => getStr v) (fun m : Pb.BlobHeader => m.type) (fun x m => { m with type := x })
    (fun m v => by cases v <;> simp [Pb.BlobHeader.step, Pb.BlobHeader.merge, getVarint, getBytes, getStr, getRep, Function.comp_def, Option.map_bind]) (fun _ _ => rfl) (fun _ _ _ => rfl) (fun _ => rfl) raw]
  simp only [seg_lens (step := Pb.BlobHeader.step) 2 (fun _ v => (getBytes v).map some) (fun m : Pb.BlobHeader => m.indexdata) (fun x m => { m with indexdata := x })
    (fun m v => by cases v <;> simp [Pb.BlobHeader.step, Pb.BlobHeader.merge, getVarint, getBytes, getStr, getRep, Function.comp_def, Option.map_bind]) (fun _ _ => rfl) (fun _ _ _ => rfl) (fun _ => rfl) raw]
  simp only [seg_lens (step := Pb.BlobHeader.step) 3 (fun _ v => getVarint Wire.toInt32 v) (fun m : Pb.BlobHeader => m.datasize) (fun x m => { m with datasize := x })
    (fun m v => by cases v <;> simp [Pb.BlobHeader.step, Pb.BlobHeader.merge, getVarint, getBytes, getStr, getRep, Function.comp_def, Option.map_bind]) (fun _ _ => rfl) (fun _ _ _ => rfl) (fun _ => rfl) raw]
  simp only [Option.bind_eq_bind, Option.bind_eq_some_iff, Option.map_eq_some_iff, exists_exists_and_eq_and]
  simp only [rule_text 1 raw]
  simp only [rule_string1 2 raw]
  simp only [rule_required 3 raw (ty := Spec.Lenient.int32) toInt32_lenient]
  obtain ⟨c0, c1, c2⟩ := m
  constructor
  · rintro ⟨x0, h0, x1, h1, x2, h2, h⟩
    injection h with e0 e1 e2
    subst e0 e1 e2
    exact ⟨h0, h1, h2⟩
  · rintro ⟨h0, h1, h2⟩
    exact ⟨_, h0, _, h1, _, h2, rfl⟩

theorem BlobHeader.decode_iff (b : Bytes) (m : Pb.BlobHeader) : Pb.BlobHeader.decode b = some m ↔ Spec.Lenient.Message 99 Spec.Lenient.BlobHeader b m :=
  message_iff (depth := 99) BlobHeader.fold_iff b m

theorem HeaderBBox.fold_iff (raw : List Field) (m : Pb.HeaderBBox) : raw.foldlM Pb.HeaderBBox.step {} = some m ↔ Spec.Lenient.HeaderBBox (raw.map entryOf) m := by
  rw [foldlM_by_tags HeaderBBox.commutes [1, 2, 3, 4] (by decide) raw (fun _ _ => trivial) (by
    intro f _ hf m
    obtain ⟨t, v⟩ := f
    simp only [Pb.HeaderBBox.step]
    split <;> first | rfl | exact absurd (by simp) hf) {}]
  simp only [List.flatMap_cons, List.flatMap_nil, List.append_nil, List.foldlM_append]
  simp only [seg_lens (step := Pb.HeaderBBox.step) 1 (fun _ v => getVarint Wire.toSInt64 v) (fun m : Pb.HeaderBBox => m.left) (fun x m => { m with left := x })
    (fun m v => by cases v <;> simp [Pb.HeaderBBox.step, Pb.HeaderBBox.merge, getVarint, getBytes, getStr, getRep, Function.comp_def, Option.map_bind]) (fun _ _ => rfl) (fun _ _ _ => rfl) (fun _ => rfl) raw]
  simp only [seg_lens (step := Pb.HeaderBBox.step) 2 (fun _ v => getVarint Wire.toSInt64 v) (fun m : Pb.HeaderBBox => m.right) (fun x m => { m with right := x })
    (fun m v => by cases v <;> simp [Pb.HeaderBBox.step, Pb.HeaderBBox.merge, getVarint, getBytes, getStr, getRep, Function.comp_def, Option.map_bind]) (fun _ _ => rfl) (fun _ _ _ => rfl) (fun _ => rfl) raw]
  simp only [seg_lens (step := Pb.HeaderBBox.step) 3 (fun _ v => getVarint Wire.toSInt64 v) (fun m : Pb.HeaderBBox => m.top) (fun x m => { m with top := x })
    (fun m v => by cases v <;> simp [Pb.HeaderBBox.step, Pb.HeaderBBox.merge, getVarint, getBytes, getStr, getRep, Function.comp_def, Option.map_bind]) (fun _ _ => rfl) (fun _ _ _ => rfl) (fun _ => rfl) raw]
  simp only [seg_lens (step := Pb.HeaderBBox.step) 4 (fun _ v => getVarint Wire.toSInt64 v) (fun m : Pb.HeaderBBox => m.bottom) (fun x m => { m with bottom := x })
    (fun m v => by cases v <;> simp [Pb.HeaderBBox.step, Pb.HeaderBBox.merge, getVarint, getBytes, getStr, getRep, Function.comp_def, Option.map_bind]) (fun _ _ => rfl) (fun _ _ _ => rfl) (fun _ => rfl) raw]
  simp only [Option.bind_eq_bind, Option.bind_eq_some_iff, Option.map_eq_some_iff, exists_exists_and_eq_and]
  simp only [rule_required 1 raw (ty := Spec.Lenient.sint64) toSInt64_lenient]
  simp only [rule_required 2 raw (ty := Spec.Lenient.sint64) toSInt64_lenient]
  simp only [rule_required 3 raw (ty := Spec.Lenient.sint64) toSInt64_lenient]
  simp only [rule_required 4 raw (ty := Spec.Lenient.sint64) toSInt64_lenient]
  obtain ⟨c0, c1, c2, c3⟩ := m
  constructor
  · rintro ⟨x0, h0, x1, h1, x2, h2, x3, h3, h⟩
    injection h with e0 e1 e2 e3
    subst e0 e1 e2 e3
    exact ⟨h0, h1, h2, h3⟩
  · rintro ⟨h0, h1, h2, h3⟩
    exact ⟨_, h0, _, h1, _, h2, _, h3, rfl⟩

theorem HeaderBBox.decode_iff (b : Bytes) (m : Pb.HeaderBBox) : Pb.HeaderBBox.decode b = some m ↔ Spec.Lenient.Message 98 Spec.Lenient.HeaderBBox b m :=
  message_iff (depth := 98) HeaderBBox.fold_iff b m

theorem HeaderBlock.fold_iff (raw : List Field) (m : Pb.HeaderBlock) : raw.foldlM Pb.HeaderBlock.step {} = some m ↔ Spec.Lenient.HeaderBlock (raw.map entryOf) m := by
  rw [foldlM_by_tags HeaderBlock.commutes [1, 4, 5, 16, 17, 32, 33, 34] (by decide) raw (fun _ _ => trivial) (by
    intro f _ hf m
    obtain ⟨t, v⟩ := f
    simp only [Pb.HeaderBlock.step]
    split <;> first | rfl | exact absurd (by simp) hf) {}]
  simp only [List.flatMap_cons, List.flatMap_nil, List.append_nil, List.foldlM_append]
  simp only [seg_lens (step := Pb.HeaderBlock.step) 1 (fun o v => ((getBytes v).bind fun b => (parse 99 b).bind fun fs => fs.foldlM Pb.HeaderBBox.step (o.getD {})).map some) (fun m : Pb.HeaderBlock => m.bbox) (fun x m => { m with bbox := x })
    (fun m v => by cases v <;> simp [Pb.HeaderBlock.step, Pb.HeaderBBox.merge, getVarint, getBytes, getStr, getRep, Function.comp_def, Option.map_bind]) (fun _ _ => rfl) (fun _ _ _ => rfl) (fun _ => rfl) raw]
  simp only [seg_lens (step := Pb.HeaderBlock.step) 4 (fun a v => (getStr v).map fun b => a ++ [b]) (fun m : Pb.HeaderBlock => m.required_features) (fun x m => { m with required_features := x })
    (fun m v => by cases v <;> simp [Pb.HeaderBlock.step, Pb.HeaderBlock.merge, getVarint, getBytes, getStr, getRep, Function.comp_def, Option.map_bind]) (fun _ _ => rfl) (fun _ _ _ => rfl) (fun _ => rfl) raw]
  simp only [seg_lens (step := Pb.HeaderBlock.step) 5 (fun a v => (getStr v).map fun b => a ++ [b]) (fun m : Pb.HeaderBlock => m.optional_features) (fun x m => { m with optional_features := x })
    (fun m v => by cases v <;> simp [Pb.HeaderBlock.step, Pb.HeaderBlock.merge, getVarint, getBytes, getStr, getRep, Function.comp_def, Option.map_bind]) (fun _ _ => rfl) (fun _ _ _ => rfl) (fun _ => rfl) raw]
  simp only [seg_lens (step := Pb.HeaderBlock.step) 16 (fun _ v => (getStr v).map some) (fun m : Pb.HeaderBlock => m.writingprogram) (fun x m => { m with writingprogram := x })
    (fun m v => by cases v <;> simp [Pb.HeaderBlock.step, Pb.HeaderBlock.merge, getVarint, getBytes, getStr, getRep, Function.comp_def, Option.map_bind]) (fun _ _ => rfl) (fun _ _ _ => rfl) (fun _ => rfl) raw]
  simp only [seg_lens (step := Pb.HeaderBlock.step) 17 (fun _ v => (getStr v).map some) (fun m : Pb.HeaderBlock => m.source) (fun x m => { m with source := x })
    (fun m v => by cases v <;> simp [Pb.HeaderBlock.step, Pb.HeaderBlock.merge, getVarint, getBytes, getStr, getRep, Function.comp_def, Option.map_bind]) (fun _ _ => rfl) (fun _ _ _ => rfl) (fun _ => rfl) raw]
  simp only [seg_lens (step := Pb.HeaderBlock.step) 32 (fun _ v => (getVarint Wire.toInt64 v).map some) (fun m : Pb.HeaderBlock => m.osmosis_replication_timestamp) (fun x m => { m with osmosis_replication_timestamp := x })
    (fun m v => by cases v <;> simp [Pb.HeaderBlock.step, Pb.HeaderBlock.merge, getVarint, getBytes, getStr, getRep, Function.comp_def, Option.map_bind]) (fun _ _ => rfl) (fun _ _ _ => rfl) (fun _ => rfl) raw]
  simp only [seg_lens (step := Pb.HeaderBlock.step) 33 (fun _ v => (getVarint Wire.toInt64 v).map some) (fun m : Pb.HeaderBlock => m.osmosis_replication_sequence_number) (fun x m => { m with osmosis_replication_sequence_number := x })
    (fun m v => by cases v <;> simp [Pb.HeaderBlock.step, Pb.HeaderBlock.merge, getVarint, getBytes, getStr, getRep, Function.comp_def, Option.map_bind]) (fun _ _ => rfl) (fun _ _ _ => rfl) (fun _ => rfl) raw]
  simp only [seg_lens (step := Pb.HeaderBlock.step) 34 (fun _ v => (getStr v).map some) (fun m : Pb.HeaderBlock => m.osmosis_replication_base_url) (fun x m => { m with osmosis_replication_base_url := x })
    (fun m v => by cases v <;> simp [Pb.HeaderBlock.step, Pb.HeaderBlock.merge, getVarint, getBytes, getStr, getRep, Function.comp_def, Option.map_bind]) (fun _ _ => rfl) (fun _ _ _ => rfl) (fun _ => rfl) raw]
  simp only [Option.bind_eq_bind, Option.bind_eq_some_iff, Option.map_eq_some_iff, exists_exists_and_eq_and]
  simp only [rule_joined1 (depth := 98) 1 raw HeaderBBox.fold_iff]
  simp only [rule_texts 4 raw]
  simp only [rule_texts 5 raw]
  simp only [rule_text1 16 raw]
  simp only [rule_text1 17 raw]
  simp only [rule_number 32 raw (ty := Spec.Lenient.int64) toInt64_lenient]
  simp only [rule_number 33 raw (ty := Spec.Lenient.int64) toInt64_lenient]
  simp only [rule_text1 34 raw]
  obtain ⟨c0, c1, c2, c3, c4, c5, c6, c7⟩ := m
  constructor
  · rintro ⟨x0, h0, x1, h1, x2, h2, x3, h3, x4, h4, x5, h5, x6, h6, x7, h7, h⟩
    injection h with e0 e1 e2 e3 e4 e5 e6 e7
    subst e0 e1 e2 e3 e4 e5 e6 e7
    exact ⟨h0, h1, h2, h3, h4, h5, h6, h7⟩
  · rintro ⟨h0, h1, h2, h3, h4, h5, h6, h7⟩
    exact ⟨_, h0, _, h1, _, h2, _, h3, _, h4, _, h5, _, h6, _, h7, rfl⟩

theorem HeaderBlock.decode_iff (b : Bytes) (m : Pb.HeaderBlock) : Pb.HeaderBlock.decode b = some m ↔ Spec.Lenient.Message 99 Spec.Lenient.HeaderBlock b m :=
  message_iff (depth := 99) HeaderBlock.fold_iff b m

theorem StringTable.fold_iff (raw : List Field) (m : Pb.StringTable) : raw.foldlM Pb.StringTable.step {} = some m ↔ Spec.Lenient.StringTable (raw.map entryOf) m := by
  rw [foldlM_by_tags StringTable.commutes [1] (by decide) raw (fun _ _ => trivial) (by
    intro f _ hf m
    obtain ⟨t, v⟩ := f
    simp only [Pb.StringTable.step]
    split <;> first | rfl | exact absurd (by simp) hf) {}]
  simp only [List.flatMap_cons, List.flatMap_nil, List.append_nil, List.foldlM_append]
  simp only [seg_lens (step := Pb.StringTable.step) 1 (fun a v => (getBytes v).map fun b => a ++ [b]) (fun m : Pb.StringTable => m.s) (fun x m => { m with s := x })
    (fun m v => by cases v <;> simp [Pb.StringTable.step, Pb.StringTable.merge, getVarint, getBytes, getStr, getRep, Function.comp_def, Option.map_bind]) (fun _ _ => rfl) (fun _ _ _ => rfl) (fun _ => rfl) raw]
  simp only [Option.bind_eq_bind, Option.bind_eq_some_iff, Option.map_eq_some_iff, exists_exists_and_eq_and]
  simp only [rule_strings 1 raw]
  obtain ⟨c0⟩ := m
  constructor
  · rintro ⟨x0, h0, h⟩
    injection h with e0
    subst e0
    exact h0
  · intro h0
    exact ⟨_, h0, rfl⟩

theorem StringTable.decode_iff (b : Bytes) (m : Pb.StringTable) : Pb.StringTable.decode b = some m ↔ Spec.Lenient.Message 98 Spec.Lenient.StringTable b m :=
  message_iff (depth := 98) StringTable.fold_iff b m

theorem Info.fold_iff (raw : List Field) (m : Pb.Info) : raw.foldlM Pb.Info.step {} = some m ↔ Spec.Lenient.Info (raw.map entryOf) m := by
  rw [foldlM_by_tags Info.commutes [1, 2, 3, 4, 5, 6] (by decide) raw (fun _ _ => trivial) (by
    intro f _ hf m
    obtain ⟨t, v⟩ := f
    simp only [Pb.Info.step]
    split <;> first | rfl | exact absurd (by simp) hf) {}]
  simp only [List.flatMap_cons, List.flatMap_nil, List.append_nil, List.foldlM_append]
  simp only [seg_lens (step := Pb.Info.step) 1 (fun _ v => (getVarint Wire.toInt32 v).map some) (fun m : Pb.Info => m.version) (fun x m => { m with version := x })
    (fun m v => by cases v <;> simp [Pb.Info.step, Pb.Info.merge, getVarint, getBytes, getStr, getRep, Function.comp_def, Option.map_bind]) (fun _ _ => rfl) (fun _ _ _ => rfl) (fun _ => rfl) raw]
  simp only [seg_lens (step := Pb.Info.step) 2 (fun _ v => (getVarint Wire.toInt64 v).map some) (fun m : Pb.Info => m.timestamp) (fun x m => { m with timestamp := x })
    (fun m v => by cases v <;> simp [Pb.Info.step, Pb.Info.merge, getVarint, getBytes, getStr, getRep, Function.comp_def, Option.map_bind]) (fun _ _ => rfl) (fun _ _ _ => rfl) (fun _ => rfl) raw]
  simp only [seg_lens (step := Pb.Info.step) 3 (fun _ v => (getVarint Wire.toInt64 v).map some) (fun m : Pb.Info => m.changeset) (fun x m => { m with changeset := x })
    (fun m v => by cases v <;> simp [Pb.Info.step, Pb.Info.merge, getVarint, getBytes, getStr, getRep, Function.comp_def, Option.map_bind]) (fun _ _ => rfl) (fun _ _ _ => rfl) (fun _ => rfl) raw]
  simp only [seg_lens (step := Pb.Info.step) 4 (fun _ v => (getVarint Wire.toInt32 v).map some) (fun m : Pb.Info => m.uid) (fun x m => { m with uid := x })
    (fun m v => by cases v <;> simp [Pb.Info.step, Pb.Info.merge, getVarint, getBytes, getStr, getRep, Function.comp_def, Option.map_bind]) (fun _ _ => rfl) (fun _ _ _ => rfl) (fun _ => rfl) raw]
  simp only [seg_lens (step := Pb.Info.step) 5 (fun _ v => (getVarint Wire.toUInt32 v).map some) (fun m : Pb.Info => m.user_sid) (fun x m => { m with user_sid := x })
    (fun m v => by cases v <;> simp [Pb.Info.step, Pb.Info.merge, getVarint, getBytes, getStr, getRep, Function.comp_def, Option.map_bind]) (fun _ _ => rfl) (fun _ _ _ => rfl) (fun _ => rfl) raw]
  simp only [seg_lens (step := Pb.Info.step) 6 (fun _ v => (getVarint Wire.toBool v).map some) (fun m : Pb.Info => m.visible) (fun x m => { m with visible := x })
    (fun m v => by cases v <;> simp [Pb.Info.step, Pb.Info.merge, getVarint, getBytes, getStr, getRep, Function.comp_def, Option.map_bind]) (fun _ _ => rfl) (fun _ _ _ => rfl) (fun _ => rfl) raw]
  simp only [Option.bind_eq_bind, Option.bind_eq_some_iff, Option.map_eq_some_iff, exists_exists_and_eq_and]
  simp only [rule_number 1 raw (ty := Spec.Lenient.int32) toInt32_lenient]
  simp only [rule_number 2 raw (ty := Spec.Lenient.int64) toInt64_lenient]
  simp only [rule_number 3 raw (ty := Spec.Lenient.int64) toInt64_lenient]
  simp only [rule_number 4 raw (ty := Spec.Lenient.int32) toInt32_lenient]
  simp only [rule_number 5 raw (ty := Spec.Lenient.uint32) toUInt32_lenient]
  simp only [rule_number 6 raw (ty := Spec.Lenient.bool) toBool_lenient]
  obtain ⟨c0, c1, c2, c3, c4, c5⟩ := m
  constructor
  · rintro ⟨x0, h0, x1, h1, x2, h2, x3, h3, x4, h4, x5, h5, h⟩
    injection h with e0 e1 e2 e3 e4 e5
    subst e0 e1 e2 e3 e4 e5
    exact ⟨h0, h1, h2, h3, h4, h5⟩
  · rintro ⟨h0, h1, h2, h3, h4, h5⟩
    exact ⟨_, h0, _, h1, _, h2, _, h3, _, h4, _, h5, rfl⟩

theorem Info.decode_iff (b : Bytes) (m : Pb.Info) : Pb.Info.decode b = some m ↔ Spec.Lenient.Message 96 Spec.Lenient.Info b m :=
  message_iff (depth := 96) Info.fold_iff b m

theorem DenseInfo.fold_iff (raw : List Field) (m : Pb.DenseInfo) : raw.foldlM Pb.DenseInfo.step {} = some m ↔ Spec.Lenient.DenseInfo (raw.map entryOf) m := by
  rw [foldlM_by_tags DenseInfo.commutes [1, 2, 3, 4, 5, 6] (by decide) raw (fun _ _ => trivial) (by
    intro f _ hf m
    obtain ⟨t, v⟩ := f
    simp only [Pb.DenseInfo.step]
    split <;> first | rfl | exact absurd (by simp) hf) {}]
  simp only [List.flatMap_cons, List.flatMap_nil, List.append_nil, List.foldlM_append]
  simp only [seg_lens (step := Pb.DenseInfo.step) 1 (fun a v => (getRep Wire.toInt32 v).map (a ++ ·)) (fun m : Pb.DenseInfo => m.version) (fun x m => { m with version := x })
    (fun m v => by cases v <;> simp [Pb.DenseInfo.step, Pb.DenseInfo.merge, getVarint, getBytes, getStr, getRep, Function.comp_def, Option.map_bind]) (fun _ _ => rfl) (fun _ _ _ => rfl) (fun _ => rfl) raw]
  simp only [seg_lens (step := Pb.DenseInfo.step) 2 (fun a v => (getRep Wire.toSInt64 v).map (a ++ ·)) (fun m : Pb.DenseInfo => m.timestamp) (fun x m => { m with timestamp := x })
    (fun m v => by cases v <;> simp [Pb.DenseInfo.step, Pb.DenseInfo.merge, getVarint, getBytes, getStr, getRep, Function.comp_def, Option.map_bind]) (fun _ _ => rfl) (fun _ _ _ => rfl) (fun _ => rfl) raw]
  simp only [seg_lens (step := Pb.DenseInfo.step) 3 (fun a v => (getRep Wire.toSInt64 v).map (a ++ ·)) (fun m : Pb.DenseInfo => m.changeset) (fun x m => { m with changeset := x })
    (fun m v => by cases v <;> simp [Pb.DenseInfo.step, Pb.DenseInfo.merge, getVarint, getBytes, getStr, getRep, Function.comp_def, Option.map_bind]) (fun _ _ => rfl) (fun _ _ _ => rfl) (fun _ => rfl) raw]
  simp only [seg_lens (step := Pb.DenseInfo.step) 4 (fun a v => (getRep Wire.toSInt32 v).map (a ++ ·)) (fun m : Pb.DenseInfo => m.uid) (fun x m => { m with uid := x })
    (fun m v => by cases v <;> simp [Pb.DenseInfo.step, Pb.DenseInfo.merge, getVarint, getBytes, getStr, getRep, Function.comp_def, Option.map_bind]) (fun _ _ => rfl) (fun _ _ _ => rfl) (fun _ => rfl) raw]
  simp only [seg_lens (step := Pb.DenseInfo.step) 5 (fun a v => (getRep Wire.toSInt32 v).map (a ++ ·)) (fun m : Pb.DenseInfo => m.user_sid) (fun x m => { m with user_sid := x })
    (fun m v => by cases v <;> simp [Pb.DenseInfo.step, Pb.DenseInfo.merge, getVarint, getBytes, getStr, getRep, Function.comp_def, Option.map_bind]) (fun _ _ => rfl) (fun _ _ _ => rfl) (fun _ => rfl) raw]
  simp only [seg_lens (step := Pb.DenseInfo.step) 6 (fun a v => (getRep Wire.toBool v).map (a ++ ·)) (fun m : Pb.DenseInfo => m.visible) (fun x m => { m with visible := x })
    (fun m v => by cases v <;> simp [Pb.DenseInfo.step, Pb.DenseInfo.merge, getVarint, getBytes, getStr, getRep, Function.comp_def, Option.map_bind]) (fun _ _ => rfl) (fun _ _ _ => rfl) (fun _ => rfl) raw]
  simp only [Option.bind_eq_bind, Option.bind_eq_some_iff, Option.map_eq_some_iff, exists_exists_and_eq_and]
  simp only [rule_numbers 1 raw (ty := Spec.Lenient.int32) toInt32_lenient]
  simp only [rule_numbers 2 raw (ty := Spec.Lenient.sint64) toSInt64_lenient]
  simp only [rule_numbers 3 raw (ty := Spec.Lenient.sint64) toSInt64_lenient]
  simp only [rule_numbers 4 raw (ty := Spec.Lenient.sint32) toSInt32_lenient]
  simp only [rule_numbers 5 raw (ty := Spec.Lenient.sint32) toSInt32_lenient]
  simp only [rule_numbers 6 raw (ty := Spec.Lenient.bool) toBool_lenient]
  obtain ⟨c0, c1, c2, c3, c4, c5⟩ := m
  constructor
  · rintro ⟨x0, h0, x1, h1, x2, h2, x3, h3, x4, h4, x5, h5, h⟩
    injection h with e0 e1 e2 e3 e4 e5
    subst e0 e1 e2 e3 e4 e5
    exact ⟨h0, h1, h2, h3, h4, h5⟩
  · rintro ⟨h0, h1, h2, h3, h4, h5⟩
    exact ⟨_, h0, _, h1, _, h2, _, h3, _, h4, _, h5, rfl⟩

theorem DenseInfo.decode_iff (b : Bytes) (m : Pb.DenseInfo) : Pb.DenseInfo.decode b = some m ↔ Spec.Lenient.Message 96 Spec.Lenient.DenseInfo b m :=
  message_iff (depth := 96) DenseInfo.fold_iff b m

theorem ChangeSet.fold_iff (raw : List Field) (m : Pb.ChangeSet) : raw.foldlM Pb.ChangeSet.step {} = some m ↔ Spec.Lenient.ChangeSet (raw.map entryOf) m := by
  rw [foldlM_by_tags ChangeSet.commutes [1] (by decide) raw (fun _ _ => trivial) (by
    intro f _ hf m
    obtain ⟨t, v⟩ := f
    simp only [Pb.ChangeSet.step]
    split <;> first | rfl | exact absurd (by simp) hf) {}]
  simp only [List.flatMap_cons, List.flatMap_nil, List.append_nil, List.foldlM_append]
  simp only [seg_lens (step := Pb.ChangeSet.step) 1 (fun _ v => getVarint Wire.toInt64 v) (fun m : Pb.ChangeSet => m.id) (fun x m => { m with id := x })
    (fun m v => by cases v <;> simp [Pb.ChangeSet.step, Pb.ChangeSet.merge, getVarint, getBytes, getStr, getRep, Function.comp_def, Option.map_bind]) (fun _ _ => rfl) (fun _ _ _ => rfl) (fun _ => rfl) raw]
  simp only [Option.bind_eq_bind, Option.bind_eq_some_iff, Option.map_eq_some_iff, exists_exists_and_eq_and]
  simp only [rule_required 1 raw (ty := Spec.Lenient.int64) toInt64_lenient]
  obtain ⟨c0⟩ := m
  constructor
  · rintro ⟨x0, h0, h⟩
    injection h with e0
    subst e0
    exact h0
  · intro h0
    exact ⟨_, h0, rfl⟩

theorem ChangeSet.decode_iff (b : Bytes) (m : Pb.ChangeSet) : Pb.ChangeSet.decode b = some m ↔ Spec.Lenient.Message 97 Spec.Lenient.ChangeSet b m :=
  message_iff (depth := 97) ChangeSet.fold_iff b m

theorem Node.fold_iff (raw : List Field) (m : Pb.Node) : raw.foldlM Pb.Node.step {} = some m ↔ Spec.Lenient.Node (raw.map entryOf) m := by
  rw [foldlM_by_tags Node.commutes [1, 2, 3, 4, 8, 9] (by decide) raw (fun _ _ => trivial) (by
    intro f _ hf m
    obtain ⟨t, v⟩ := f
    simp only [Pb.Node.step]
    split <;> first | rfl | exact absurd (by simp) hf) {}]
  simp only [List.flatMap_cons, List.flatMap_nil, List.append_nil, List.foldlM_append]
  simp only [seg_lens (step := Pb.Node.step) 1 (fun _ v => getVarint Wire.toSInt64 v) (fun m : Pb.Node => m.id) (fun x m => { m with id := x })
    (fun m v => by cases v <;> simp [Pb.Node.step, Pb.Node.merge, getVarint, getBytes, getStr, getRep, Function.comp_def, Option.map_bind]) (fun _ _ => rfl) (fun _ _ _ => rfl) (fun _ => rfl) raw]
  simp only [seg_lens (step := Pb.Node.step) 2 (fun a v => (getRep Wire.toUInt32 v).map (a ++ ·)) (fun m : Pb.Node => m.keys) (fun x m => { m with keys := x })
    (fun m v => by cases v <;> simp [Pb.Node.step, Pb.Node.merge, getVarint, getBytes, getStr, getRep, Function.comp_def, Option.map_bind]) (fun _ _ => rfl) (fun _ _ _ => rfl) (fun _ => rfl) raw]
  simp only [seg_lens (step := Pb.Node.step) 3 (fun a v => (getRep Wire.toUInt32 v).map (a ++ ·)) (fun m : Pb.Node => m.vals) (fun x m => { m with vals := x })
    (fun m v => by cases v <;> simp [Pb.Node.step, Pb.Node.merge, getVarint, getBytes, getStr, getRep, Function.comp_def, Option.map_bind]) (fun _ _ => rfl) (fun _ _ _ => rfl) (fun _ => rfl) raw]
  simp only [seg_lens (step := Pb.Node.step) 4 (fun o v => ((getBytes v).bind fun b => (parse 97 b).bind fun fs => fs.foldlM Pb.Info.step (o.getD {})).map some) (fun m : Pb.Node => m.info) (fun x m => { m with info := x })
    (fun m v => by cases v <;> simp [Pb.Node.step, Pb.Info.merge, getVarint, getBytes, getStr, getRep, Function.comp_def, Option.map_bind]) (fun _ _ => rfl) (fun _ _ _ => rfl) (fun _ => rfl) raw]
  simp only [seg_lens (step := Pb.Node.step) 8 (fun _ v => getVarint Wire.toSInt64 v) (fun m : Pb.Node => m.lat) (fun x m => { m with lat := x })
    (fun m v => by cases v <;> simp [Pb.Node.step, Pb.Node.merge, getVarint, getBytes, getStr, getRep, Function.comp_def, Option.map_bind]) (fun _ _ => rfl) (fun _ _ _ => rfl) (fun _ => rfl) raw]
  simp only [seg_lens (step := Pb.Node.step) 9 (fun _ v => getVarint Wire.toSInt64 v) (fun m : Pb.Node => m.lon) (fun x m => { m with lon := x })
    (fun m v => by cases v <;> simp [Pb.Node.step, Pb.Node.merge, getVarint, getBytes, getStr, getRep, Function.comp_def, Option.map_bind]) (fun _ _ => rfl) (fun _ _ _ => rfl) (fun _ => rfl) raw]
  simp only [Option.bind_eq_bind, Option.bind_eq_some_iff, Option.map_eq_some_iff, exists_exists_and_eq_and]
  simp only [rule_required 1 raw (ty := Spec.Lenient.sint64) toSInt64_lenient]
  simp only [rule_numbers 2 raw (ty := Spec.Lenient.uint32) toUInt32_lenient]
  simp only [rule_numbers 3 raw (ty := Spec.Lenient.uint32) toUInt32_lenient]
  simp only [rule_joined1 (depth := 96) 4 raw Info.fold_iff]
  simp only [rule_required 8 raw (ty := Spec.Lenient.sint64) toSInt64_lenient]
  simp only [rule_required 9 raw (ty := Spec.Lenient.sint64) toSInt64_lenient]
  obtain ⟨c0, c1, c2, c3, c4, c5⟩ := m
  constructor
  · rintro ⟨x0, h0, x1, h1, x2, h2, x3, h3, x4, h4, x5, h5, h⟩
    injection h with e0 e1 e2 e3 e4 e5
    subst e0 e1 e2 e3 e4 e5
    exact ⟨h0, h1, h2, h3, h4, h5⟩
  · rintro ⟨h0, h1, h2, h3, h4, h5⟩
    exact ⟨_, h0, _, h1, _, h2, _, h3, _, h4, _, h5, rfl⟩

theorem Node.decode_iff (b : Bytes) (m : Pb.Node) : Pb.Node.decode b = some m ↔ Spec.Lenient.Message 97 Spec.Lenient.Node b m :=
  message_iff (depth := 97) Node.fold_iff b m

theorem DenseNodes.fold_iff (raw : List Field) (m : Pb.DenseNodes) : raw.foldlM Pb.DenseNodes.step {} = some m ↔ Spec.Lenient.DenseNodes (raw.map entryOf) m := by
  rw [foldlM_by_tags DenseNodes.commutes [1, 5, 8, 9, 10] (by decide) raw (fun _ _ => trivial) (by
    intro f _ hf m
    obtain ⟨t, v⟩ := f
    simp only [Pb.DenseNodes.step]
    split <;> first | rfl | exact absurd (by simp) hf) {}]
  simp only [List.flatMap_cons, List.flatMap_nil, List.append_nil, List.foldlM_append]
  simp only [seg_lens (step := Pb.DenseNodes.step) 1 (fun a v => (getRep Wire.toSInt64 v).map (a ++ ·)) (fun m : Pb.DenseNodes => m.id) (fun x m => { m with id := x })
    (fun m v => by cases v <;> simp [Pb.DenseNodes.step, Pb.DenseNodes.merge, getVarint, getBytes, getStr, getRep, Function.comp_def, Option.map_bind]) (fun _ _ => rfl) (fun _ _ _ => rfl) (fun _ => rfl) raw]
  simp only [seg_lens (step := Pb.DenseNodes.step) 5 (fun o v => ((getBytes v).bind fun b => (parse 97 b).bind fun fs => fs.foldlM Pb.DenseInfo.step (o.getD {})).map some) (fun m : Pb.DenseNodes => m.denseinfo) (fun x m => { m with denseinfo := x })
    (fun m v => by cases v <;> simp [Pb.DenseNodes.step, Pb.DenseInfo.merge, getVarint, getBytes, getStr, getRep, Function.comp_def, Option.map_bind]) (fun _ _ => rfl) (fun _ _ _ => rfl) (fun _ => rfl) raw]
  simp only [seg_lens (step := Pb.DenseNodes.step) 8 (fun a v => (getRep Wire.toSInt64 v).map (a ++ ·)) (fun m : Pb.DenseNodes => m.lat) (fun x m => { m with lat := x })
    (fun m v => by cases v <;> simp [Pb.DenseNodes.step, Pb.DenseNodes.merge, getVarint, getBytes, getStr, getRep, Function.comp_def, Option.map_bind]) (fun _ _ => rfl) (fun _ _ _ => rfl) (fun _ => rfl) raw]
  simp only [seg_lens (step := Pb.DenseNodes.step) 9 (fun a v => (getRep Wire.toSInt64 v).map (a ++ ·)) (fun m : Pb.DenseNodes => m.lon) (fun x m => { m with lon := x })
    (fun m v => by cases v <;> simp [Pb.DenseNodes.step, Pb.DenseNodes.merge, getVarint, getBytes, getStr, getRep, Function.comp_def, Option.map_bind]) (fun _ _ => rfl) (fun _ _ _ => rfl) (fun _ => rfl) raw]
  simp only [seg_lens (step := Pb.DenseNodes.step) 10 (fun a v => (getRep Wire.toInt32 v).map (a ++ ·)) (fun m : Pb.DenseNodes => m.keys_vals) (fun x m => { m with keys_vals := x })
    (fun m v => by cases v <;> simp [Pb.DenseNodes.step, Pb.DenseNodes.merge, getVarint, getBytes, getStr, getRep, Function.comp_def, Option.map_bind]) (fun _ _ => rfl) (fun _ _ _ => rfl) (fun _ => rfl) raw]
  simp only [Option.bind_eq_bind, Option.bind_eq_some_iff, Option.map_eq_some_iff, exists_exists_and_eq_and]
  simp only [rule_numbers 1 raw (ty := Spec.Lenient.sint64) toSInt64_lenient]
  simp only [rule_joined1 (depth := 96) 5 raw DenseInfo.fold_iff]
  simp only [rule_numbers 8 raw (ty := Spec.Lenient.sint64) toSInt64_lenient]
  simp only [rule_numbers 9 raw (ty := Spec.Lenient.sint64) toSInt64_lenient]
  simp only [rule_numbers 10 raw (ty := Spec.Lenient.int32) toInt32_lenient]
  obtain ⟨c0, c1, c2, c3, c4⟩ := m
  constructor
  · rintro ⟨x0, h0, x1, h1, x2, h2, x3, h3, x4, h4, h⟩
    injection h with e0 e1 e2 e3 e4
    subst e0 e1 e2 e3 e4
    exact ⟨h0, h1, h2, h3, h4⟩
  · rintro ⟨h0, h1, h2, h3, h4⟩
    exact ⟨_, h0, _, h1, _, h2, _, h3, _, h4, rfl⟩

theorem DenseNodes.decode_iff (b : Bytes) (m : Pb.DenseNodes) : Pb.DenseNodes.decode b = some m ↔ Spec.Lenient.Message 97 Spec.Lenient.DenseNodes b m :=
  message_iff (depth := 97) DenseNodes.fold_iff b m

theorem Way.fold_iff (raw : List Field) (m : Pb.Way) : raw.foldlM Pb.Way.step {} = some m ↔ Spec.Lenient.Way (raw.map entryOf) m := by
  rw [foldlM_by_tags Way.commutes [1, 2, 3, 4, 8, 9, 10] (by decide) raw (fun _ _ => trivial) (by
    intro f _ hf m
    obtain ⟨t, v⟩ := f
    simp only [Pb.Way.step]
    split <;> first | rfl | exact absurd (by simp) hf) {}]
  simp only [List.flatMap_cons, List.flatMap_nil, List.append_nil, List.foldlM_append]
  simp only [seg_lens (step := Pb.Way.step) 1 (fun _ v => getVarint Wire.toInt64 v) (fun m : Pb.Way => m.id) (fun x m => { m with id := x })
    (fun m v => by cases v <;> simp [Pb.Way.step, Pb.Way.merge, getVarint, getBytes, getStr, getRep, Function.comp_def, Option.map_bind]) (fun _ _ => rfl) (fun _ _ _ => rfl) (fun _ => rfl) raw]
  simp only [seg_lens (step := Pb.Way.step) 2 (fun a v => (getRep Wire.toUInt32 v).map (a ++ ·)) (fun m : Pb.Way => m.keys) (fun x m => { m with keys := x })
    (fun m v => by cases v <;> simp [Pb.Way.step, Pb.Way.merge, getVarint, getBytes, getStr, getRep, Function.comp_def, Option.map_bind]) (fun _ _ => rfl) (fun _ _ _ => rfl) (fun _ => rfl) raw]
  simp only [seg_lens (step := Pb.Way.step) 3 (fun a v => (getRep Wire.toUInt32 v).map (a ++ ·)) (fun m : Pb.Way => m.vals) (fun x m => { m with vals := x })
    (fun m v => by cases v <;> simp [Pb.Way.step, Pb.Way.merge, getVarint, getBytes, getStr, getRep, Function.comp_def, Option.map_bind]) (fun _ _ => rfl) (fun _ _ _ => rfl) (fun _ => rfl) raw]
  simp only [seg_lens (step := Pb.Way.step) 4 (fun o v => ((getBytes v).bind fun b => (parse 97 b).bind fun fs => fs.foldlM Pb.Info.step (o.getD {})).map some) (fun m : Pb.Way => m.info) (fun x m => { m with info := x })
    (fun m v => by cases v <;> simp [Pb.Way.step, Pb.Info.merge, getVarint, getBytes, getStr, getRep, Function.comp_def, Option.map_bind]) (fun _ _ => rfl) (fun _ _ _ => rfl) (fun _ => rfl) raw]
  simp only [seg_lens (step := Pb.Way.step) 8 (fun a v => (getRep Wire.toSInt64 v).map (a ++ ·)) (fun m : Pb.Way => m.refs) (fun x m => { m with refs := x })
    (fun m v => by cases v <;> simp [Pb.Way.step, Pb.Way.merge, getVarint, getBytes, getStr, getRep, Function.comp_def, Option.map_bind]) (fun _ _ => rfl) (fun _ _ _ => rfl) (fun _ => rfl) raw]
  simp only [seg_lens (step := Pb.Way.step) 9 (fun a v => (getRep Wire.toSInt64 v).map (a ++ ·)) (fun m : Pb.Way => m.lat) (fun x m => { m with lat := x })
    (fun m v => by cases v <;> simp [Pb.Way.step, Pb.Way.merge, getVarint, getBytes, getStr, getRep, Function.comp_def, Option.map_bind]) (fun _ _ => rfl) (fun _ _ _ => rfl) (fun _ => rfl) raw]
  simp only [seg_lens (step := Pb.Way.step) 10 (fun a v => (getRep Wire.toSInt64 v).map (a ++ ·)) (fun m : Pb.Way => m.lon) (fun x m => { m with lon := x })
    (fun m v => by cases v <;> simp [Pb.Way.step, Pb.Way.merge, getVarint, getBytes, getStr, getRep, Function.comp_def, Option.map_bind]) (fun _ _ => rfl) (fun _ _ _ => rfl) (fun _ => rfl) raw]
  simp only [Option.bind_eq_bind, Option.bind_eq_some_iff, Option.map_eq_some_iff, exists_exists_and_eq_and]
  simp only [rule_required 1 raw (ty := Spec.Lenient.int64) toInt64_lenient]
  simp only [rule_numbers 2 raw (ty := Spec.Lenient.uint32) toUInt32_lenient]
  simp only [rule_numbers 3 raw (ty := Spec.Lenient.uint32) toUInt32_lenient]
  simp only [rule_joined1 (depth := 96) 4 raw Info.fold_iff]
  simp only [rule_numbers 8 raw (ty := Spec.Lenient.sint64) toSInt64_lenient]
  simp only [rule_numbers 9 raw (ty := Spec.Lenient.sint64) toSInt64_lenient]
  simp only [rule_numbers 10 raw (ty := Spec.Lenient.sint64) toSInt64_lenient]
  obtain ⟨c0, c1, c2, c3, c4, c5, c6⟩ := m
  constructor
  · rintro ⟨x0, h0, x1, h1, x2, h2, x3, h3, x4, h4, x5, h5, x6, h6, h⟩
    injection h with e0 e1 e2 e3 e4 e5 e6
    subst e0 e1 e2 e3 e4 e5 e6
    exact ⟨h0, h1, h2, h3, h4, h5, h6⟩
  · rintro ⟨h0, h1, h2, h3, h4, h5, h6⟩
    exact ⟨_, h0, _, h1, _, h2, _, h3, _, h4, _, h5, _, h6, rfl⟩

theorem Way.decode_iff (b : Bytes) (m : Pb.Way) : Pb.Way.decode b = some m ↔ Spec.Lenient.Message 97 Spec.Lenient.Way b m :=
  message_iff (depth := 97) Way.fold_iff b m

theorem Relation.fold_iff (raw : List Field) (m : Pb.Relation) : raw.foldlM Pb.Relation.step {} = some m ↔ Spec.Lenient.Relation (raw.map entryOf) m := by
  rw [foldlM_by_tags Relation.commutes [1, 2, 3, 4, 8, 9, 10] (by decide) raw (fun _ _ => trivial) (by
    intro f _ hf m
    obtain ⟨t, v⟩ := f
    simp only [Pb.Relation.step]
    split <;> first | rfl | exact absurd (by simp) hf) {}]
  simp only [List.flatMap_cons, List.flatMap_nil, List.append_nil, List.foldlM_append]
  simp only [seg_lens (step := Pb.Relation.step) 1 (fun _ v => getVarint Wire.toInt64 v) (fun m : Pb.Relation => m.id) (fun x m => { m with id := x })
    (fun m v => by cases v <;> simp [Pb.Relation.step, Pb.Relation.merge, getVarint, getBytes, getStr, getRep, Function.comp_def, Option.map_bind]) (fun _ _ => rfl) (fun _ _ _ => rfl) (fun _ => rfl) raw]
  simp only [seg_lens (step := Pb.Relation.step) 2 (fun a v => (getRep Wire.toUInt32 v).map (a ++ ·)) (fun m : Pb.Relation => m.keys) (fun x m => { m with keys := x })
    (fun m v => by cases v <;> simp [Pb.Relation.step, Pb.Relation.merge, getVarint, getBytes, getStr, getRep, Function.comp_def, Option.map_bind]) (fun _ _ => rfl) (fun _ _ _ => rfl) (fun _ => rfl) raw]
  simp only [seg_lens (step := Pb.Relation.step) 3 (fun a v => (getRep Wire.toUInt32 v).map (a ++ ·)) (fun m : Pb.Relation => m.vals) (fun x m => { m with vals := x })
    (fun m v => by cases v <;> simp [Pb.Relation.step, Pb.Relation.merge, getVarint, getBytes, getStr, getRep, Function.comp_def, Option.map_bind]) (fun _ _ => rfl) (fun _ _ _ => rfl) (fun _ => rfl) raw]
  simp only [seg_lens (step := Pb.Relation.step) 4 (fun o v => ((getBytes v).bind fun b => (parse 97 b).bind fun fs => fs.foldlM Pb.Info.step (o.getD {})).map some) (fun m : Pb.Relation => m.info) (fun x m => { m with info := x })
    (fun m v => by cases v <;> simp [Pb.Relation.step, Pb.Info.merge, getVarint, getBytes, getStr, getRep, Function.comp_def, Option.map_bind]) (fun _ _ => rfl) (fun _ _ _ => rfl) (fun _ => rfl) raw]
  simp only [seg_lens (step := Pb.Relation.step) 8 (fun a v => (getRep Wire.toInt32 v).map (a ++ ·)) (fun m : Pb.Relation => m.roles_sid) (fun x m => { m with roles_sid := x })
    (fun m v => by cases v <;> simp [Pb.Relation.step, Pb.Relation.merge, getVarint, getBytes, getStr, getRep, Function.comp_def, Option.map_bind]) (fun _ _ => rfl) (fun _ _ _ => rfl) (fun _ => rfl) raw]
  simp only [seg_lens (step := Pb.Relation.step) 9 (fun a v => (getRep Wire.toSInt64 v).map (a ++ ·)) (fun m : Pb.Relation => m.memids) (fun x m => { m with memids := x })
    (fun m v => by cases v <;> simp [Pb.Relation.step, Pb.Relation.merge, getVarint, getBytes, getStr, getRep, Function.comp_def, Option.map_bind]) (fun _ _ => rfl) (fun _ _ _ => rfl) (fun _ => rfl) raw]
  simp only [seg_lens (step := Pb.Relation.step) 10 (fun a v => (getRep Wire.toInt32 v).map (a ++ ·)) (fun m : Pb.Relation => m.types) (fun x m => { m with types := x })
    (fun m v => by cases v <;> simp [Pb.Relation.step, Pb.Relation.merge, getVarint, getBytes, getStr, getRep, Function.comp_def, Option.map_bind]) (fun _ _ => rfl) (fun _ _ _ => rfl) (fun _ => rfl) raw]
  simp only [Option.bind_eq_bind, Option.bind_eq_some_iff, Option.map_eq_some_iff, exists_exists_and_eq_and]
  simp only [rule_required 1 raw (ty := Spec.Lenient.int64) toInt64_lenient]
  simp only [rule_numbers 2 raw (ty := Spec.Lenient.uint32) toUInt32_lenient]
  simp only [rule_numbers 3 raw (ty := Spec.Lenient.uint32) toUInt32_lenient]
  simp only [rule_joined1 (depth := 96) 4 raw Info.fold_iff]
  simp only [rule_numbers 8 raw (ty := Spec.Lenient.int32) toInt32_lenient]
  simp only [rule_numbers 9 raw (ty := Spec.Lenient.sint64) toSInt64_lenient]
  simp only [rule_numbers 10 raw (ty := Spec.Lenient.int32) toInt32_lenient]
  obtain ⟨c0, c1, c2, c3, c4, c5, c6⟩ := m
  constructor
  · rintro ⟨x0, h0, x1, h1, x2, h2, x3, h3, x4, h4, x5, h5, x6, h6, h⟩
    injection h with e0 e1 e2 e3 e4 e5 e6
    subst e0 e1 e2 e3 e4 e5 e6
    exact ⟨h0, h1, h2, h3, h4, h5, h6⟩
  · rintro ⟨h0, h1, h2, h3, h4, h5, h6⟩
    exact ⟨_, h0, _, h1, _, h2, _, h3, _, h4, _, h5, _, h6, rfl⟩

theorem Relation.decode_iff (b : Bytes) (m : Pb.Relation) : Pb.Relation.decode b = some m ↔ Spec.Lenient.Message 97 Spec.Lenient.Relation b m :=
  message_iff (depth := 97) Relation.fold_iff b m

theorem PrimitiveGroup.fold_iff (raw : List Field) (m : Pb.PrimitiveGroup) : raw.foldlM Pb.PrimitiveGroup.step {} = some m ↔ Spec.Lenient.PrimitiveGroup (raw.map entryOf) m := by
  rw [foldlM_by_tags PrimitiveGroup.commutes [1, 2, 3, 4, 5] (by decide) raw (fun _ _ => trivial) (by
    intro f _ hf m
    obtain ⟨t, v⟩ := f
    simp only [Pb.PrimitiveGroup.step]
    split <;> first | rfl | exact absurd (by simp) hf) {}]
  simp only [List.flatMap_cons, List.flatMap_nil, List.append_nil, List.foldlM_append]
  simp only [seg_lens (step := Pb.PrimitiveGroup.step) 1 (fun a v => (getBytes v).bind fun b => (Pb.Node.merge {} b).map fun x => a ++ [x]) (fun m : Pb.PrimitiveGroup => m.nodes) (fun x m => { m with nodes := x })
    (fun m v => by cases v <;> simp [Pb.PrimitiveGroup.step, Pb.Node.merge, getVarint, getBytes, getStr, getRep, Function.comp_def, Option.map_bind]) (fun _ _ => rfl) (fun _ _ _ => rfl) (fun _ => rfl) raw]
  simp only [seg_lens (step := Pb.PrimitiveGroup.step) 2 (fun o v => ((getBytes v).bind fun b => (parse 98 b).bind fun fs => fs.foldlM Pb.DenseNodes.step (o.getD {})).map some) (fun m : Pb.PrimitiveGroup => m.dense) (fun x m => { m with dense := x })
    (fun m v => by cases v <;> simp [Pb.PrimitiveGroup.step, Pb.DenseNodes.merge, getVarint, getBytes, getStr, getRep, Function.comp_def, Option.map_bind]) (fun _ _ => rfl) (fun _ _ _ => rfl) (fun _ => rfl) raw]
  simp only [seg_lens (step := Pb.PrimitiveGroup.step) 3 (fun a v => (getBytes v).bind fun b => (Pb.Way.merge {} b).map fun x => a ++ [x]) (fun m : Pb.PrimitiveGroup => m.ways) (fun x m => { m with ways := x })
    (fun m v => by cases v <;> simp [Pb.PrimitiveGroup.step, Pb.Way.merge, getVarint, getBytes, getStr, getRep, Function.comp_def, Option.map_bind]) (fun _ _ => rfl) (fun _ _ _ => rfl) (fun _ => rfl) raw]
  simp only [seg_lens (step := Pb.PrimitiveGroup.step) 4 (fun a v => (getBytes v).bind fun b => (Pb.Relation.merge {} b).map fun x => a ++ [x]) (fun m : Pb.PrimitiveGroup => m.relations) (fun x m => { m with relations := x })
    (fun m v => by cases v <;> simp [Pb.PrimitiveGroup.step, Pb.Relation.merge, getVarint, getBytes, getStr, getRep, Function.comp_def, Option.map_bind]) (fun _ _ => rfl) (fun _ _ _ => rfl) (fun _ => rfl) raw]
  simp only [seg_lens (step := Pb.PrimitiveGroup.step) 5 (fun a v => (getBytes v).bind fun b => (Pb.ChangeSet.merge {} b).map fun x => a ++ [x]) (fun m : Pb.PrimitiveGroup => m.changesets) (fun x m => { m with changesets := x })
    (fun m v => by cases v <;> simp [Pb.PrimitiveGroup.step, Pb.ChangeSet.merge, getVarint, getBytes, getStr, getRep, Function.comp_def, Option.map_bind]) (fun _ _ => rfl) (fun _ _ _ => rfl) (fun _ => rfl) raw]
  simp only [Option.bind_eq_bind, Option.bind_eq_some_iff, Option.map_eq_some_iff, exists_exists_and_eq_and]
  simp only [rule_messages (depth := 97) (dec := Pb.Node.merge {}) 1 raw Node.decode_iff]
  simp only [rule_joined1 (depth := 97) 2 raw DenseNodes.fold_iff]
  simp only [rule_messages (depth := 97) (dec := Pb.Way.merge {}) 3 raw Way.decode_iff]
  simp only [rule_messages (depth := 97) (dec := Pb.Relation.merge {}) 4 raw Relation.decode_iff]
  simp only [rule_messages (depth := 97) (dec := Pb.ChangeSet.merge {}) 5 raw ChangeSet.decode_iff]
  obtain ⟨c0, c1, c2, c3, c4⟩ := m
  constructor
  · rintro ⟨x0, h0, x1, h1, x2, h2, x3, h3, x4, h4, h⟩
    injection h with e0 e1 e2 e3 e4
    subst e0 e1 e2 e3 e4
    exact ⟨h0, h1, h2, h3, h4⟩
  · rintro ⟨h0, h1, h2, h3, h4⟩
    exact ⟨_, h0, _, h1, _, h2, _, h3, _, h4, rfl⟩

theorem PrimitiveGroup.decode_iff (b : Bytes) (m : Pb.PrimitiveGroup) : Pb.PrimitiveGroup.decode b = some m ↔ Spec.Lenient.Message 98 Spec.Lenient.PrimitiveGroup b m :=
  message_iff (depth := 98) PrimitiveGroup.fold_iff b m

theorem PrimitiveBlock.fold_iff (raw : List Field) (m : Pb.PrimitiveBlock) : raw.foldlM Pb.PrimitiveBlock.step {} = some m ↔ Spec.Lenient.PrimitiveBlock (raw.map entryOf) m := by
  rw [foldlM_by_tags PrimitiveBlock.commutes [1, 2, 17, 18, 19, 20] (by decide) raw (fun _ _ => trivial) (by
    intro f _ hf m
    obtain ⟨t, v⟩ := f
    simp only [Pb.PrimitiveBlock.step]
    split <;> first | rfl | exact absurd (by simp) hf) {}]
  simp only [List.flatMap_cons, List.flatMap_nil, List.append_nil, List.foldlM_append]
  simp only [seg_lens (step := Pb.PrimitiveBlock.step) 1 (fun m v => (getBytes v).bind fun b => (parse 99 b).bind fun fs => fs.foldlM Pb.StringTable.step m) (fun m : Pb.PrimitiveBlock => m.stringtable) (fun x m => { m with stringtable := x })
    (fun m v => by cases v <;> simp [Pb.PrimitiveBlock.step, Pb.StringTable.merge, getVarint, getBytes, getStr, getRep, Function.comp_def, Option.map_bind]) (fun _ _ => rfl) (fun _ _ _ => rfl) (fun _ => rfl) raw]
  simp only [seg_lens (step := Pb.PrimitiveBlock.step) 2 (fun a v => (getBytes v).bind fun b => (Pb.PrimitiveGroup.merge {} b).map fun x => a ++ [x]) (fun m : Pb.PrimitiveBlock => m.primitivegroup) (fun x m => { m with primitivegroup := x })
    (fun m v => by cases v <;> simp [Pb.PrimitiveBlock.step, Pb.PrimitiveGroup.merge, getVarint, getBytes, getStr, getRep, Function.comp_def, Option.map_bind]) (fun _ _ => rfl) (fun _ _ _ => rfl) (fun _ => rfl) raw]
  simp only [seg_lens (step := Pb.PrimitiveBlock.step) 17 (fun _ v => (getVarint Wire.toInt32 v).map some) (fun m : Pb.PrimitiveBlock => m.granularity) (fun x m => { m with granularity := x })
    (fun m v => by cases v <;> simp [Pb.PrimitiveBlock.step, Pb.PrimitiveBlock.merge, getVarint, getBytes, getStr, getRep, Function.comp_def, Option.map_bind]) (fun _ _ => rfl) (fun _ _ _ => rfl) (fun _ => rfl) raw]
  simp only [seg_lens (step := Pb.PrimitiveBlock.step) 18 (fun _ v => (getVarint Wire.toInt32 v).map some) (fun m : Pb.PrimitiveBlock => m.date_granularity) (fun x m => { m with date_granularity := x })
    (fun m v => by cases v <;> simp [Pb.PrimitiveBlock.step, Pb.PrimitiveBlock.merge, getVarint, getBytes, getStr, getRep, Function.comp_def, Option.map_bind]) (fun _ _ => rfl) (fun _ _ _ => rfl) (fun _ => rfl) raw]
  simp only [seg_lens (step := Pb.PrimitiveBlock.step) 19 (fun _ v => (getVarint Wire.toInt64 v).map some) (fun m : Pb.PrimitiveBlock => m.lat_offset) (fun x m => { m with lat_offset := x })
    (fun m v => by cases v <;> simp [Pb.PrimitiveBlock.step, Pb.PrimitiveBlock.merge, getVarint, getBytes, getStr, getRep, Function.comp_def, Option.map_bind]) (fun _ _ => rfl) (fun _ _ _ => rfl) (fun _ => rfl) raw]
  simp only [seg_lens (step := Pb.PrimitiveBlock.step) 20 (fun _ v => (getVarint Wire.toInt64 v).map some) (fun m : Pb.PrimitiveBlock => m.lon_offset) (fun x m => { m with lon_offset := x })
    (fun m v => by cases v <;> simp [Pb.PrimitiveBlock.step, Pb.PrimitiveBlock.merge, getVarint, getBytes, getStr, getRep, Function.comp_def, Option.map_bind]) (fun _ _ => rfl) (fun _ _ _ => rfl) (fun _ => rfl) raw]
  simp only [Option.bind_eq_bind, Option.bind_eq_some_iff, Option.map_eq_some_iff, exists_exists_and_eq_and]
  simp only [rule_joined (depth := 98) 1 raw StringTable.fold_iff]
  simp only [rule_messages (depth := 98) (dec := Pb.PrimitiveGroup.merge {}) 2 raw PrimitiveGroup.decode_iff]
  simp only [rule_number 17 raw (ty := Spec.Lenient.int32) toInt32_lenient]
  simp only [rule_number 18 raw (ty := Spec.Lenient.int32) toInt32_lenient]
  simp only [rule_number 19 raw (ty := Spec.Lenient.int64) toInt64_lenient]
  simp only [rule_number 20 raw (ty := Spec.Lenient.int64) toInt64_lenient]
  obtain ⟨c0, c1, c2, c3, c4, c5⟩ := m
  constructor
  · rintro ⟨x0, h0, x1, h1, x2, h2, x3, h3, x4, h4, x5, h5, h⟩
    injection h with e0 e1 e2 e3 e4 e5
    subst e0 e1 e2 e3 e4 e5
    exact ⟨h0, h1, h2, h3, h4, h5⟩
  · rintro ⟨h0, h1, h2, h3, h4, h5⟩
    exact ⟨_, h0, _, h1, _, h2, _, h3, _, h4, _, h5, rfl⟩

theorem PrimitiveBlock.decode_iff (b : Bytes) (m : Pb.PrimitiveBlock) : Pb.PrimitiveBlock.decode b = some m ↔ Spec.Lenient.Message 99 Spec.Lenient.PrimitiveBlock b m :=
  message_iff (depth := 99) PrimitiveBlock.fold_iff b m

end OsmIo
