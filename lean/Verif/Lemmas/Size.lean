import Verif.Spec.Size
import Verif.Lemmas.File
import Verif.Lemmas.Proto
/-!
# Sizes of encoded messages
-/
namespace OsmIo
open Wire Spec

namespace Size

/-- Bytes of the content of a length-delimited field. -/
def body : Val → Nat
  | .len b => b.length
  | _ => 0

/-- A bound on the bytes of some fields. -/
def cost (fs : List Field) : Nat := (fs.map fun f => 16 + body f.val).sum

theorem varint_le {n : Nat} (h : n < 2 ^ 64) : (encVarint n).length ≤ 10 :=
  encVarint_length_le n 10 (lt_trans h (by norm_num)) (by norm_num)

theorem enc_le {fs : List Field} (hp : ∀ f ∈ fs, f.Pre) (hl : cost fs < 2 ^ 64) : (encFields fs).length ≤ cost fs := by
  induction fs with
  | nil => simp
  | cons f fs ih =>
    simp only [cost, List.map_cons, List.sum_cons] at hl ⊢
    obtain ⟨h1, h2, h3⟩ := hp f (by simp)
    have hw := f.val.wt_lt
    have hkey : (encVarint (f.tag * 8 + f.val.wt)).length ≤ 5 :=
      encVarint_length_le _ 5 (by norm_num; omega) (by norm_num)
    have := ih (fun g hg => hp g (by simp [hg])) (by unfold cost; omega)
    simp only [cost] at this
    simp only [encFields_cons, List.length_append, encField]
    have hv : (encVal f.val).length ≤ 10 + body f.val := by
      cases e : f.val with
      | varint n => rw [e] at h3; have := varint_le h3; simp [encVal, body]; omega
      | i64 b => rw [e] at h3; simp [encVal, body]; simp at h3; omega
      | i32 b => rw [e] at h3; simp [encVal, body]; simp at h3; omega
      | group => rw [e] at h3; exact h3.elim
      | len b =>
        rw [e] at hl
        simp only [body] at hl
        have := varint_le (n := b.length) (by omega)
        simp [encVal, body]; omega
    omega

theorem cost_append (a b : List Field) : cost (a ++ b) = cost a + cost b := by simp [cost]
theorem cost_nil : cost [] = 0 := rfl
theorem cost_one (t : Nat) (v : Val) : cost [⟨t, v⟩] = 16 + body v := by simp [cost]

theorem cost_pack {α : Type} (t : Nat) (enc : α → Nat) (h : ∀ x, enc x < 2 ^ 64) (xs : List α) : cost (packF t enc xs) ≤ 16 + 10 * xs.length := by
  unfold packF
  split
  · simp [cost]
  · rw [cost_one]
    simp only [body]
    have : (packBytes enc xs).length ≤ 10 * xs.length := by
      induction xs with
      | nil => simp [packBytes]
      | cons x xs ih =>
        have := varint_le (h x)
        have ih : (packBytes enc xs).length ≤ 10 * xs.length := by
          cases xs with
          | nil => simp [packBytes]
          | cons y ys => exact ih (by simp)
        simp only [packBytes, List.map_cons, List.flatten_cons, List.length_append, List.length_cons] at ih ⊢
        omega
    omega

theorem cost_opt {α : Type} (t : Nat) (enc : α → Val) (o : Option α) : cost (optF t enc o) = o.elim 0 fun x => 16 + body (enc x) := by
  cases o <;> simp [optF, cost]

theorem cost_rep {α : Type} (t : Nat) (enc : α → Val) (xs : List α) : cost (repF t enc xs) = (xs.map fun x => 16 + body (enc x)).sum := by
  simp [repF, cost, Function.comp_def]

theorem strBytes_length (s : String) : (strBytes s).length = s.utf8ByteSize := by
  simp [strBytes]

/-! ## Messages -/

theorem info_le (m : Pb.Info) : (encFields m.fields).length ≤ 96 := by
  have : cost m.fields ≤ 96 := by
    simp only [Pb.Info.fields, cost_append, cost_opt, body]
    cases m.version <;> cases m.timestamp <;> cases m.changeset <;> cases m.uid <;> cases m.user_sid <;> cases m.visible <;> simp
  exact (enc_le (Pb.Info.pre m) (by omega)).trans this

/-- A bound for a way. -/
def wayCost (m : Pb.Way) : Nat := 208 + 10 * (m.keys.length + m.vals.length + m.refs.length + m.lat.length + m.lon.length)

theorem way_le (m : Pb.Way) (h : wayCost m < 2 ^ 64) : (encFields m.fields).length ≤ wayCost m := by
  have : cost m.fields ≤ wayCost m := by
    simp only [Pb.Way.fields, cost_append, cost_opt, cost_one, wayCost]
    have h1 := cost_pack 2 ofUInt32 ofUInt32_lt m.keys
    have h2 := cost_pack 3 ofUInt32 ofUInt32_lt m.vals
    have h3 := cost_pack 8 ofSInt64 ofSInt64_lt m.refs
    have h4 := cost_pack 9 ofSInt64 ofSInt64_lt m.lat
    have h5 := cost_pack 10 ofSInt64 ofSInt64_lt m.lon
    have h6 : (m.info.elim 0 fun x => 16 + body (.len (encFields (Pb.Info.fields x)))) ≤ 112 := by
      cases m.info with
      | none => simp
      | some i => have := info_le i; simp [body]; omega
    simp only [body] at h6 ⊢
    omega
  exact (enc_le (Pb.Way.pre m) (by omega)).trans this

/-- A bound for a relation. -/
def relationCost (m : Pb.Relation) : Nat := 208 + 10 * (m.keys.length + m.vals.length + m.roles_sid.length + m.memids.length + m.types.length)

theorem relation_le (m : Pb.Relation) (h : relationCost m < 2 ^ 64) : (encFields m.fields).length ≤ relationCost m := by
  have : cost m.fields ≤ relationCost m := by
    simp only [Pb.Relation.fields, cost_append, cost_opt, cost_one, relationCost]
    have h1 := cost_pack 2 ofUInt32 ofUInt32_lt m.keys
    have h2 := cost_pack 3 ofUInt32 ofUInt32_lt m.vals
    have h3 := cost_pack 8 ofInt32 ofInt32_lt m.roles_sid
    have h4 := cost_pack 9 ofSInt64 ofSInt64_lt m.memids
    have h5 := cost_pack 10 ofInt32 ofInt32_lt m.types
    have h6 : (m.info.elim 0 fun x => 16 + body (.len (encFields (Pb.Info.fields x)))) ≤ 112 := by
      cases m.info with
      | none => simp
      | some i => have := info_le i; simp [body]; omega
    simp only [body] at h6 ⊢
    omega
  exact (enc_le (Pb.Relation.pre m) (by omega)).trans this

/-- Numbers in a dense group. -/
def denseCount (m : Pb.DenseNodes) (i : Pb.DenseInfo) : Nat :=
  m.id.length + m.lat.length + m.lon.length + m.keys_vals.length +
    (i.version.length + i.timestamp.length + i.changeset.length + i.uid.length + i.user_sid.length + i.visible.length)

theorem dense_le (m : Pb.DenseNodes) (i : Pb.DenseInfo) (hi : m.denseinfo = some i) (h : 176 + 10 * denseCount m i < 2 ^ 64) :
    (encFields m.fields).length ≤ 176 + 10 * denseCount m i := by
  have hinfo : (encFields i.fields).length ≤ 96 + 10 * (i.version.length + i.timestamp.length + i.changeset.length + i.uid.length + i.user_sid.length + i.visible.length) := by
    have : cost i.fields ≤ 96 + 10 * (i.version.length + i.timestamp.length + i.changeset.length + i.uid.length + i.user_sid.length + i.visible.length) := by
      simp only [Pb.DenseInfo.fields, cost_append]
      have h1 := cost_pack 1 ofInt32 ofInt32_lt i.version
      have h2 := cost_pack 2 ofSInt64 ofSInt64_lt i.timestamp
      have h3 := cost_pack 3 ofSInt64 ofSInt64_lt i.changeset
      have h4 := cost_pack 4 ofSInt32 ofSInt32_lt i.uid
      have h5 := cost_pack 5 ofSInt32 ofSInt32_lt i.user_sid
      have h6 := cost_pack 6 ofBool ofBool_lt i.visible
      omega
    exact (enc_le (Pb.DenseInfo.pre i) (by unfold denseCount at h; omega)).trans this
  have : cost m.fields ≤ 176 + 10 * denseCount m i := by
    simp only [Pb.DenseNodes.fields, cost_append, cost_opt, hi, Option.elim_some, body, denseCount]
    have h1 := cost_pack 1 ofSInt64 ofSInt64_lt m.id
    have h2 := cost_pack 8 ofSInt64 ofSInt64_lt m.lat
    have h3 := cost_pack 9 ofSInt64 ofSInt64_lt m.lon
    have h4 := cost_pack 10 ofInt32 ofInt32_lt m.keys_vals
    omega
  exact (enc_le (Pb.DenseNodes.pre m) (by omega)).trans this

/-! ## The builders -/

/-- Bytes of the string table. -/
def tableCost (st : StringTableBuilder) : Nat := (st.table.map fun b => 16 + b.length).sum

theorem add_cost (st : StringTableBuilder) (s : String) : tableCost (st.add s).2 ≤ tableCost st + 16 + s.utf8ByteSize := by
  unfold StringTableBuilder.add
  split
  · simp; omega
  · simp [tableCost, strBytes_length]; omega

theorem addTags_cost (st : StringTableBuilder) (ts : List Tag) :
    tableCost (st.addTags ts).2 + 20 * ts.length ≤ tableCost st + tagsWeight ts ∧ (st.addTags ts).1.length = ts.length := by
  induction ts generalizing st with
  | nil => simp [StringTableBuilder.addTags, tagsWeight]
  | cons t ts ih =>
    have h1 := add_cost st t.k
    have h2 := add_cost (st.add t.k).2 t.v
    obtain ⟨h3, h4⟩ := ih ((st.add t.k).2.add t.v).2
    simp only [StringTableBuilder.addTags, List.length_cons, tagsWeight, List.map_cons, List.sum_cons] at h3 ⊢
    refine ⟨?_, by rw [h4]⟩
    omega

theorem addRoles_cost (st : StringTableBuilder) (ms : List Member) :
    tableCost (addRoles st ms).2 + 30 * ms.length ≤ tableCost st + (ms.map fun m => 46 + (roleOf m).utf8ByteSize).sum ∧ (addRoles st ms).1.length = ms.length := by
  induction ms generalizing st with
  | nil => simp [addRoles]
  | cons m ms ih =>
    have h1 := add_cost st m.role
    obtain ⟨h3, h4⟩ := ih (st.add m.role).2
    have hr : m.role = roleOf m := by cases m <;> rfl
    rw [hr] at h1 h3 h4
    simp only [addRoles, List.length_cons, List.map_cons, List.sum_cons, hr] at h3 h4 ⊢
    refine ⟨?_, by rw [h4]⟩
    omega

theorem deltas_length (l : Int64) (xs : List Int64) : (deltas l xs).length = xs.length := by
  induction xs generalizing l with
  | nil => rfl
  | cons x xs ih => simp [deltas, ih]

theorem keysVals_length (kvs : List (Int32 × Int32)) : (keysVals kvs).length = 2 * kvs.length + 1 := by
  induction kvs with
  | nil => rfl
  | cons k ks ih =>
    simp only [keysVals, List.flatMap_cons, List.length_append, List.length_cons, List.length_nil] at ih ⊢
    omega

/-- A bound for the state of the serializer. -/
def stateCost (s : SerState) : Nat :=
  tableCost s.st + (s.dense.elim 0 fun d => 10 * denseCount d.dense d.info) +
    (s.ways.elim 0 fun ws => (ws.map fun w => 16 + wayCost w).sum) + (s.relations.elim 0 fun rs => (rs.map fun r => 16 + relationCost r).sum)

theorem step_cost (s : SerState) (e : Element) : stateCost (s.step e) ≤ stateCost s + weight e := by
  cases e with
  | sentinel => simp [SerState.step, weight]
  | node n =>
    have h1 := add_cost s.st n.user
    obtain ⟨h2, h3⟩ := addTags_cost (s.st.add n.user).2 n.tags
    have h4 := keysVals_length ((s.st.add n.user).2.addTags n.tags).1
    cases hd : s.dense with
    | none =>
      simp only [SerState.step, hd, stateCost, Option.elim_some, Option.elim_none, DenseGroupBuilder.new, denseCount, List.length_cons, List.length_nil, weight]
      omega
    | some d =>
      simp only [SerState.step, hd, stateCost, Option.elim_some, DenseGroupBuilder.add, denseCount, List.length_append, List.length_cons, List.length_nil, weight]
      omega
  | way w =>
    obtain ⟨h2, h3⟩ := addTags_cost s.st w.tags
    have h1 := add_cost (s.st.addTags w.tags).2 w.user
    have h4 := deltas_length 0 w.refs
    cases hw : s.ways <;>
    · simp only [SerState.step, hw, stateCost, Option.elim_some, Option.elim_none, convertWay, Option.getD_some, Option.getD_none, List.nil_append, List.map_append, List.map_cons, List.map_nil,
        List.sum_append, List.sum_cons, List.sum_nil, wayCost, List.length_map, List.length_nil, weight]
      omega
  | relation r =>
    obtain ⟨h5, h6⟩ := addRoles_cost s.st r.members
    obtain ⟨h2, h3⟩ := addTags_cost (addRoles s.st r.members).2 r.tags
    have h1 := add_cost ((addRoles s.st r.members).2.addTags r.tags).2 r.user
    have h4 := deltas_length 0 (r.members.map Member.id)
    rw [List.length_map] at h4
    cases hw : s.relations <;>
    · simp only [SerState.step, hw, stateCost, Option.elim_some, Option.elim_none, convertRelation, Option.getD_some, Option.getD_none, List.nil_append, List.map_append, List.map_cons, List.map_nil,
        List.sum_append, List.sum_cons, List.sum_nil, relationCost, List.length_map, weight]
      omega

theorem fold_cost (es : List Element) (s : SerState) : stateCost (es.foldl SerState.step s) ≤ stateCost s + weightOf es := by
  induction es generalizing s with
  | nil => simp [weightOf]
  | cons e es ih =>
    have h1 := step_cost s e
    have h2 := ih (s.step e)
    simp only [List.foldl_cons, weightOf, List.map_cons, List.sum_cons] at h2 ⊢
    omega

theorem table_le (st : StringTableBuilder) (h : tableCost st < 2 ^ 64) : (encFields st.build.fields).length ≤ tableCost st := by
  have : cost st.build.fields = tableCost st := by
    simp [Pb.StringTable.fields, cost_rep, StringTableBuilder.build, tableCost, body]
  exact this ▸ enc_le (Pb.StringTable.pre _) (by omega)

theorem rep_le {α : Type} {xs : List α} {f g : α → Nat} (h : ∀ x ∈ xs, f x ≤ g x) : (xs.map f).sum ≤ (xs.map g).sum := by
  induction xs with
  | nil => simp
  | cons x xs ih =>
    have h1 := h x (by simp)
    have h2 := ih fun y hy => h y (by simp [hy])
    simp only [List.map_cons, List.sum_cons]
    omega

theorem mem_le_sum {α : Type} {xs : List α} {f : α → Nat} {x : α} (h : x ∈ xs) : f x ≤ (xs.map f).sum := by
  induction xs with
  | nil => simp at h
  | cons y ys ih =>
    simp only [List.map_cons, List.sum_cons]
    rcases List.mem_cons.1 h with rfl | h
    · omega
    · have := ih h; omega

theorem group_le {g : Pb.PrimitiveGroup} {B : Nat} (h : cost g.fields ≤ B) (hB : B < 2 ^ 64) : (encFields g.fields).length ≤ B :=
  (enc_le (Pb.PrimitiveGroup.pre g) (by omega)).trans h

/-- The group of a block. -/
theorem serialized_le (s : SerState) (g : Pb.PrimitiveGroup) (h : stateCost s + 512 < 2 ^ 64)
    (hg : g = match s.dense with
      | some d => d.build
      | none =>
        match s.ways with
        | some ws => { ways := ws }
        | none =>
          match s.relations with
          | some rs => { relations := rs }
          | none => {}) :
    (Pb.PrimitiveBlock.encode
      { stringtable := s.st.build, primitivegroup := [g], granularity := some 100, lat_offset := some 0, lon_offset := some 0, date_granularity := some 1000 }).length ≤
      stateCost s + 512 := by
  have hgroup : (encFields g.fields).length + tableCost s.st ≤ stateCost s + 256 := by
    cases hd : s.dense with
    | some d =>
      simp only [hd] at hg
      have hc : 176 + 10 * denseCount d.dense d.info < 2 ^ 64 := by simp only [stateCost, hd, Option.elim_some] at h; omega
      have h1 := dense_le { d.dense with denseinfo := some d.info } d.info rfl hc
      have h2 : cost g.fields ≤ 192 + 10 * denseCount d.dense d.info := by
        subst hg
        simp only [DenseGroupBuilder.build, Pb.PrimitiveGroup.fields, cost_append, cost_rep, cost_opt, List.map_nil, List.sum_nil, Option.elim_some, body]
        have e : denseCount { d.dense with denseinfo := some d.info } d.info = denseCount d.dense d.info := rfl
        rw [e] at h1
        dsimp only at h1 ⊢
        omega
      have h3 := group_le h2 (by simp only [stateCost, hd, Option.elim_some] at h; omega)
      simp only [stateCost, hd, Option.elim_some]
      omega
    | none =>
      cases hw : s.ways with
      | some ws =>
        simp only [hd, hw] at hg
        have h2 : cost g.fields ≤ (ws.map fun w => 16 + wayCost w).sum := by
          subst hg
          simp only [Pb.PrimitiveGroup.fields, cost_append, cost_rep, cost_opt, List.map_nil, List.sum_nil, Option.elim_none, body]
          have := rep_le (xs := ws) (f := fun w => 16 + (encFields w.fields).length) (g := fun w => 16 + wayCost w) (fun w hw' => by
            have hm := mem_le_sum (f := fun w => 16 + wayCost w) hw'
            have := way_le w (by simp only [stateCost, hw, Option.elim_some] at h; omega)
            omega)
          omega
        have h3 := group_le h2 (by simp only [stateCost, hw, Option.elim_some] at h; omega)
        simp only [stateCost, hw, Option.elim_some]
        omega
      | none =>
        cases hr : s.relations with
        | some rs =>
          simp only [hd, hw, hr] at hg
          have h2 : cost g.fields ≤ (rs.map fun w => 16 + relationCost w).sum := by
            subst hg
            simp only [Pb.PrimitiveGroup.fields, cost_append, cost_rep, cost_opt, List.map_nil, List.sum_nil, Option.elim_none, body]
            have := rep_le (xs := rs) (f := fun w => 16 + (encFields w.fields).length) (g := fun w => 16 + relationCost w) (fun w hw' => by
              have hm := mem_le_sum (f := fun w => 16 + relationCost w) hw'
              have := relation_le w (by simp only [stateCost, hr, Option.elim_some] at h; omega)
              omega)
            omega
          have h3 := group_le h2 (by simp only [stateCost, hr, Option.elim_some] at h; omega)
          simp only [stateCost, hr, Option.elim_some]
          omega
        | none =>
          simp only [hd, hw, hr] at hg
          subst hg
          simp [Pb.PrimitiveGroup.fields, optF, repF, stateCost]
          omega
  have ht := table_le s.st (by unfold stateCost at h; omega)
  unfold Pb.PrimitiveBlock.encode
  have hc : cost (Pb.PrimitiveBlock.fields
      { stringtable := s.st.build, primitivegroup := [g], granularity := some 100, lat_offset := some 0, lon_offset := some 0, date_granularity := some 1000 }) ≤ stateCost s + 512 := by
    simp only [Pb.PrimitiveBlock.fields, cost_append, cost_one, cost_rep, cost_opt, body, Option.elim_some, List.map_cons, List.map_nil, List.sum_cons, List.sum_nil]
    omega
  exact (enc_le (Pb.PrimitiveBlock.pre _) (by omega)).trans hc

theorem serializeData_le (es : List Element) (h : weightOf es + 1000 < 2 ^ 64) : (serializeData es).length ≤ weightOf es + 528 := by
  have h0 : stateCost ⟨StringTableBuilder.new, none, none, none⟩ = 16 := by decide
  have h1 := fold_cost es ⟨StringTableBuilder.new, none, none, none⟩
  have h2 := serialized_le (es.foldl SerState.step ⟨StringTableBuilder.new, none, none, none⟩) _ (by omega) rfl
  unfold serializeData toPrimitiveBlock
  refine h2.trans ?_
  omega

theorem blob_le (z : Zlib) (c : CompressionType) (level : Bool) (d : Bytes) (B : Nat) (h1 : d.length ≤ B) (h2 : (z.deflate level d).length ≤ B) (hB : B + 100 < 2 ^ 64) :
    (FileBlock.blob z c level d).encode.length ≤ B + 32 := by
  have hc : cost (FileBlock.blob z c level d).fields ≤ B + 32 := by
    unfold FileBlock.blob
    split
    · simp [Pb.Blob.fields, optF, cost]
    · cases c <;> simp only [Pb.Blob.fields, cost_append, cost_opt, Pb.BlobData.field, cost_one, body, Option.elim_some] <;> omega
  exact (enc_le (Pb.Blob.pre _) (by omega)).trans hc

theorem header_le (i : FileInfo) (h : infoWeight i + 1000 < 2 ^ 64) : (serializeHeader i).length ≤ infoWeight i + 256 := by
  have hb : ∀ m : Pb.HeaderBBox, (encFields m.fields).length ≤ 64 := by
    intro m
    have : cost m.fields = 64 := by simp [Pb.HeaderBBox.fields, cost, body]
    exact this ▸ enc_le (Pb.HeaderBBox.pre m) (by omega)
  have hc : cost (toHeaderBlock i).fields ≤ infoWeight i + 256 := by
    simp only [Pb.HeaderBlock.fields, toHeaderBlock, cost_append, cost_rep, cost_opt, body, strBytes_length, infoWeight]
    have h1 : ((i.bounding_box.map headerBBox).elim 0 fun x => 16 + (encFields x.fields).length) ≤ 80 := by
      cases i.bounding_box with
      | none => simp
      | some b => have := hb (headerBBox b); simp; omega
    have opt : ∀ o : Option String, (o.elim 0 fun x => 16 + x.utf8ByteSize) ≤ 16 + o.elim 0 String.utf8ByteSize := by
      intro o; cases o <;> simp
    have h2 := opt i.writingprogram
    have h3 := opt i.source
    have h4 := opt i.osmosis_replication_base_url
    have num : ∀ o : Option Int64, (o.elim 0 fun _ => 16 + 0) ≤ 16 := by intro o; cases o <;> simp
    have h5 := num i.osmosis_replication_timestamp
    have h6 := num i.osmosis_replication_sequence_number
    omega
  exact (enc_le (Pb.HeaderBlock.pre _) (by omega)).trans hc

end Size
end OsmIo
