import Verif.Spec.ApidbColumns
import Verif.Props.ApidbReader
import Mathlib.Data.List.Perm.Subperm
/-!
# The order of columns in a dump (C49)
-/
namespace OsmIo
open Text Sql Apidb Spec

theorem fieldIndex_some {v : Text} {cols : List Text} {i : Nat} (h : fieldIndex v cols = some i) : cols[i]? = some v := by
  unfold fieldIndex at h
  rw [List.findIdx?_eq_some_iff_getElem] at h
  obtain ⟨hi, h1, _⟩ := h
  simp at h1
  rw [List.getElem?_eq_getElem hi, h1]

theorem fieldIndex_isSome {v : Text} {cols : List Text} : (fieldIndex v cols).isSome ↔ v ∈ cols := by
  unfold fieldIndex
  rw [List.findIdx?_isSome]
  simp

/-- The value of a named column. -/
theorem column_value {v x : Text} {cols vals : List Text} {i : Nat} (hn : cols.Nodup)
    (h : fieldIndex v cols = some i) : vals[i]? = some x ↔ (v, x) ∈ cols.zip vals := by
  have hi := fieldIndex_some h
  obtain ⟨hlt, he⟩ := List.getElem?_eq_some_iff.1 hi
  constructor
  · intro hx
    have : (cols.zip vals)[i]? = some (v, x) := by
      rw [List.getElem?_zip_eq_some]
      exact ⟨hi, hx⟩
    exact List.mem_of_getElem? this
  · intro hm
    obtain ⟨j, hj⟩ := List.mem_iff_getElem?.1 hm
    rw [List.getElem?_zip_eq_some] at hj
    have : j = i := by
      have h1 := hj.1
      obtain ⟨hjl, hje⟩ := List.getElem?_eq_some_iff.1 h1
      exact (List.getElem_inj hn).1 (hje.trans he.symm)
    rw [this] at hj
    exact hj.2

theorem same_value {v : Text} {cols cols' vals vals' : List Text} {i i' : Nat} (hn : cols.Nodup) (hn' : cols'.Nodup)
    (hp : (cols.zip vals).Perm (cols'.zip vals'))
    (h : fieldIndex v cols = some i) (h' : fieldIndex v cols' = some i') : vals[i]? = vals'[i']? := by
  apply Option.ext
  intro x
  rw [column_value hn h, column_value hn' h']
  exact hp.mem_iff

theorem allSome_isSome {α β : Type} {f : α → Option β} {l : List α} : (allSome f l).isSome ↔ ∀ a ∈ l, (f a).isSome := by
  induction l with
  | nil => simp [allSome]
  | cons a l ih =>
    simp only [allSome, List.forall_mem_cons, ← ih]
    cases f a <;> cases allSome f l <;> simp

theorem allSome_forall₂ {α β : Type} {f : α → Option β} {l : List α} {bs : List β} (h : allSome f l = some bs) :
    List.Forall₂ (fun a b => f a = some b) l bs := by
  induction l generalizing bs with
  | nil => simp [allSome] at h; subst h; exact .nil
  | cons a l ih =>
    simp only [allSome] at h
    cases h1 : f a with
    | none => simp [h1] at h
    | some b =>
      cases h2 : allSome f l with
      | none => simp [h1, h2] at h
      | some cs =>
        simp [h1, h2] at h
        subst h
        exact .cons h1 (ih h2)

theorem allSome_congr {α β γ : Type} {f : β → Option α} {g : γ → Option α} {l : List β} {m : List γ}
    (h : List.Forall₂ (fun b c => f b = g c) l m) : allSome f l = allSome g m := by
  induction h with
  | nil => rfl
  | cons h _ ih => simp only [allSome, h, ih]

/-- What a successful definition is. -/
theorem new_ok {t : Table} {cols : List Text} {d : TableDef} (h : TableDef.new t cols = .ok d) :
    List.Forall₂ (fun v i => fieldIndex v cols = some i) (requiredColumns t) d.fields ∧
    List.Forall₂ (fun p k => fieldIndex p.1 cols = some (k.1 - 1) ∧ 1 ≤ k.1 ∧ k.2 = p.2) (primaryKey t) d.key := by
  unfold TableDef.new at h
  obtain ⟨f, h1, h⟩ := Out.bind_eq_ok.1 h
  obtain ⟨k, h2, h⟩ := Out.bind_eq_ok.1 h
  simp only [Out.pure_eq] at h
  injection h with h; subst h
  have e1 : allSome (fun v => fieldIndex v cols) (requiredColumns t) = some f := by
    cases hx : allSome (fun v => fieldIndex v cols) (requiredColumns t) with
    | none => rw [hx] at h1; cases h1
    | some g => rw [hx] at h1; injection h1 with h1; rw [h1]
  have e2 : allSome (fun p => (keyIndex p.1 cols).map (fun i => (i, p.2))) (primaryKey t) = some k := by
    cases hx : allSome (fun p : Text × FieldType => (keyIndex p.1 cols).map (fun i => (i, p.2))) (primaryKey t) with
    | none => rw [hx] at h2; cases h2
    | some g => rw [hx] at h2; injection h2 with h2; rw [h2]
  refine ⟨allSome_forall₂ e1, (allSome_forall₂ e2).imp ?_⟩
  rintro p ⟨i, ty⟩ h
  unfold keyIndex at h
  cases hx : fieldIndex p.1 cols with
  | none => rw [hx] at h; cases h
  | some j =>
    rw [hx] at h
    simp at h
    obtain ⟨rfl, rfl⟩ := h
    simp

/-- C49: whether a table is accepted does not depend on the order of its columns. -/
theorem C49_accepted (t : Table) (cols cols' : List Text) (h : cols'.Perm cols) :
    (∃ d, TableDef.new t cols = .ok d) ↔ ∃ d, TableDef.new t cols' = .ok d := by
  have key : ∀ cols : List Text, (∃ d, TableDef.new t cols = .ok d) ↔
      (∀ v ∈ requiredColumns t, v ∈ cols) ∧ ∀ p ∈ primaryKey t, p.1 ∈ cols := by
    intro cols
    have e1 : (allSome (fun v => fieldIndex v cols) (requiredColumns t)).isSome ↔ ∀ v ∈ requiredColumns t, v ∈ cols := by
      rw [allSome_isSome]; exact forall₂_congr fun v _ => fieldIndex_isSome
    have e2 : (allSome (fun p : Text × FieldType => (keyIndex p.1 cols).map (fun i => (i, p.2))) (primaryKey t)).isSome ↔
        ∀ p ∈ primaryKey t, p.1 ∈ cols := by
      rw [allSome_isSome]
      refine forall₂_congr fun v _ => ?_
      simp only [Option.isSome_map, keyIndex]
      exact fieldIndex_isSome
    rw [← e1, ← e2]
    unfold TableDef.new
    cases allSome (fun v => fieldIndex v cols) (requiredColumns t) <;>
      cases allSome (fun p : Text × FieldType => (keyIndex p.1 cols).map (fun i => (i, p.2))) (primaryKey t) <;>
      simp [Out.orErr, Bind.bind, Pure.pure, Out.bind]
  rw [key, key]
  simp only [h.mem_iff]

/-- The required columns of a line. -/
theorem same_columns {t : Table} {cols cols' : List Text} {d d' : TableDef} {l l' : Text} (hn : cols.Nodup)
    (hp : cols'.Perm cols) (hd : TableDef.new t cols = .ok d) (hd' : TableDef.new t cols' = .ok d')
    (h : SameRow cols cols' l l') :
    columnsAt (split '\t' l) d.fields = columnsAt (split '\t' l') d'.fields := by
  unfold columnsAt
  congr 1
  apply allSome_congr
  have h1 := (new_ok hd).1
  have h2 := (new_ok hd').1
  generalize d.fields = fs at h1 ⊢
  generalize d'.fields = fs' at h2 ⊢
  generalize requiredColumns t = vs at h1 h2
  induction h1 generalizing fs' with
  | nil => cases h2; exact .nil
  | cons h1 _ ih =>
    cases h2 with
    | cons h2 hr =>
      exact .cons (same_value hn (hp.nodup_iff.2 hn) h.values h1 h2) (ih _ hr)

/-- C49: a row is read by column names: whatever the order of the columns, the same record is made of it,
for each table. -/
theorem C49_records (z : Codec) (cols cols' : List Text) (hn : cols.Nodup) (hp : cols'.Perm cols) (t : Table)
    (d d' : TableDef) (hd : TableDef.new t cols = .ok d) (hd' : TableDef.new t cols' = .ok d') (l l' : Text)
    (h : SameRow cols cols' l l') :
    createNode d.fields l = createNode d'.fields l' ∧ createNodeTag z d.fields l = createNodeTag z d'.fields l' ∧
    createObject d.fields l = createObject d'.fields l' ∧ createWayNode d.fields l = createWayNode d'.fields l' ∧
    createObjectTag z d.fields l = createObjectTag z d'.fields l' ∧
    createMember z d.fields l = createMember z d'.fields l' ∧
    createChangeset d.fields l = createChangeset d'.fields l' ∧ createUser d.fields l = createUser d'.fields l' := by
  have e := same_columns hn hp hd hd' h
  refine ⟨?_, ?_, ?_, ?_, ?_, ?_, ?_, ?_⟩
  · unfold createNode; rw [e]
  · unfold createNodeTag; rw [e]
  · unfold createObject; rw [e]
  · unfold createWayNode; rw [e]
  · unfold createObjectTag; rw [e]
  · unfold createMember; rw [e]
  · unfold createChangeset; rw [e]
  · unfold createUser; rw [e]

/-- C49: two rows are sorted by column names: their order does not depend on the order of the columns. -/
theorem C49_order (le : Text → Text → Prop) (cols cols' : List Text) (hn : cols.Nodup) (hp : cols'.Perm cols) (t : Table)
    (d d' : TableDef) (hd : TableDef.new t cols = .ok d) (hd' : TableDef.new t cols' = .ok d') (l l' m m' : Text)
    (h : SameRow cols cols' l l') (hm : SameRow cols cols' m m') : lineLe le d.key l m ↔ lineLe le d'.key l' m' := by
  have h1 := (new_ok hd).2
  have h2 := (new_ok hd').2
  generalize d.key = ks at h1 ⊢
  generalize d'.key = ks' at h2 ⊢
  generalize primaryKey t = vs at h1 h2
  induction h1 generalizing ks' with
  | nil => cases h2; rfl
  | @cons p k ps ks h1 _ ih =>
    cases h2 with
    | @cons _ k' _ ks' h2 hr =>
      have ih := ih _ hr
      obtain ⟨i, ty⟩ := k
      obtain ⟨i', ty'⟩ := k'
      obtain ⟨a1, a2, a3⟩ := h1
      obtain ⟨b1, b2, b3⟩ := h2
      simp only at a1 a2 a3 b1 b2 b3
      subst a3 b3
      have c1 : column l i = column l' i' := by
        unfold column
        rw [same_value hn (hp.nodup_iff.2 hn) h.values a1 b1]
      have c2 : column m i = column m' i' := by
        unfold column
        rw [same_value hn (hp.nodup_iff.2 hn) hm.values a1 b1]
      cases hty : p.2 with
      | integer => simp only [lineLe, c1, c2, ih]
      | string => simp only [lineLe, c1, c2, ih]


/-- The records of a table. -/
theorem same_holds {α : Type} {build build' : Text → Out α} {cols cols' : List Text} {text text' : Text} {rs : List α}
    (hb : ∀ l l', SameRow cols cols' l l' → build l = build' l') (h2 : 2 ≤ cols'.length)
    (h : List.Forall₂ (SameRow cols cols') (lines text) (lines text')) (hh : Holds build text rs) : Holds build' text' rs := by
  unfold Holds at hh ⊢
  generalize lines text = ls at h hh
  generalize lines text' = ls' at h
  induction h generalizing rs with
  | nil => cases hh; exact .nil
  | @cons l l' _ _ h _ ih =>
    cases hh with
    | cons hh hr =>
      refine .cons ⟨?_, h.stop', (hb _ _ h) ▸ hh.2.2⟩ (ih hr)
      intro he
      have := h.length'
      rw [he] at this
      have e : (split '\t' ([] : Text)).length = 1 := rfl
      omega

theorem columns_two {t : Table} {cols : List Text} {d : TableDef} (h : TableDef.new t cols = .ok d)
    (ht : t ∈ [Table.nodes, .nodeTags, .ways, .wayNodes, .wayTags, .relations, .relationMembers, .relationTags, .changesets, .users]) :
    2 ≤ cols.length := by
  have h1 := (new_ok h).1
  have hm : ∀ v ∈ requiredColumns t, v ∈ cols := by
    intro v hv
    obtain ⟨i, hi⟩ : ∃ i, fieldIndex v cols = some i := by
      clear ht
      generalize d.fields = fs at h1
      generalize requiredColumns t = vs at h1 hv
      induction h1 with
      | nil => simp at hv
      | cons h _ ih =>
        rcases List.mem_cons.1 hv with rfl | hv
        · exact ⟨_, h⟩
        · exact ih hv
    exact fieldIndex_isSome.1 (by rw [hi]; rfl)
  have hd : (requiredColumns t).Nodup ∧ 2 ≤ (requiredColumns t).length := by
    simp only [List.mem_cons, List.not_mem_nil, or_false] at ht
    rcases ht with rfl | rfl | rfl | rfl | rfl | rfl | rfl | rfl | rfl | rfl <;> decide +kernel
  exact hd.2.trans (List.Nodup.subperm hd.1 hm).length_le

/-- C49, whole dumps: a dump whose tables have their columns in another order holds the same records. -/
theorem C49_content (z : Codec) (columns columns' : Table → List Text) (tables tables' : Tables)
    (sorted sorted' : Table → Text) (hs : SameDump columns columns' sorted sorted') (hc : defines columns tables)
    (hc' : defines columns' tables') (hsome : ∀ t, (tables t).isSome → (tables' t).isSome)
    (c : Content) (h : c.ReadFrom z tables sorted) : c.ReadFrom z tables' sorted' := by
  have step : ∀ {α : Type} (build : List Nat → Text → Out α) (t : Table) (rs : List α),
      t ∈ [Table.nodes, .nodeTags, .ways, .wayNodes, .wayTags, .relations, .relationMembers, .relationTags, .changesets, .users] →
      (∀ (fields fields' : List Nat) (l l' : Text),
        columnsAt (split '\t' l) fields = columnsAt (split '\t' l') fields' → build fields l = build fields' l') →
      (∃ d f, tables t = some (d, f) ∧ Holds (build d.fields) (sorted t) rs) →
      ∃ d f, tables' t = some (d, f) ∧ Holds (build d.fields) (sorted' t) rs := by
    intro α build t rs ht hb ⟨d, f, e, hh⟩
    have := hsome t (by rw [e]; rfl)
    obtain ⟨⟨d', f'⟩, e'⟩ := Option.isSome_iff_exists.1 this
    obtain ⟨hn, hp, hr⟩ := hs t
    have hd := hc t d f e
    have hd' := hc' t d' f' e'
    refine ⟨d', f', e', same_holds ?_ (columns_two hd' ht) hr hh⟩
    intro l l' hl
    exact hb _ _ _ _ (same_columns hn hp hd hd' hl)
  refine ⟨step createUser .users _ (by decide) ?_ h.users, step createChangeset .changesets _ (by decide) ?_ h.changesets,
    step createNode .nodes _ (by decide) ?_ h.nodes, step (createNodeTag z) .nodeTags _ (by decide) ?_ h.nodeTags,
    step createObject .ways _ (by decide) ?_ h.ways, step createWayNode .wayNodes _ (by decide) ?_ h.wayNodes,
    step (createObjectTag z) .wayTags _ (by decide) ?_ h.wayTags, step createObject .relations _ (by decide) ?_ h.relations,
    step (createMember z) .relationMembers _ (by decide) ?_ h.relationMembers,
    step (createObjectTag z) .relationTags _ (by decide) ?_ h.relationTags⟩ <;> intro f f' l l' e
  · unfold createUser; rw [e]
  · unfold createChangeset; rw [e]
  · unfold createNode; rw [e]
  · unfold createNodeTag; rw [e]
  · unfold createObject; rw [e]
  · unfold createWayNode; rw [e]
  · unfold createObjectTag; rw [e]
  · unfold createObject; rw [e]
  · unfold createMember; rw [e]
  · unfold createObjectTag; rw [e]

/-- C49: iterating over a well-formed dump yields the same elements whatever the order of its columns. -/
theorem C49_elements (z : Codec) (columns columns' : Table → List Text) (tables tables' : Tables)
    (sorted sorted' : Table → Text) (hs : SameDump columns columns' sorted sorted') (hc : defines columns tables)
    (hc' : defines columns' tables') (hsome : ∀ t, (tables t).isSome → (tables' t).isSome)
    (c : Content) (h : c.ReadFrom z tables sorted) (hwf : c.WellFormed)
    (ns : List Node) (ws : List Way) (rs : List Relation) (hel : c.Elements ns ws rs) :
    (∃ it it', ElementIterator.new tables sorted = .ok it ∧
      Iterates (ElementIterator.next z) it (withSentinels ns ws rs) it') ∧
    (∃ it it', ElementIterator.new tables' sorted' = .ok it ∧
      Iterates (ElementIterator.next z) it (withSentinels ns ws rs) it') := by
  obtain ⟨a, b, h1, h2, _⟩ := C43_elements z tables sorted c h hwf ns ws rs hel
  obtain ⟨a', b', h1', h2', _⟩ := C43_elements z tables' sorted' c
    (C49_content z columns columns' tables tables' sorted sorted' hs hc hc' hsome c h) hwf ns ws rs hel
  exact ⟨⟨a, b, h1, h2⟩, ⟨a', b', h1', h2'⟩⟩

/-- A row of `node_tags` with its columns in two orders. -/
example : SameRow ["node_id".toList, "version".toList, "k".toList, "v".toList]
    ["v".toList, "node_id".toList, "k".toList, "version".toList]
    "1\t2\tname\tx y".toList "x y\t1\tname\t2".toList :=
  ⟨by decide +kernel, by decide +kernel, by decide +kernel, by decide +kernel, by decide +kernel⟩

example : createNodeTag ⟨fun s => s.toList, fun t => some (String.ofList t)⟩ [1, 3, 2, 0] "x y\t1\tname\t2".toList =
    .ok ⟨1, 2, "name", "x y"⟩ := by decide +kernel

example : ∃ d, TableDef.new .nodeTags ["v".toList, "node_id".toList, "k".toList, "version".toList] = .ok d ∧
    d.fields = [1, 3, 2, 0] := ⟨_, rfl, rfl⟩

end OsmIo
