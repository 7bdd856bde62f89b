import Verif.Spec.DamagedRow
import Verif.Props.ApidbRow
import Verif.Props.Refusals
/-!
# Damaged rows in a dump (C74)
-/
namespace OsmIo
open Text Sql Apidb Spec

theorem createUser_noErr (f : List Nat) (l : Text) : NoErr (createUser f l) := by
  unfold createUser
  split
  · repeat (first | exact noErr_ok _ | refine noErr_bind (noErr_unwrap _) fun _ => ?_)
  · exact noErr_panic

theorem createChangeset_noErr (f : List Nat) (l : Text) : NoErr (createChangeset f l) := by
  unfold createChangeset
  split
  · repeat (first | exact noErr_ok _ | refine noErr_bind (noErr_unwrap _) fun _ => ?_)
  · exact noErr_panic

theorem panic_of {α : Type} {x : Out α} (h : NoErr x) (h' : ∀ a, x ≠ .ok a) : x = .panic := by
  cases x with
  | ok a => exact absurd rfl (h' a)
  | err => exact absurd rfl h
  | panic => rfl

theorem parseI16_any {x : Text} {v : Int} (h : parseI16 x = some v) : AnyInt16 x := by
  unfold parseI16 at h
  cases hp : parseInt x with
  | none => simp [hp] at h
  | some n =>
    simp only [hp] at h
    split at h
    · rename_i hr
      exact ⟨n, hr.1, hr.2, parseInt_iff.1 hp⟩
    · cases h

theorem userStatus_any {x : Text} {v : Unit} (h : userStatusOk x = some v) :
    OneOf ["pending", "active", "confirmed", "suspended", "deleted"] x := by
  unfold userStatusOk at h
  split at h
  · rename_i hm
    simpa [OneOf] using hm
  · cases h

theorem format_any {x : Text} {v : Unit} (h : formatOk x = some v) : OneOf ["html", "markdown", "text"] x := by
  unfold formatOk at h
  split at h
  · rename_i hm
    simpa [OneOf] using hm
  · cases h

theorem not_bad {t : Table} {cols : List Text} {line : Text} (hbad : BadRow t cols line)
    (h : List.Forall (fun p => Has cols line p.1 p.2) (demands t)) : False := by
  obtain ⟨p, hp, hn⟩ := hbad
  exact hn (List.forall_iff_forall_mem.1 h p hp)

theorem any64 {x : Text} {v : Int64} (h : parseI64 x = some v) : AnyInt64 x := ⟨v, parseI64_iff.1 h⟩
theorem any32 {x : Text} {v : Int32} (h : parseI32 x = some v) : AnyInt32 x := ⟨v, parseI32_iff.1 h⟩
theorem anyBool {x : Text} {v : Bool} (h : parseSqlBool x = some v) : AnyBool x := ⟨v, parseSqlBool_iff.1 h⟩

/-- C74, nodes: no record is made of a damaged line, the program panics. -/
theorem C74_node (cols : List Text) (hn : cols.Nodup) (d : TableDef) (hd : TableDef.new .nodes cols = .ok d)
    (line : Text) (hbad : BadRow .nodes cols line) : createNode d.fields line = .panic := by
  refine panic_of (createNode_noErr _ _) fun r h => not_bad hbad ?_
  unfold createNode at h
  rcases columnsAt_cases line hn hd with e | ⟨vals, e, hf⟩
  · rw [e] at h; simp at h
  · rw [e] at h
    rcases hf with _ | ⟨c1, _ | ⟨c2, _ | ⟨c3, _ | ⟨c4, _ | ⟨c5, _ | ⟨c6, _ | ⟨c7, _ | ⟨c8, _ | ⟨c9, _ | _⟩⟩⟩⟩⟩⟩⟩⟩⟩
    simp only [Out.bind_eq_ok, unwrap_eq_ok, Out.pure_eq] at h
    obtain ⟨v1, h1, v2, h2, v3, h3, v4, h4, v5, h5, v6, h6, v7, h7, v8, h8, h⟩ := h
    exact ⟨⟨_, c1, any64 h1⟩, ⟨_, c2, any32 h2⟩, ⟨_, c3, any32 h3⟩, ⟨_, c4, any64 h4⟩,
      ⟨_, c5, anyBool h5⟩, ⟨_, c6, trivial⟩, ⟨_, c7, any64 h7⟩, ⟨_, c8, any64 h8⟩, ⟨_, c9, trivial⟩⟩

/-- C74, ways and relations. -/
theorem C74_object (t : Table) (ht : t = .ways ∨ t = .relations) (cols : List Text) (hn : cols.Nodup) (d : TableDef)
    (hd : TableDef.new t cols = .ok d) (line : Text) (hbad : BadRow t cols line) : createObject d.fields line = .panic := by
  refine panic_of (createObject_noErr _ _) fun r h => not_bad hbad ?_
  unfold createObject at h
  rcases columnsAt_cases line hn hd with e | ⟨vals, e, hf⟩
  · rw [e] at h; simp at h
  · rw [e] at h
    rcases ht with rfl | rfl <;>
    · rcases hf with _ | ⟨c1, _ | ⟨c2, _ | ⟨c3, _ | ⟨c4, _ | ⟨c5, _ | ⟨c6, _ | _⟩⟩⟩⟩⟩⟩
      simp only [Out.bind_eq_ok, unwrap_eq_ok, Out.pure_eq] at h
      obtain ⟨v1, h1, v2, h2, v3, h3, v4, h4, v5, h5, h⟩ := h
      exact ⟨⟨_, c1, any64 h1⟩, ⟨_, c2, any64 h2⟩, ⟨_, c3, trivial⟩, ⟨_, c4, any64 h4⟩, ⟨_, c5, anyBool h5⟩, ⟨_, c6, trivial⟩⟩

/-- C74, tags of nodes. -/
theorem C74_node_tag (z : Codec) (cols : List Text) (hn : cols.Nodup) (d : TableDef) (hd : TableDef.new .nodeTags cols = .ok d)
    (line : Text) (hbad : BadRow .nodeTags cols line) : createNodeTag z d.fields line = .panic := by
  refine panic_of (createNodeTag_noErr _ _ _) fun r h => not_bad hbad ?_
  obtain ⟨⟨_, c1, h1⟩, ⟨_, c2, h2⟩, ⟨_, c3, _⟩, ⟨_, c4, _⟩⟩ := ((C67_parts_accepted z cols hn d line).1 hd r).1 h
  exact ⟨⟨_, c1, _, h1⟩, ⟨_, c2, _, h2⟩, ⟨_, c3, trivial⟩, ⟨_, c4, trivial⟩⟩

/-- C74, tags of ways and relations. -/
theorem C74_object_tag (z : Codec) (t : Table) (ht : t = .wayTags ∨ t = .relationTags) (cols : List Text) (hn : cols.Nodup)
    (d : TableDef) (hd : TableDef.new t cols = .ok d) (line : Text) (hbad : BadRow t cols line) :
    createObjectTag z d.fields line = .panic := by
  refine panic_of (createObjectTag_noErr _ _ _) fun r h => not_bad hbad ?_
  rcases ht with rfl | rfl
  · obtain ⟨⟨_, c1, h1⟩, ⟨_, c2, h2⟩, ⟨_, c3, _⟩, ⟨_, c4, _⟩⟩ := ((C67_parts_accepted z cols hn d line).2.1 hd r).1 h
    exact ⟨⟨_, c1, _, h1⟩, ⟨_, c2, _, h2⟩, ⟨_, c3, trivial⟩, ⟨_, c4, trivial⟩⟩
  · obtain ⟨⟨_, c1, h1⟩, ⟨_, c2, h2⟩, ⟨_, c3, _⟩, ⟨_, c4, _⟩⟩ := ((C67_parts_accepted z cols hn d line).2.2.1 hd r).1 h
    exact ⟨⟨_, c1, _, h1⟩, ⟨_, c2, _, h2⟩, ⟨_, c3, trivial⟩, ⟨_, c4, trivial⟩⟩

/-- C74, nodes of ways. -/
theorem C74_way_node (cols : List Text) (hn : cols.Nodup) (d : TableDef) (hd : TableDef.new .wayNodes cols = .ok d)
    (line : Text) (hbad : BadRow .wayNodes cols line) : createWayNode d.fields line = .panic := by
  refine panic_of (createWayNode_noErr _ _) fun r h => not_bad hbad ?_
  obtain ⟨⟨_, c1, h1⟩, ⟨_, c2, h2⟩, ⟨_, c3, h3⟩, ⟨_, c4, h4⟩⟩ :=
    ((C67_parts_accepted ⟨String.toList, fun _ => none⟩ cols hn d line).2.2.2.1 hd r).1 h
  exact ⟨⟨_, c1, _, h1⟩, ⟨_, c2, _, h2⟩, ⟨_, c3, _, h3⟩, ⟨_, c4, _, h4⟩⟩

/-- C74, members of relations. -/
theorem C74_member (z : Codec) (cols : List Text) (hn : cols.Nodup) (d : TableDef) (hd : TableDef.new .relationMembers cols = .ok d)
    (line : Text) (hbad : BadRow .relationMembers cols line) : createMember z d.fields line = .panic := by
  refine panic_of (createMember_noErr _ _ _) fun r h => not_bad hbad ?_
  obtain ⟨⟨_, c1, h1⟩, ⟨_, c2, h2⟩, ⟨_, c3, h3⟩, ⟨_, c4, _⟩, ⟨_, c5, h5⟩, ⟨_, c6, h6⟩⟩ :=
    ((C67_parts_accepted z cols hn d line).2.2.2.2 hd r).1 h
  exact ⟨⟨_, c1, _, h1⟩, ⟨_, c2, _, h2⟩, ⟨_, c3, _, h3⟩, ⟨_, c4, trivial⟩, ⟨_, c5, _, h5⟩, ⟨_, c6, _, h6⟩⟩

/-- C74, changesets. -/
theorem C74_changeset (cols : List Text) (hn : cols.Nodup) (d : TableDef) (hd : TableDef.new .changesets cols = .ok d)
    (line : Text) (hbad : BadRow .changesets cols line) : createChangeset d.fields line = .panic := by
  refine panic_of (createChangeset_noErr _ _) fun r h => not_bad hbad ?_
  unfold createChangeset at h
  rcases columnsAt_cases line hn hd with e | ⟨vals, e, hf⟩
  · rw [e] at h; simp at h
  · rw [e] at h
    rcases hf with _ | ⟨c1, _ | ⟨c2, _ | ⟨c3, _ | ⟨c4, _ | ⟨c5, _ | ⟨c6, _ | ⟨c7, _ | ⟨c8, _ | ⟨c9, _ | _⟩⟩⟩⟩⟩⟩⟩⟩⟩
    simp only [Out.bind_eq_ok, unwrap_eq_ok, Out.pure_eq] at h
    obtain ⟨v1, h1, v2, h2, v3, h3, v4, h4, v5, h5, v6, h6, v7, h7, v8, h8, v9, h9, h⟩ := h
    exact ⟨⟨_, c1, any64 h1⟩, ⟨_, c2, any64 h2⟩, ⟨_, c3, trivial⟩, ⟨_, c4, any32 h4⟩, ⟨_, c5, any32 h5⟩, ⟨_, c6, any32 h6⟩,
      ⟨_, c7, any32 h7⟩, ⟨_, c8, trivial⟩, ⟨_, c9, any32 h9⟩⟩

/-- C74, users. -/
theorem C74_user (cols : List Text) (hn : cols.Nodup) (d : TableDef) (hd : TableDef.new .users cols = .ok d)
    (line : Text) (hbad : BadRow .users cols line) : createUser d.fields line = .panic := by
  refine panic_of (createUser_noErr _ _) fun r h => not_bad hbad ?_
  unfold createUser at h
  rcases columnsAt_cases line hn hd with e | ⟨vals, e, hf⟩
  · rw [e] at h; simp at h
  · rw [e] at h
    rcases hf with _ | ⟨c1, _ | ⟨c2, _ | ⟨c3, _ | ⟨c4, _ | ⟨c5, _ | ⟨c6, _ | ⟨c7, _ | ⟨c8, _ | ⟨c9, _ | ⟨c10, _ | ⟨c11, _ | ⟨c12,
      _ | ⟨c13, _ | ⟨c14, _ | ⟨c15, _ | ⟨c16, _ | ⟨c17, _ | ⟨c18, _ | ⟨c19, _ | ⟨c20, _ | ⟨c21, _ | ⟨c22, _ | ⟨c23, _ | ⟨c24,
      _ | ⟨c25, _ | ⟨c26, _ | ⟨c27, _ | ⟨c28, _ | ⟨c29, _ | _⟩⟩⟩⟩⟩⟩⟩⟩⟩⟩⟩⟩⟩⟩⟩⟩⟩⟩⟩⟩⟩⟩⟩⟩⟩⟩⟩⟩⟩
    simp only [Out.bind_eq_ok, unwrap_eq_ok, Out.pure_eq] at h
    obtain ⟨v1, h1, v2, h2, v3, h3, v4, h4, v5, h5, v6, h6, v7, h7, v8, h8, v9, h9, v10, h10, v11, h11, v12, h12, v13, h13, h⟩ := h
    exact ⟨⟨_, c2, any64 h1⟩, ⟨_, c4, trivial⟩, ⟨_, c5, trivial⟩, ⟨_, c6, anyBool h3⟩, ⟨_, c12, anyBool h5⟩, ⟨_, c18, anyBool h7⟩,
      ⟨_, c21, anyBool h8⟩, ⟨_, c26, anyBool h13⟩, ⟨_, c10, parseI16_any h4⟩, ⟨_, c16, userStatus_any h6⟩, ⟨_, c22, format_any h9⟩,
      ⟨_, c23, any32 h10⟩, ⟨_, c24, any32 h11⟩, ⟨_, c25, any32 h12⟩, ⟨_, c1, trivial⟩, ⟨_, c3, trivial⟩, ⟨_, c7, trivial⟩,
      ⟨_, c8, trivial⟩, ⟨_, c9, trivial⟩, ⟨_, c11, trivial⟩, ⟨_, c13, trivial⟩, ⟨_, c14, trivial⟩, ⟨_, c15, trivial⟩,
      ⟨_, c17, trivial⟩, ⟨_, c19, trivial⟩, ⟨_, c20, trivial⟩, ⟨_, c27, trivial⟩, ⟨_, c28, trivial⟩, ⟨_, c29, trivial⟩⟩

/-! ### Whole dumps -/

theorem stopLine_listed {l : Text} (h : l ≠ [] ∧ ¬ (['\\', '.'] <+: l)) : stopLine l = false := by
  unfold stopLine
  rw [Bool.or_eq_false_iff]
  refine ⟨?_, by simp [h.1]⟩
  cases hp : ['\\', '.'].isPrefixOf l with
  | false => rfl
  | true => exact absurd (List.isPrefixOf_iff_prefix.1 hp) h.2

theorem tableAll_bad {α : Type} {build : Text → Out α} (hb : ∀ l, NoErr (build l)) {ls : List Text} {l : Text} (hl : l ∈ ls)
    (hs : ∀ l ∈ ls, stopLine l = false) (hp : build l = .panic) : tableAll build ls = .panic := by
  induction ls with
  | nil => cases hl
  | cons a ls ih =>
    simp only [tableAll, hs a (by simp), Bool.false_eq_true, if_false]
    rcases List.mem_cons.1 hl with rfl | hl
    · rw [hp]; rfl
    · rw [ih hl fun l h => hs l (by simp [h])]
      cases hba : build a with
      | ok r => rfl
      | err => exact absurd hba (hb a)
      | panic => rfl

theorem tableAll_noErr {α : Type} {build : Text → Out α} (hb : ∀ l, NoErr (build l)) (ls : List Text) : NoErr (tableAll build ls) := by
  induction ls with
  | nil => exact noErr_ok _
  | cons a ls ih =>
    unfold tableAll
    split
    · exact noErr_ok _
    · exact noErr_bind (hb a) fun _ => noErr_bind ih fun _ => noErr_ok _

/-- C74. A dump in whose users or changesets a line is damaged cannot be opened for reading: a panic. -/
theorem C74_owner_row (t : Table) (ht : t = .users ∨ t = .changesets) (tables : Tables) (sorted : Table → Text) (cols : List Text)
    (hn : cols.Nodup) (d : TableDef) (f : Text) (hd : TableDef.new t cols = .ok d) (ht' : tables t = some (d, f)) (line : Text)
    (hl : Listed (sorted t) line) (hbad : BadRow t cols line) : ElementIterator.new tables sorted = .panic := by
  have hs := fun l h => stopLine_listed (hl.2 l h)
  rcases ht with rfl | rfl
  · simp only [ElementIterator.new, ht', unwrap_some, Out.ok_bind,
      tableAll_bad (createUser_noErr _) hl.1 hs (C74_user cols hn d hd line hbad)]
    rfl
  · unfold ElementIterator.new
    cases hu : tables .users with
    | none => rfl
    | some u =>
      obtain ⟨du, fu⟩ := u
      simp only [unwrap_some, Out.ok_bind]
      cases hr : tableAll (createUser du.fields) (lines (sorted .users)) with
      | err => exact absurd hr (tableAll_noErr (createUser_noErr _) _)
      | panic => rfl
      | ok us =>
        simp only [Out.ok_bind, ht', unwrap_some,
          tableAll_bad (createChangeset_noErr _) hl.1 hs (C74_changeset cols hn d hd line hbad)]
        rfl

/-- What an iteration that ends has built records of. -/
structure Built (it : ElementIterator) : Prop where
  nodes : it.state = .start ∨ it.state = .nodes → (∀ l ∈ it.nodes, stopLine l = false) →
    ∀ l ∈ it.nodes, ∃ r, createNode it.fields.nodes l = .ok r
  ways : it.state = .start ∨ it.state = .nodes ∨ it.state = .ways → (∀ l ∈ it.ways, stopLine l = false) →
    ∀ l ∈ it.ways, ∃ r, createObject it.fields.ways l = .ok r
  relations : it.state ≠ .finished → (∀ l ∈ it.relations, stopLine l = false) →
    ∀ l ∈ it.relations, ∃ r, createObject it.fields.relations l = .ok r

theorem built_none {α : Type} {build : Text → Out α} {ls rest : List Text} (h : tableNext build ls = .ok (none, rest))
    (hs : ∀ l ∈ ls, stopLine l = false) : ∀ l ∈ ls, ∃ r, build l = .ok r := by
  rcases tableNext_none h with rfl | ⟨l, h1, rfl⟩
  · simp
  · rw [hs l (by simp)] at h1; cases h1

theorem built_some {α : Type} {build : Text → Out α} {ls rest : List Text} {r : α} (h : tableNext build ls = .ok (some r, rest))
    (hs : ∀ l ∈ ls, stopLine l = false)
    (ih : (∀ l ∈ rest, stopLine l = false) → ∀ l ∈ rest, ∃ r, build l = .ok r) : ∀ l ∈ ls, ∃ r, build l = .ok r := by
  obtain ⟨l, h1, h2, rfl⟩ := tableNext_some h
  intro l' hl'
  rcases List.mem_cons.1 hl' with rfl | hl'
  · exact ⟨r, h2⟩
  · exact ih (fun l h => hs l (by simp [h])) l' hl'

theorem built_of_yields {z : Codec} {it s s' : ElementIterator} {es : List Element}
    (h : Yields (ElementIterator.next z) it es s) (h' : ElementIterator.next z s = .ok (none, s')) : Built it := by
  induction h with
  | nil s =>
    have h2 := (shape_of_yields (.nil s) h').2.2
    exact ⟨by simp [h2], by simp [h2], by simp [h2]⟩
  | @cons s t u a as h1 h2 ih =>
    have ih := ih h'
    unfold ElementIterator.next at h1
    cases hst : s.state <;> simp only [hst] at h1
    · rcases nextNode_inv h1 with ⟨_, _, hn, _, rfl⟩ | ⟨_, _, _, _, _, _, hn, _, _, _, rfl⟩
      · exact ⟨fun _ hs => built_none hn hs, fun _ => ih.ways (by simp), fun _ => ih.relations (by simp)⟩
      · exact ⟨fun _ hs => built_some hn hs (ih.nodes (by simp)), fun _ => ih.ways (by simp), fun _ => ih.relations (by simp)⟩
    · rcases nextNode_inv h1 with ⟨_, _, hn, _, rfl⟩ | ⟨_, _, _, _, _, _, hn, _, _, _, rfl⟩
      · exact ⟨fun _ hs => built_none hn hs, fun _ => ih.ways (by simp), fun _ => ih.relations (by simp)⟩
      · exact ⟨fun _ hs => built_some hn hs (ih.nodes (by simp [hst])), fun _ => ih.ways (by simp [hst]), fun _ => ih.relations (by simp [hst])⟩
    · rcases nextWay_inv h1 with ⟨_, _, _, hn, _, rfl⟩ | ⟨_, _, _, _, _, _, _, _, hn, _, _, rfl⟩
      · exact ⟨by simp [hst], fun _ hs => built_none hn hs, fun _ => ih.relations (by simp)⟩
      · exact ⟨by simp [hst], fun _ hs => built_some hn hs (ih.ways (by simp [hst])), fun _ => ih.relations (by simp [hst])⟩
    · rcases nextRelation_inv h1 with ⟨_, _, _, hn, _, rfl⟩ | ⟨_, _, _, _, _, _, _, _, hn, _, _, rfl⟩
      · exact ⟨by simp [hst], by simp [hst], fun _ hs => built_none hn hs⟩
      · exact ⟨by simp [hst], by simp [hst], fun _ hs => built_some hn hs (ih.relations (by simp [hst]))⟩
    · simp at h1

theorem new_fields {tables : Tables} {sorted : Table → Text} {it : ElementIterator} (h : ElementIterator.new tables sorted = .ok it) :
    (∃ d f, tables .nodes = some (d, f) ∧ it.fields.nodes = d.fields) ∧
    (∃ d f, tables .ways = some (d, f) ∧ it.fields.ways = d.fields) ∧
    (∃ d f, tables .relations = some (d, f) ∧ it.fields.relations = d.fields) := by
  have orErr : ∀ {α : Type} {o : Option α} {a : α}, Out.orErr o = .ok a ↔ o = some a := by
    intro α o a; cases o <;> simp [Out.orErr]
  unfold ElementIterator.new at h
  simp only [Out.bind_eq_ok, Prod.exists, Out.pure_eq, orErr] at h
  obtain ⟨_, _, _, _, _, _, _, _, _, _, d1, f1, h1, _, _, _, d2, f2, h2, _, _, _, _, _, _, d3, f3, h3, _, _, _, _, _, _, h⟩ := h
  injection h with h
  subst h
  exact ⟨⟨d1, f1, h1, rfl⟩, ⟨d2, f2, h2, rfl⟩, ⟨d3, f3, h3, rfl⟩⟩

/-- C74. Iteration over a dump in whose nodes, ways or relations a line is damaged panics after some elements, and does
not end in any other way. -/
theorem C74_object_row (z : Codec) (t : Table) (ht : t = .nodes ∨ t = .ways ∨ t = .relations) (tables : Tables)
    (sorted : Table → Text) (cols : List Text) (hn : cols.Nodup) (d : TableDef) (f : Text) (hd : TableDef.new t cols = .ok d)
    (ht' : tables t = some (d, f)) (line : Text) (hl : Listed (sorted t) line) (hbad : BadRow t cols line)
    (it : ElementIterator) (hit : ElementIterator.new tables sorted = .ok it) :
    (∃ es s, Yields (ElementIterator.next z) it es s ∧ ElementIterator.next z s = .panic) ∧
      ∀ es it', ¬ Iterates (ElementIterator.next z) it es it' := by
  have hs := fun l h => stopLine_listed (hl.2 l h)
  have hno : ∀ es it', ¬ Iterates (ElementIterator.next z) it es it' := by
    rintro es it' ⟨s, hy, hend⟩
    have hb := built_of_yields hy hend
    obtain ⟨h0, h1, h2, h3⟩ := new_start hit
    obtain ⟨⟨d1, f1, k1, e1⟩, ⟨d2, f2, k2, e2⟩, ⟨d3, f3, k3, e3⟩⟩ := new_fields hit
    rcases ht with rfl | rfl | rfl
    · rw [k1] at ht'; injection ht' with ht'; injection ht' with ht' _; subst ht'
      obtain ⟨r, hr⟩ := hb.nodes (.inl h0) (by rwa [h1]) line (by rw [h1]; exact hl.1)
      rw [e1, C74_node cols hn d1 hd line hbad] at hr
      cases hr
    · rw [k2] at ht'; injection ht' with ht'; injection ht' with ht' _; subst ht'
      obtain ⟨r, hr⟩ := hb.ways (.inl h0) (by rwa [h2]) line (by rw [h2]; exact hl.1)
      rw [e2, C74_object _ (.inl rfl) cols hn d2 hd line hbad] at hr
      cases hr
    · rw [k3] at ht'; injection ht' with ht'; injection ht' with ht' _; subst ht'
      obtain ⟨r, hr⟩ := hb.relations (by simp [h0]) (by rwa [h3]) line (by rw [h3]; exact hl.1)
      rw [e3, C74_object _ (.inr rfl) cols hn d3 hd line hbad] at hr
      cases hr
  refine ⟨?_, hno⟩
  obtain ⟨es, -, ⟨it', h⟩ | ⟨s, h⟩⟩ := C45_ends z tables sorted it hit
  · exact absurd h (hno es it')
  · exact ⟨es, s, h⟩

/-- C74. `apidb-to-pbf` on a dump that has all its tables, with a damaged line in one of these five, panics: it never
reports success. -/
theorem C74_program (z : Zlib) (cod : Codec) (t : Table) (ht : t ∈ [Table.users, .changesets, .nodes, .ways, .relations])
    (tables : Tables) (hall : ∀ t ∈ usedTables, ∃ d f, tables t = some (d, f)) (sorted : Table → Text) (cols : List Text)
    (hn : cols.Nodup) (d : TableDef) (f : Text) (hd : TableDef.new t cols = .ok d)
    (ht' : tables t = some (d, f)) (line : Text) (hl : Listed (sorted t) line) (hbad : BadRow t cols line)
    (info : FileInfo) (c : CompressionType) (r : Out Bytes) : ApidbToPbf z cod tables sorted info c r ↔ r = .panic := by
  suffices h : ∀ r, ApidbToPbf z cod tables sorted info c r → r = .panic by
    obtain ⟨r', hr', -⟩ := C63_total z cod tables sorted info c
    refine ⟨h r, ?_⟩
    rintro rfl
    rwa [← h r' hr']
  intro r
  unfold ApidbToPbf
  cases hit : ElementIterator.new tables sorted with
  | err =>
    obtain ⟨_, _, e1⟩ := hall .users (by decide)
    obtain ⟨_, _, e2⟩ := hall .changesets (by decide)
    obtain ⟨_, _, e3⟩ := hall .nodes (by decide)
    obtain ⟨_, _, e4⟩ := hall .nodeTags (by decide)
    obtain ⟨_, _, e5⟩ := hall .ways (by decide)
    obtain ⟨_, _, e6⟩ := hall .wayNodes (by decide)
    obtain ⟨_, _, e7⟩ := hall .wayTags (by decide)
    obtain ⟨_, _, e8⟩ := hall .relations (by decide)
    obtain ⟨_, _, e9⟩ := hall .relationMembers (by decide)
    obtain ⟨_, _, e10⟩ := hall .relationTags (by decide)
    refine absurd hit ?_
    unfold ElementIterator.new
    rw [e1, e2, e3, e4, e5, e6, e7, e8, e9, e10]
    exact noErr_bind (noErr_ok _) fun _ => noErr_bind (tableAll_noErr (createUser_noErr _) _) fun _ =>
      noErr_bind (noErr_ok _) fun _ => noErr_bind (tableAll_noErr (createChangeset_noErr _) _) fun _ => noErr_ok _
  | panic => exact fun h => h
  | ok it =>
    simp only [List.mem_cons, List.not_mem_nil, or_false] at ht
    have key : t = .users ∨ t = .changesets → False := fun ht => by
      rw [C74_owner_row t ht tables sorted cols hn d f hd ht' line hl hbad] at hit; cases hit
    have ht : t = .nodes ∨ t = .ways ∨ t = .relations := by tauto
    rintro (⟨es, it', h, _⟩ | ⟨_, _, _, _, rfl⟩)
    · exact absurd h ((C74_object_row cod t ht tables sorted cols hn d f hd ht' line hl hbad it hit).2 _ _)
    · rfl

/-- A line of `nodes` with a latitude that is not a number, and one that is cut after the third column. -/
example : BadRow .nodes (requiredColumns .nodes) "1\tx\t0\t7\tt\t2000-01-01 00:00:00\t1\t3\t\\N".toList ∧
    BadRow .nodes (requiredColumns .nodes) "1\t2\t3".toList := by
  refine ⟨⟨("latitude", AnyInt32), by simp [demands], ?_⟩, ⟨("version", AnyInt64), by simp [demands], ?_⟩⟩
  · rintro ⟨x, hc, v, hx⟩
    have : x = ['x'] := by
      simp only [Cell] at hc
      have key : ∀ p ∈ (requiredColumns .nodes).zip (split '\t' "1\tx\t0\t7\tt\t2000-01-01 00:00:00\t1\t3\t\\N".toList),
        p.1 = "latitude".toList → p.2 = ['x'] := by decide +kernel
      exact key _ hc rfl
    subst this
    have : parseI32 ['x'] = some v := parseI32_iff.2 hx
    have e : parseI32 ['x'] = none := by decide +kernel
    rw [e] at this; cases this
  · rintro ⟨x, hc, _⟩
    simp only [Cell] at hc
    have key : ∀ p ∈ (requiredColumns .nodes).zip (split '\t' "1\t2\t3".toList), p.1 ≠ "version".toList := by decide +kernel
    exact key _ hc rfl

/-- Such a line in a table. -/
example : Listed "1\t2\t3\n7\tx\n".toList "1\t2\t3".toList := by
  have : lines "1\t2\t3\n7\tx\n".toList = ["1\t2\t3".toList, "7\tx".toList] := by decide +kernel
  refine ⟨by rw [this]; simp, ?_⟩
  rw [this]
  decide +kernel

/-- `C74_program` on the dump of `C67` with a damaged line in the ways. -/
example (info : FileInfo) (c : CompressionType) : ApidbToPbf exZ RowExample.z RowExample.tables
    (fun t => if t = .ways then "1\tx\n".toList else RowExample.sorted t) info c .panic := by
  have hl : lines "1\tx\n".toList = ["1\tx".toList] := by decide +kernel
  obtain ⟨d, hd⟩ : ∃ d, TableDef.new .ways (requiredColumns .ways) = .ok d := ⟨⟨[0, 1, 2, 3, 4, 5], [(1, .integer), (4, .integer)]⟩, by decide +kernel⟩
  refine (C74_program exZ RowExample.z .ways (by simp) RowExample.tables ?_ _ (requiredColumns .ways) (by decide +kernel) d
    "1.dat".toList hd ?_ "1\tx".toList ?_ ⟨("version", AnyInt64), by simp [demands], ?_⟩ info c .panic).2 rfl
  · have key : ∀ t ∈ usedTables, (RowExample.tables t).isSome = true := by decide +kernel
    intro t ht
    obtain ⟨⟨d, f⟩, h⟩ := Option.isSome_iff_exists.1 (key t ht)
    exact ⟨d, f, h⟩
  · show (match TableDef.new .ways (requiredColumns .ways) with | .ok d => some (d, "1.dat".toList) | _ => none) = _
    rw [hd]
  · refine ⟨?_, ?_⟩ <;> rw [if_pos rfl, hl]
    · simp
    · decide +kernel
  · rintro ⟨x, hc, _⟩
    simp only [Cell] at hc
    have key : ∀ p ∈ (requiredColumns .ways).zip (split '\t' "1\tx".toList), p.1 ≠ "version".toList := by decide +kernel
    exact key _ hc rfl

end OsmIo
