import Verif.Lemmas.ApidbRow
import Verif.Props.Calendar
/-!
# Rows of a dump by the names of their columns (C67)
-/
namespace OsmIo
open Text Sql Apidb Spec

theorem unwrap_some {α : Type} (a : α) : Out.unwrap (some a) = .ok a := rfl
theorem unwrap_none {α : Type} : Out.unwrap (none : Option α) = .panic := rfl

/-- C67, nodes. -/
theorem C67_node (cols : List Text) (hn : cols.Nodup) (d : TableDef) (hd : TableDef.new .nodes cols = .ok d)
    (line : Text) (r : NodeRecord) (h : NodeRow cols line r) : createNode d.fields line = .ok r := by
  obtain ⟨⟨a, ca, ha⟩, ⟨b, cb, hb⟩, ⟨c, cc, hc⟩, ⟨e, ce, he⟩, ⟨f, cf, hf⟩, ⟨g, cg, hg⟩, ⟨i, ci, hi⟩, ⟨j, cj, hj⟩, ⟨k, ck, hk⟩⟩ := h
  have e1 : columnsAt (split '\t' line) d.fields = .ok [a, b, c, e, f, g, i, j, k] :=
    columnsAt_of hn hd (.cons ca (.cons cb (.cons cc (.cons ce (.cons cf (.cons cg (.cons ci (.cons cj (.cons ck .nil)))))))))
  unfold createNode
  rw [e1]
  simp only [parseI64_iff.2 ha, parseI32_iff.2 hb, parseI32_iff.2 hc, parseI64_iff.2 he, parseSqlBool_iff.2 hf,
    parse_timeText hg, parseI64_iff.2 hi, parseI64_iff.2 hj, parseI32_optional.2 hk, unwrap_some]
  rfl

/-- C67, ways. -/
theorem C67_way (cols : List Text) (hn : cols.Nodup) (d : TableDef) (hd : TableDef.new .ways cols = .ok d)
    (line : Text) (r : ObjectRecord) (h : ObjectRow "way_id" cols line r) : createObject d.fields line = .ok r := by
  obtain ⟨⟨a, ca, ha⟩, ⟨b, cb, hb⟩, ⟨c, cc, hc⟩, ⟨e, ce, he⟩, ⟨f, cf, hf⟩, ⟨g, cg, hg⟩⟩ := h
  have e1 : columnsAt (split '\t' line) d.fields = .ok [a, b, c, e, f, g] :=
    columnsAt_of hn hd (.cons ca (.cons cb (.cons cc (.cons ce (.cons cf (.cons cg .nil))))))
  unfold createObject
  rw [e1]
  simp only [parseI64_iff.2 ha, parseI64_iff.2 hb, parse_timeText hc, parseI64_iff.2 he, parseSqlBool_iff.2 hf,
    parseI32_optional.2 hg, unwrap_some]
  rfl

/-- C67, relations. -/
theorem C67_relation (cols : List Text) (hn : cols.Nodup) (d : TableDef) (hd : TableDef.new .relations cols = .ok d)
    (line : Text) (r : ObjectRecord) (h : ObjectRow "relation_id" cols line r) : createObject d.fields line = .ok r := by
  obtain ⟨⟨a, ca, ha⟩, ⟨b, cb, hb⟩, ⟨c, cc, hc⟩, ⟨e, ce, he⟩, ⟨f, cf, hf⟩, ⟨g, cg, hg⟩⟩ := h
  have e1 : columnsAt (split '\t' line) d.fields = .ok [a, b, c, e, f, g] :=
    columnsAt_of hn hd (.cons ca (.cons cb (.cons cc (.cons ce (.cons cf (.cons cg .nil))))))
  unfold createObject
  rw [e1]
  simp only [parseI64_iff.2 ha, parseI64_iff.2 hb, parse_timeText hc, parseI64_iff.2 he, parseSqlBool_iff.2 hf,
    parseI32_optional.2 hg, unwrap_some]
  rfl

/-- C67, tags of nodes. -/
theorem C67_node_tag (z : Codec) (cols : List Text) (hn : cols.Nodup) (d : TableDef)
    (hd : TableDef.new .nodeTags cols = .ok d) (line : Text) (r : TagRecord) (h : TagRow z "node_id" cols line r) :
    createNodeTag z d.fields line = .ok r := by
  obtain ⟨⟨a, ca, ha⟩, ⟨b, cb, hb⟩, ⟨c, cc, hc⟩, ⟨e, ce, he⟩⟩ := h
  have e1 : columnsAt (split '\t' line) d.fields = .ok [a, b, c, e] :=
    columnsAt_of hn hd (.cons ca (.cons cb (.cons cc (.cons ce .nil))))
  unfold createNodeTag
  rw [e1]
  simp only [parseI64_iff.2 ha, parseI64_iff.2 hb, unescapeOr_iff.2 hc, unescapeOr_iff.2 he, unwrap_some]
  rfl

/-- C67, tags of ways and relations. -/
theorem C67_object_tag (z : Codec) (cols : List Text) (hn : cols.Nodup) (d : TableDef) (line : Text) (r : TagRecord)
    (h : (TableDef.new .wayTags cols = .ok d ∧ TagRow z "way_id" cols line r) ∨
      (TableDef.new .relationTags cols = .ok d ∧ TagRow z "relation_id" cols line r)) :
    createObjectTag z d.fields line = .ok r := by
  have key : ∀ (a b c e : Text), columnsAt (split '\t' line) d.fields = .ok [a, c, e, b] → IntText a r.id.toInt →
      IntText b r.version.toInt → StringText z c r.k → StringText z e r.v → createObjectTag z d.fields line = .ok r := by
    intro a b c e e1 ha hb hc he
    unfold createObjectTag
    rw [e1]
    simp only [parseI64_iff.2 ha, parseI64_iff.2 hb, unescapeOr_iff.2 hc, unescapeOr_iff.2 he, unwrap_some]
    rfl
  rcases h with ⟨hd, h⟩ | ⟨hd, h⟩ <;>
    obtain ⟨⟨a, ca, ha⟩, ⟨b, cb, hb⟩, ⟨c, cc, hc⟩, ⟨e, ce, he⟩⟩ := h <;>
    exact key a b c e (columnsAt_of hn hd (.cons ca (.cons cc (.cons ce (.cons cb .nil))))) ha hb hc he

/-- C67, nodes of ways. -/
theorem C67_way_node (cols : List Text) (hn : cols.Nodup) (d : TableDef) (hd : TableDef.new .wayNodes cols = .ok d)
    (line : Text) (r : WayNodeRecord) (h : WayNodeRow cols line r) : createWayNode d.fields line = .ok r := by
  obtain ⟨⟨a, ca, ha⟩, ⟨b, cb, hb⟩, ⟨c, cc, hc⟩, ⟨e, ce, he⟩⟩ := h
  have e1 : columnsAt (split '\t' line) d.fields = .ok [a, b, c, e] :=
    columnsAt_of hn hd (.cons ca (.cons cb (.cons cc (.cons ce .nil))))
  unfold createWayNode
  rw [e1]
  simp only [parseI64_iff.2 ha, parseI64_iff.2 hb, parseI64_iff.2 hc, parseI64_iff.2 he, unwrap_some]
  rfl

/-- C67, members of relations. -/
theorem C67_member (z : Codec) (cols : List Text) (hn : cols.Nodup) (d : TableDef)
    (hd : TableDef.new .relationMembers cols = .ok d) (line : Text) (r : MemberRecord) (h : MemberRow z cols line r) :
    createMember z d.fields line = .ok r := by
  obtain ⟨⟨a, ca, ha⟩, ⟨b, cb, hb⟩, ⟨c, cc, hc⟩, ⟨e, ce, he⟩, ⟨f, cf, hf⟩, ⟨g, cg, hg⟩⟩ := h
  have e1 : columnsAt (split '\t' line) d.fields = .ok [a, b, c, e, f, g] :=
    columnsAt_of hn hd (.cons ca (.cons cb (.cons cc (.cons ce (.cons cf (.cons cg .nil))))))
  unfold createMember
  rw [e1]
  simp only [parseI64_iff.2 ha, parseMemberType_iff.2 hb, parseI64_iff.2 hc, unescapeOr_iff.2 he, parseI64_iff.2 hf,
    parseI64_iff.2 hg, unwrap_some]
  rfl

/-- C67, changesets. -/
theorem C67_changeset (cols : List Text) (hn : cols.Nodup) (d : TableDef) (hd : TableDef.new .changesets cols = .ok d)
    (line : Text) (r : Int64 × Int64) (h : ChangesetRow cols line r) : createChangeset d.fields line = .ok r := by
  obtain ⟨⟨a, ca, ha⟩, ⟨b, cb, hb⟩, ht, hi⟩ := h
  obtain ⟨t1, ct1, _, ht1⟩ := ht "created_at" (by simp)
  obtain ⟨t2, ct2, _, ht2⟩ := ht "closed_at" (by simp)
  obtain ⟨i1, ci1, _, hi1⟩ := hi "min_lat" (by simp)
  obtain ⟨i2, ci2, _, hi2⟩ := hi "max_lat" (by simp)
  obtain ⟨i3, ci3, _, hi3⟩ := hi "min_lon" (by simp)
  obtain ⟨i4, ci4, _, hi4⟩ := hi "max_lon" (by simp)
  obtain ⟨i5, ci5, _, hi5⟩ := hi "num_changes" (by simp)
  have e1 : columnsAt (split '\t' line) d.fields = .ok [a, b, t1, i1, i2, i3, i4, t2, i5] :=
    columnsAt_of hn hd (.cons ca (.cons cb (.cons ct1 (.cons ci1 (.cons ci2 (.cons ci3 (.cons ci4 (.cons ct2 (.cons ci5 .nil)))))))))
  unfold createChangeset
  rw [e1]
  simp only [parseI64_iff.2 ha, parseI64_iff.2 hb, parse_timeText ht1, parse_timeText ht2, parseI32_iff.2 hi1,
    parseI32_iff.2 hi2, parseI32_iff.2 hi3, parseI32_iff.2 hi4, parseI32_iff.2 hi5, unwrap_some]
  rfl

/-- C67, users. -/
theorem C67_user (cols : List Text) (hn : cols.Nodup) (d : TableDef) (hd : TableDef.new .users cols = .ok d)
    (line : Text) (r : Int64 × String) (h : UserRow cols line r) : createUser d.fields line = .ok r := by
  obtain ⟨⟨id, cid, hid⟩, cname, ⟨ct, cct, _, hct⟩, hb, ⟨zoom, czoom, zn, z1, z2, hzoom⟩, ⟨st, cst, s, hs, rfl⟩,
    ⟨fo, cfo, fs, hfs, rfl⟩, hi, ho⟩ := h
  obtain ⟨b1, cb1, _, hb1⟩ := hb "data_public" (by simp)
  obtain ⟨b2, cb2, _, hb2⟩ := hb "email_valid" (by simp)
  obtain ⟨b3, cb3, _, hb3⟩ := hb "consider_pd" (by simp)
  obtain ⟨b4, cb4, _, hb4⟩ := hb "terms_seen" (by simp)
  obtain ⟨b5, cb5, _, hb5⟩ := hb "image_use_gravatar" (by simp)
  obtain ⟨i1, ci1, _, hi1⟩ := hi "changesets_count" (by simp)
  obtain ⟨i2, ci2, _, hi2⟩ := hi "traces_count" (by simp)
  obtain ⟨i3, ci3, _, hi3⟩ := hi "diary_entries_count" (by simp)
  obtain ⟨o1, co1⟩ := ho "email" (by simp)
  obtain ⟨o2, co2⟩ := ho "pass_crypt" (by simp)
  obtain ⟨o3, co3⟩ := ho "description" (by simp)
  obtain ⟨o4, co4⟩ := ho "home_lat" (by simp)
  obtain ⟨o5, co5⟩ := ho "home_lon" (by simp)
  obtain ⟨o6, co6⟩ := ho "pass_salt" (by simp)
  obtain ⟨o7, co7⟩ := ho "new_email" (by simp)
  obtain ⟨o8, co8⟩ := ho "creation_ip" (by simp)
  obtain ⟨o9, co9⟩ := ho "languages" (by simp)
  obtain ⟨o10, co10⟩ := ho "terms_agreed" (by simp)
  obtain ⟨o11, co11⟩ := ho "auth_uid" (by simp)
  obtain ⟨o12, co12⟩ := ho "preferred_editor" (by simp)
  obtain ⟨o13, co13⟩ := ho "auth_provider" (by simp)
  obtain ⟨o14, co14⟩ := ho "home_tile" (by simp)
  obtain ⟨o15, co15⟩ := ho "tou_agreed" (by simp)
  have e1 : columnsAt (split '\t' line) d.fields = .ok [o1, id, o2, ct, r.2.toList, b1, o3, o4, o5, zoom, o6, b2, o7, o8, o9,
      s.toList, o10, b3, o11, o12, b4, fs.toList, i1, i2, i3, b5, o13, o14, o15] :=
    columnsAt_of hn hd (.cons co1 (.cons cid (.cons co2 (.cons cct (.cons cname (.cons cb1 (.cons co3 (.cons co4 (.cons co5
      (.cons czoom (.cons co6 (.cons cb2 (.cons co7 (.cons co8 (.cons co9 (.cons cst (.cons co10 (.cons cb3 (.cons co11
      (.cons co12 (.cons cb4 (.cons cfo (.cons ci1 (.cons ci2 (.cons ci3 (.cons cb5 (.cons co13 (.cons co14
      (.cons co15 .nil)))))))))))))))))))))))))))))
  have es : userStatusOk s.toList = some () := by
    unfold userStatusOk
    simp only [List.mem_cons, List.not_mem_nil, or_false] at hs
    rcases hs with rfl | rfl | rfl | rfl | rfl <;> decide
  have ef : formatOk fs.toList = some () := by
    unfold formatOk
    simp only [List.mem_cons, List.not_mem_nil, or_false] at hfs
    rcases hfs with rfl | rfl | rfl <;> decide
  unfold createUser
  rw [e1]
  simp only [parseI64_iff.2 hid, parse_timeText hct, parseSqlBool_iff.2 hb1, parseSqlBool_iff.2 hb2, parseSqlBool_iff.2 hb3,
    parseSqlBool_iff.2 hb4, parseSqlBool_iff.2 hb5, parseI16_of z1 z2 hzoom, es, ef, parseI32_iff.2 hi1, parseI32_iff.2 hi2,
    parseI32_iff.2 hi3, unwrap_some, String.ofList_toList]
  rfl

/-- The lines of a table. -/
theorem holds_of_lists {α : Type} {build : Text → Out α} {row : Text → α → Prop} {text : Text} {rs : List α}
    (hb : ∀ l r, row l r → l ≠ [] ∧ build l = .ok r) (h : Lists row text rs) : Holds build text rs :=
  h.imp fun l r ⟨h1, h2⟩ => ⟨(hb l r h2).1, h1, (hb l r h2).2⟩

/-- A line with values under two names is not empty. -/
theorem line_ne_nil {cols : List Text} {line : Text} {a b : String} {x y : Text} (hab : a.toList ≠ b.toList)
    (h : Cell cols line a x) (h' : Cell cols line b y) : line ≠ [] := by
  rintro rfl
  unfold Cell at h h'
  have e : split '\t' [] = [[]] := rfl
  rw [e] at h h'
  cases cols with
  | nil => simp at h
  | cons c cs =>
    simp at h h'
    exact hab (h.1.trans h'.1.symm)

/-- C67, whole dumps: the records a dump holds under the names of its columns are the records that are read. -/
theorem C67_content (z : Codec) (columns : Table → List Text) (hn : ∀ t, (columns t).Nodup) (tables : Tables)
    (hc : defines columns tables) (hsome : ∀ t ∈ [Table.nodes, .nodeTags, .ways, .wayNodes, .wayTags, .relations, .relationMembers,
      .relationTags, .changesets, .users], (tables t).isSome)
    (sorted : Table → Text) (c : Content) (h : c.Shown z columns sorted) : c.ReadFrom z tables sorted := by
  have get : ∀ t ∈ [Table.nodes, .nodeTags, .ways, .wayNodes, .wayTags, .relations, .relationMembers,
      .relationTags, .changesets, .users], ∃ d f, tables t = some (d, f) ∧ TableDef.new t (columns t) = .ok d := by
    intro t ht
    obtain ⟨⟨d, f⟩, e⟩ := Option.isSome_iff_exists.1 (hsome t ht)
    exact ⟨d, f, e, hc t d f e⟩
  refine ⟨?_, ?_, ?_, ?_, ?_, ?_, ?_, ?_, ?_, ?_⟩
  · obtain ⟨d, f, e, hd⟩ := get .users (by decide)
    refine ⟨d, f, e, holds_of_lists (fun l r hr => ⟨?_, C67_user _ (hn _) d hd l r hr⟩) h.users⟩
    obtain ⟨_, c1, _⟩ := hr.id
    exact line_ne_nil (by decide) c1 hr.name
  · obtain ⟨d, f, e, hd⟩ := get .changesets (by decide)
    refine ⟨d, f, e, holds_of_lists (fun l r hr => ⟨?_, C67_changeset _ (hn _) d hd l r hr⟩) h.changesets⟩
    obtain ⟨_, c1, _⟩ := hr.id
    obtain ⟨_, c2, _⟩ := hr.user
    exact line_ne_nil (by decide) c1 c2
  · obtain ⟨d, f, e, hd⟩ := get .nodes (by decide)
    refine ⟨d, f, e, holds_of_lists (fun l r hr => ⟨?_, C67_node _ (hn _) d hd l r hr⟩) h.nodes⟩
    obtain ⟨_, c1, _⟩ := hr.id
    obtain ⟨_, c2, _⟩ := hr.version
    exact line_ne_nil (by decide) c1 c2
  · obtain ⟨d, f, e, hd⟩ := get .nodeTags (by decide)
    refine ⟨d, f, e, holds_of_lists (fun l r hr => ⟨?_, C67_node_tag z _ (hn _) d hd l r hr⟩) h.nodeTags⟩
    obtain ⟨_, c1, _⟩ := hr.id
    obtain ⟨_, c2, _⟩ := hr.version
    exact line_ne_nil (by decide) c1 c2
  · obtain ⟨d, f, e, hd⟩ := get .ways (by decide)
    refine ⟨d, f, e, holds_of_lists (fun l r hr => ⟨?_, C67_way _ (hn _) d hd l r hr⟩) h.ways⟩
    obtain ⟨_, c1, _⟩ := hr.id
    obtain ⟨_, c2, _⟩ := hr.version
    exact line_ne_nil (by decide) c1 c2
  · obtain ⟨d, f, e, hd⟩ := get .wayNodes (by decide)
    refine ⟨d, f, e, holds_of_lists (fun l r hr => ⟨?_, C67_way_node _ (hn _) d hd l r hr⟩) h.wayNodes⟩
    obtain ⟨_, c1, _⟩ := hr.way
    obtain ⟨_, c2, _⟩ := hr.version
    exact line_ne_nil (by decide) c1 c2
  · obtain ⟨d, f, e, hd⟩ := get .wayTags (by decide)
    refine ⟨d, f, e, holds_of_lists (fun l r hr => ⟨?_, C67_object_tag z _ (hn _) d l r (.inl ⟨hd, hr⟩)⟩) h.wayTags⟩
    obtain ⟨_, c1, _⟩ := hr.id
    obtain ⟨_, c2, _⟩ := hr.version
    exact line_ne_nil (by decide) c1 c2
  · obtain ⟨d, f, e, hd⟩ := get .relations (by decide)
    refine ⟨d, f, e, holds_of_lists (fun l r hr => ⟨?_, C67_relation _ (hn _) d hd l r hr⟩) h.relations⟩
    obtain ⟨_, c1, _⟩ := hr.id
    obtain ⟨_, c2, _⟩ := hr.version
    exact line_ne_nil (by decide) c1 c2
  · obtain ⟨d, f, e, hd⟩ := get .relationMembers (by decide)
    refine ⟨d, f, e, holds_of_lists (fun l r hr => ⟨?_, C67_member z _ (hn _) d hd l r hr⟩) h.relationMembers⟩
    obtain ⟨_, c1, _⟩ := hr.relation
    obtain ⟨_, c2, _⟩ := hr.version
    exact line_ne_nil (by decide) c1 c2
  · obtain ⟨d, f, e, hd⟩ := get .relationTags (by decide)
    refine ⟨d, f, e, holds_of_lists (fun l r hr => ⟨?_, C67_object_tag z _ (hn _) d l r (.inr ⟨hd, hr⟩)⟩) h.relationTags⟩
    obtain ⟨_, c1, _⟩ := hr.id
    obtain ⟨_, c2, _⟩ := hr.version
    exact line_ne_nil (by decide) c1 c2

/-- C67: iterating over a well-formed dump yields the elements its rows stand for under the names of its
columns. -/
theorem C67_elements (z : Codec) (columns : Table → List Text) (hn : ∀ t, (columns t).Nodup) (tables : Tables)
    (hc : defines columns tables) (hsome : ∀ t ∈ [Table.nodes, .nodeTags, .ways, .wayNodes, .wayTags, .relations, .relationMembers,
      .relationTags, .changesets, .users], (tables t).isSome)
    (sorted : Table → Text) (c : Content) (h : c.Shown z columns sorted) (hwf : c.WellFormed)
    (ns : List Node) (ws : List Way) (rs : List Relation) (hel : c.Elements ns ws rs) :
    ∃ it it', ElementIterator.new tables sorted = .ok it ∧
      Iterates (ElementIterator.next z) it (withSentinels ns ws rs) it' ∧ ElementIterator.next z it' = .ok (none, it') :=
  C43_elements z tables sorted c (C67_content z columns hn tables hc hsome sorted c h) hwf ns ws rs hel

theorem unwrap_eq_ok {α : Type} {o : Option α} {a : α} : Out.unwrap o = .ok a ↔ o = some a := by
  cases o <;> simp [Out.unwrap]

/-- C67, nothing else is accepted: a line a record of `nodes` is made of has numbers and a boolean in the
columns of those names, and they are the values of the record. -/
theorem C67_node_accepted (cols : List Text) (hn : cols.Nodup) (d : TableDef) (hd : TableDef.new .nodes cols = .ok d)
    (line : Text) (r : NodeRecord) (h : createNode d.fields line = .ok r) :
    Has cols line "node_id" (IntText · r.nodeId.toInt) ∧ Has cols line "latitude" (IntText · r.latitude.toInt) ∧
    Has cols line "longitude" (IntText · r.longitude.toInt) ∧ Has cols line "changeset_id" (IntText · r.changesetId.toInt) ∧
    Has cols line "visible" (BoolText · r.visible) ∧ Has cols line "tile" (IntText · r.tile.toInt) ∧
    Has cols line "version" (IntText · r.version.toInt) ∧ Has cols line "redaction_id" (OptionalText · r.redactionId) := by
  unfold createNode at h
  rcases columnsAt_cases line hn hd with e | ⟨vals, e, hf⟩
  · rw [e] at h; simp at h
  · rw [e] at h
    rcases hf with _ | ⟨c1, _ | ⟨c2, _ | ⟨c3, _ | ⟨c4, _ | ⟨c5, _ | ⟨c6, _ | ⟨c7, _ | ⟨c8, _ | ⟨c9, _ | _⟩⟩⟩⟩⟩⟩⟩⟩⟩
    simp only [Out.bind_eq_ok, unwrap_eq_ok, Out.pure_eq] at h
    obtain ⟨v1, h1, v2, h2, v3, h3, v4, h4, v5, h5, v6, h6, v7, h7, v8, h8, h⟩ := h
    injection h with h
    subst h
    exact ⟨⟨_, c1, parseI64_iff.1 h1⟩, ⟨_, c2, parseI32_iff.1 h2⟩, ⟨_, c3, parseI32_iff.1 h3⟩, ⟨_, c4, parseI64_iff.1 h4⟩,
      ⟨_, c5, parseSqlBool_iff.1 h5⟩, ⟨_, c7, parseI64_iff.1 h7⟩, ⟨_, c8, parseI64_iff.1 h8⟩, ⟨_, c9, parseI32_optional.1 rfl⟩⟩

/-- C67, nothing else is accepted: ways and relations. -/
theorem C67_object_accepted (cols : List Text) (hn : cols.Nodup) (d : TableDef) (column : String)
    (hd : (column = "way_id" ∧ TableDef.new .ways cols = .ok d) ∨ (column = "relation_id" ∧ TableDef.new .relations cols = .ok d))
    (line : Text) (r : ObjectRecord) (h : createObject d.fields line = .ok r) :
    Has cols line column (IntText · r.id.toInt) ∧ Has cols line "changeset_id" (IntText · r.changesetId.toInt) ∧
    Has cols line "version" (IntText · r.version.toInt) ∧ Has cols line "visible" (BoolText · r.visible) ∧
    Has cols line "redaction_id" (OptionalText · r.redactionId) := by
  unfold createObject at h
  rcases hd with ⟨rfl, hd⟩ | ⟨rfl, hd⟩ <;>
    rcases columnsAt_cases line hn hd with e | ⟨vals, e, hf⟩
  · rw [e] at h; simp at h
  · rw [e] at h
    rcases hf with _ | ⟨c1, _ | ⟨c2, _ | ⟨c3, _ | ⟨c4, _ | ⟨c5, _ | ⟨c6, _ | _⟩⟩⟩⟩⟩⟩
    simp only [Out.bind_eq_ok, unwrap_eq_ok, Out.pure_eq] at h
    obtain ⟨v1, h1, v2, h2, v3, h3, v4, h4, v5, h5, h⟩ := h
    injection h with h
    subst h
    exact ⟨⟨_, c1, parseI64_iff.1 h1⟩, ⟨_, c2, parseI64_iff.1 h2⟩, ⟨_, c4, parseI64_iff.1 h4⟩,
      ⟨_, c5, parseSqlBool_iff.1 h5⟩, ⟨_, c6, parseI32_optional.1 rfl⟩⟩
  · rw [e] at h; simp at h
  · rw [e] at h
    rcases hf with _ | ⟨c1, _ | ⟨c2, _ | ⟨c3, _ | ⟨c4, _ | ⟨c5, _ | ⟨c6, _ | _⟩⟩⟩⟩⟩⟩
    simp only [Out.bind_eq_ok, unwrap_eq_ok, Out.pure_eq] at h
    obtain ⟨v1, h1, v2, h2, v3, h3, v4, h4, v5, h5, h⟩ := h
    injection h with h
    subst h
    exact ⟨⟨_, c1, parseI64_iff.1 h1⟩, ⟨_, c2, parseI64_iff.1 h2⟩, ⟨_, c4, parseI64_iff.1 h4⟩,
      ⟨_, c5, parseSqlBool_iff.1 h5⟩, ⟨_, c6, parseI32_optional.1 rfl⟩⟩

/-- C67: a line of `node_tags`, `way_nodes` or `relation_members` is accepted exactly when it is a row of
the table, and then the record is that row's. -/
theorem C67_parts_accepted (z : Codec) (cols : List Text) (hn : cols.Nodup) (d : TableDef) (line : Text) :
    (TableDef.new .nodeTags cols = .ok d → ∀ r, createNodeTag z d.fields line = .ok r ↔ TagRow z "node_id" cols line r) ∧
    (TableDef.new .wayTags cols = .ok d → ∀ r, createObjectTag z d.fields line = .ok r ↔ TagRow z "way_id" cols line r) ∧
    (TableDef.new .relationTags cols = .ok d → ∀ r, createObjectTag z d.fields line = .ok r ↔ TagRow z "relation_id" cols line r) ∧
    (TableDef.new .wayNodes cols = .ok d → ∀ r, createWayNode d.fields line = .ok r ↔ WayNodeRow cols line r) ∧
    (TableDef.new .relationMembers cols = .ok d → ∀ r, createMember z d.fields line = .ok r ↔ MemberRow z cols line r) := by
  refine ⟨fun hd r => ⟨fun h => ?_, C67_node_tag z cols hn d hd line r⟩,
    fun hd r => ⟨fun h => ?_, fun h => C67_object_tag z cols hn d line r (.inl ⟨hd, h⟩)⟩,
    fun hd r => ⟨fun h => ?_, fun h => C67_object_tag z cols hn d line r (.inr ⟨hd, h⟩)⟩,
    fun hd r => ⟨fun h => ?_, C67_way_node cols hn d hd line r⟩, fun hd r => ⟨fun h => ?_, C67_member z cols hn d hd line r⟩⟩
  · unfold createNodeTag at h
    rcases columnsAt_cases line hn hd with e | ⟨vals, e, hf⟩
    · rw [e] at h; simp at h
    rw [e] at h
    rcases hf with _ | ⟨c1, _ | ⟨c2, _ | ⟨c3, _ | ⟨c4, _ | _⟩⟩⟩⟩
    simp only [Out.bind_eq_ok, unwrap_eq_ok, Out.pure_eq] at h
    obtain ⟨v1, h1, v2, h2, h⟩ := h
    injection h with h
    subst h
    exact ⟨⟨_, c1, parseI64_iff.1 h1⟩, ⟨_, c2, parseI64_iff.1 h2⟩, ⟨_, c3, unescapeOr_iff.1 rfl⟩, ⟨_, c4, unescapeOr_iff.1 rfl⟩⟩
  · unfold createObjectTag at h
    rcases columnsAt_cases line hn hd with e | ⟨vals, e, hf⟩
    · rw [e] at h; simp at h
    rw [e] at h
    rcases hf with _ | ⟨c1, _ | ⟨c2, _ | ⟨c3, _ | ⟨c4, _ | _⟩⟩⟩⟩
    simp only [Out.bind_eq_ok, unwrap_eq_ok, Out.pure_eq] at h
    obtain ⟨v1, h1, v2, h2, h⟩ := h
    injection h with h
    subst h
    exact ⟨⟨_, c1, parseI64_iff.1 h1⟩, ⟨_, c4, parseI64_iff.1 h2⟩, ⟨_, c2, unescapeOr_iff.1 rfl⟩, ⟨_, c3, unescapeOr_iff.1 rfl⟩⟩
  · unfold createObjectTag at h
    rcases columnsAt_cases line hn hd with e | ⟨vals, e, hf⟩
    · rw [e] at h; simp at h
    rw [e] at h
    rcases hf with _ | ⟨c1, _ | ⟨c2, _ | ⟨c3, _ | ⟨c4, _ | _⟩⟩⟩⟩
    simp only [Out.bind_eq_ok, unwrap_eq_ok, Out.pure_eq] at h
    obtain ⟨v1, h1, v2, h2, h⟩ := h
    injection h with h
    subst h
    exact ⟨⟨_, c1, parseI64_iff.1 h1⟩, ⟨_, c4, parseI64_iff.1 h2⟩, ⟨_, c2, unescapeOr_iff.1 rfl⟩, ⟨_, c3, unescapeOr_iff.1 rfl⟩⟩
  · unfold createWayNode at h
    rcases columnsAt_cases line hn hd with e | ⟨vals, e, hf⟩
    · rw [e] at h; simp at h
    rw [e] at h
    rcases hf with _ | ⟨c1, _ | ⟨c2, _ | ⟨c3, _ | ⟨c4, _ | _⟩⟩⟩⟩
    simp only [Out.bind_eq_ok, unwrap_eq_ok, Out.pure_eq] at h
    obtain ⟨v1, h1, v2, h2, v3, h3, v4, h4, h⟩ := h
    injection h with h
    subst h
    exact ⟨⟨_, c1, parseI64_iff.1 h1⟩, ⟨_, c2, parseI64_iff.1 h2⟩, ⟨_, c3, parseI64_iff.1 h3⟩, ⟨_, c4, parseI64_iff.1 h4⟩⟩
  · unfold createMember at h
    rcases columnsAt_cases line hn hd with e | ⟨vals, e, hf⟩
    · rw [e] at h; simp at h
    rw [e] at h
    rcases hf with _ | ⟨c1, _ | ⟨c2, _ | ⟨c3, _ | ⟨c4, _ | ⟨c5, _ | ⟨c6, _ | _⟩⟩⟩⟩⟩⟩
    simp only [Out.bind_eq_ok, unwrap_eq_ok, Out.pure_eq] at h
    obtain ⟨v1, h1, v2, h2, v3, h3, v4, h4, v5, h5, h⟩ := h
    injection h with h
    subst h
    exact ⟨⟨_, c1, parseI64_iff.1 h1⟩, ⟨_, c2, parseMemberType_iff.1 h2⟩, ⟨_, c3, parseI64_iff.1 h3⟩,
      ⟨_, c4, unescapeOr_iff.1 rfl⟩, ⟨_, c5, parseI64_iff.1 h4⟩, ⟨_, c6, parseI64_iff.1 h5⟩⟩

/-- A member of a relation, with the columns in another order than the writer's. -/
example : MemberRow ⟨fun s => s.toList, fun t => some (String.ofList t)⟩
    ["version".toList, "member_type".toList, "member_id".toList, "relation_id".toList, "member_role".toList, "sequence_id".toList]
    "2\tw\t-17\t007\touter\t1".toList ⟨7, .way, -17, "outer", 2, 1⟩ :=
  ⟨⟨"007".toList, by unfold Cell; decide, [0, 0, 7], by decide, by decide, .inl (by decide)⟩,
   ⟨"w".toList, by unfold Cell; decide, .inl rfl⟩,
   ⟨"-17".toList, by unfold Cell; decide, [1, 7], by decide, by decide, .inr (.inr (by decide))⟩,
   ⟨"outer".toList, by unfold Cell; decide, .inl rfl⟩,
   ⟨"2".toList, by unfold Cell; decide, [2], by decide, by decide, .inl (by decide)⟩,
   ⟨"1".toList, by unfold Cell; decide, [1], by decide, by decide, .inl (by decide)⟩⟩

example : (TableDef.new .relationMembers ["version".toList, "member_type".toList, "member_id".toList, "relation_id".toList,
    "member_role".toList, "sequence_id".toList]) = .ok ⟨[3, 1, 2, 4, 0, 5],
      [(4, .integer), (1, .integer), (2, .string), (3, .integer), (5, .string), (6, .integer)]⟩ := by decide +kernel

namespace RowExample

/-- Columns in an order of our own: `nodes` and `users` reversed. -/
def columns : Table → List Text
  | .nodes => (requiredColumns .nodes).reverse
  | .users => (requiredColumns .users).reverse
  | t => requiredColumns t

def tables : Tables := fun t => match TableDef.new t (columns t) with
  | .ok d => some (d, "1.dat".toList)
  | _ => none

def sorted : Table → Text
  | .nodes => "\\N\t3\t1\t2000-02-29 23:59:58.25\tt\t7\t-5\t+10\t1\n".toList
  | .nodeTags => "1\t3\tname\tx\n".toList
  | .changesets => "7\t8\t2000-02-29 23:59:58\t0\t0\t0\t0\t2000-02-29 23:59:58\t0\n".toList
  | .users => ("n\tn\tn\tf\t0\t0\t0\tmarkdown\tf\tn\tn\tf\tn\tactive\tn\tn\tn\tt\tn\t3\tn\tn\td\tt\tMe\t2000-02-29 23:59:58\tp\t8\te\n").toList
  | _ => []

def z : Codec := ⟨fun s => s.toList, fun t => some (String.ofList t)⟩

def content : Content where
  users := [(8, "Me")]
  changesets := [(7, 8)]
  nodes := [⟨1, 10, -5, 7, true, 951868798250000000, 1, 3, none⟩]
  nodeTags := [⟨1, 3, "name", "x"⟩]
  ways := []
  wayNodes := []
  wayTags := []
  relations := []
  relationMembers := []
  relationTags := []

theorem time1 : SecondText "2000-02-29 23:59:58".toList 951868798 :=
  (C66_millis 951868798123 (by decide) (by decide) _).1 (by decide +kernel)

theorem time2 : TimeText "2000-02-29 23:59:58".toList 951868798000000000 := ⟨_, _, time1, .inl ⟨rfl, rfl⟩⟩

theorem time3 : TimeText "2000-02-29 23:59:58.25".toList 951868798250000000 :=
  ⟨951868798, _, time1, .inr ⟨[2, 5], by decide, by decide, by decide, by decide +kernel, by decide⟩⟩

theorem int0 : AnyInt32 "0".toList := ⟨0, [0], by decide, by decide, .inl (by decide)⟩

theorem usersShown : Lists (UserRow (columns .users)) (sorted .users) content.users := by
  have e : lines (sorted .users) = ["n\tn\tn\tf\t0\t0\t0\tmarkdown\tf\tn\tn\tf\tn\tactive\tn\tn\tn\tt\tn\t3\tn\tn\td\tt\tMe\t2000-02-29 23:59:58\tp\t8\te".toList] := by decide +kernel
  unfold Lists
  rw [e]
  refine .cons ⟨by decide +kernel, ?_⟩ .nil
  refine ⟨⟨"8".toList, by unfold Cell; decide +kernel, [8], by decide, by decide, .inl (by decide)⟩, by unfold Cell; decide +kernel,
    ⟨"2000-02-29 23:59:58".toList, by unfold Cell; decide +kernel, _, time2⟩, ?_,
    ⟨"3".toList, by unfold Cell; decide +kernel, 3, by decide, by decide, [3], by decide, by decide, .inl (by decide)⟩,
    ⟨"active".toList, by unfold Cell; decide +kernel, "active", by decide, rfl⟩,
    ⟨"markdown".toList, by unfold Cell; decide +kernel, "markdown", by decide, rfl⟩, ?_, ?_⟩
  · intro name hm
    simp only [List.mem_cons, List.not_mem_nil, or_false] at hm
    rcases hm with rfl | rfl | rfl | rfl | rfl
    · exact ⟨['t'], by unfold Cell; decide +kernel, true, .inl ⟨rfl, rfl⟩⟩
    · exact ⟨['t'], by unfold Cell; decide +kernel, true, .inl ⟨rfl, rfl⟩⟩
    · exact ⟨['f'], by unfold Cell; decide +kernel, false, .inr ⟨rfl, rfl⟩⟩
    · exact ⟨['f'], by unfold Cell; decide +kernel, false, .inr ⟨rfl, rfl⟩⟩
    · exact ⟨['f'], by unfold Cell; decide +kernel, false, .inr ⟨rfl, rfl⟩⟩
  · intro name hm
    simp only [List.mem_cons, List.not_mem_nil, or_false] at hm
    rcases hm with rfl | rfl | rfl <;> exact ⟨"0".toList, by unfold Cell; decide +kernel, int0⟩
  · intro name hm
    simp only [List.mem_cons, List.not_mem_nil, or_false] at hm
    rcases hm with rfl | rfl | rfl | rfl | rfl | rfl | rfl | rfl | rfl | rfl | rfl | rfl | rfl | rfl | rfl
    · exact ⟨['e'], by unfold Cell; decide +kernel⟩
    · exact ⟨['p'], by unfold Cell; decide +kernel⟩
    · exact ⟨['d'], by unfold Cell; decide +kernel⟩
    all_goals exact ⟨['n'], by unfold Cell; decide +kernel⟩

theorem changesetsShown : Lists (ChangesetRow (columns .changesets)) (sorted .changesets) content.changesets := by
  have e : lines (sorted .changesets) = ["7\t8\t2000-02-29 23:59:58\t0\t0\t0\t0\t2000-02-29 23:59:58\t0".toList] := by decide +kernel
  unfold Lists
  rw [e]
  refine .cons ⟨by decide +kernel, ?_⟩ .nil
  refine ⟨⟨"7".toList, by unfold Cell; decide +kernel, [7], by decide, by decide, .inl (by decide)⟩,
    ⟨"8".toList, by unfold Cell; decide +kernel, [8], by decide, by decide, .inl (by decide)⟩, ?_, ?_⟩
  · intro name hm
    simp only [List.mem_cons, List.not_mem_nil, or_false] at hm
    rcases hm with rfl | rfl <;> exact ⟨"2000-02-29 23:59:58".toList, by unfold Cell; decide +kernel, _, time2⟩
  · intro name hm
    simp only [List.mem_cons, List.not_mem_nil, or_false] at hm
    rcases hm with rfl | rfl | rfl | rfl | rfl <;> exact ⟨"0".toList, by unfold Cell; decide +kernel, int0⟩

theorem nodesShown : Lists (NodeRow (columns .nodes)) (sorted .nodes) content.nodes := by
  have e : lines (sorted .nodes) = ["\\N\t3\t1\t2000-02-29 23:59:58.25\tt\t7\t-5\t+10\t1".toList] := by decide +kernel
  unfold Lists
  rw [e]
  refine .cons ⟨by decide +kernel, ?_⟩ .nil
  refine ⟨⟨"1".toList, by unfold Cell; decide +kernel, [1], by decide, by decide, .inl (by decide)⟩,
    ⟨"+10".toList, by unfold Cell; decide +kernel, [1, 0], by decide, by decide, .inr (.inl (by decide))⟩,
    ⟨"-5".toList, by unfold Cell; decide +kernel, [5], by decide, by decide, .inr (.inr (by decide))⟩,
    ⟨"7".toList, by unfold Cell; decide +kernel, [7], by decide, by decide, .inl (by decide)⟩,
    ⟨['t'], by unfold Cell; decide +kernel, .inl ⟨rfl, rfl⟩⟩, ⟨"2000-02-29 23:59:58.25".toList, by unfold Cell; decide +kernel, time3⟩,
    ⟨"1".toList, by unfold Cell; decide +kernel, [1], by decide, by decide, .inl (by decide)⟩,
    ⟨"3".toList, by unfold Cell; decide +kernel, [3], by decide, by decide, .inl (by decide)⟩,
    ⟨"\\N".toList, by unfold Cell; decide +kernel, parseI32_optional.1 (by decide)⟩⟩

theorem nodeTagsShown : Lists (TagRow z "node_id" (columns .nodeTags)) (sorted .nodeTags) content.nodeTags := by
  have e : lines (sorted .nodeTags) = ["1\t3\tname\tx".toList] := by decide +kernel
  unfold Lists
  rw [e]
  refine .cons ⟨by decide +kernel, ?_⟩ .nil
  exact ⟨⟨"1".toList, by unfold Cell; decide +kernel, [1], by decide, by decide, .inl (by decide)⟩,
    ⟨"3".toList, by unfold Cell; decide +kernel, [3], by decide, by decide, .inl (by decide)⟩,
    ⟨"name".toList, by unfold Cell; decide +kernel, .inl rfl⟩, ⟨"x".toList, by unfold Cell; decide +kernel, .inl rfl⟩⟩

theorem shown : content.Shown z columns sorted :=
  ⟨usersShown, changesetsShown, nodesShown, nodeTagsShown, .nil, .nil, .nil, .nil, .nil, .nil⟩

/-- The hypotheses of `C67_elements` are met by this dump: one node with a tag. -/
theorem meets : (∀ t, (columns t).Nodup) ∧ defines columns tables ∧ content.Shown z columns sorted ∧ content.WellFormed ∧
    content.Elements [⟨1, 3, ⟨F64.div 10 10000000, F64.div (-5) 10000000⟩, 951868798250, 7, 8, "Me", true, [⟨"name", "x"⟩]⟩] [] [] := by
  refine ⟨?_, ?_, shown, ?_, ?_⟩
  · intro t; cases t <;> decide +kernel
  · intro t d f h
    unfold tables at h
    cases e : TableDef.new t (columns t) with
    | ok d' => rw [e] at h; simp only [Option.some.injEq, Prod.mk.injEq] at h; rw [h.1]
    | err => rw [e] at h; cases h
    | panic => rw [e] at h; cases h
  · refine ⟨⟨by simp [content], by simp [content], ?_⟩, ⟨.nil, .nil, by simp [content]⟩, ⟨.nil, .nil, by simp [content]⟩,
      ⟨.nil, .nil, by simp [content]⟩, ⟨.nil, .nil, by simp [content]⟩⟩
    simp [content, nodeKey, tagKey]
  · refine ⟨.cons ⟨8, "Me", by decide +kernel, by decide +kernel⟩ .nil, .nil, .nil⟩

end RowExample

end OsmIo
