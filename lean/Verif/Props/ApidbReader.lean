import Verif.Lemmas.ApidbIterate
import Verif.Lemmas.ApidbToc
/-!
# Reading an apidb dump (C43, C44, C45)
-/
namespace OsmIo
open Text Sql Apidb Spec

theorem yields_start {z : Codec} {it it' : ElementIterator} {es : List Element} (hst : it.state = .start)
    (hne : es ≠ []) (h : Yields (ElementIterator.next z) { it with state := .nodes } es it') :
    Yields (ElementIterator.next z) it es it' := by
  cases h with
  | nil => exact absurd rfl hne
  | cons h1 h2 =>
    refine .cons ?_ h2
    rw [← h1]
    simp [ElementIterator.next, hst]

/-- What a new iterator over a dump holds. -/
theorem new_of_readFrom {z : Codec} {tables : Tables} {sorted : Table → Text} {c : Content}
    (hread : c.ReadFrom z tables sorted) :
    ∃ it, ElementIterator.new tables sorted = .ok it ∧ it.state = .start ∧
      Reads (createNode it.fields.nodes) it.nodes c.nodes ∧
      it.nodeTags.Holds (createNodeTag z it.fields.nodeTags) c.nodeTags ∧
      Reads (createObject it.fields.ways) it.ways c.ways ∧
      it.wayTags.Holds (createObjectTag z it.fields.wayTags) c.wayTags ∧
      it.wayNodes.Holds (createWayNode it.fields.wayNodes) c.wayNodes ∧
      Reads (createObject it.fields.relations) it.relations c.relations ∧
      it.relationTags.Holds (createObjectTag z it.fields.relationTags) c.relationTags ∧
      it.relationMembers.Holds (createMember z it.fields.relationMembers) c.relationMembers ∧
      ∀ it₁ : ElementIterator, it₁.userIndex = it.userIndex → it₁.changesetIndex = it.changesetIndex →
        ∀ k, it₁.owner k = Out.unwrap (c.owner k) := by
  obtain ⟨du, fu, tu, hu⟩ := hread.users
  obtain ⟨dc, fc, tc, hc⟩ := hread.changesets
  obtain ⟨d1, f1, t1, h1⟩ := hread.nodes
  obtain ⟨d2, f2, t2, h2⟩ := hread.nodeTags
  obtain ⟨d3, f3, t3, h3⟩ := hread.ways
  obtain ⟨d4, f4, t4, h4⟩ := hread.wayNodes
  obtain ⟨d5, f5, t5, h5⟩ := hread.wayTags
  obtain ⟨d6, f6, t6, h6⟩ := hread.relations
  obtain ⟨d7, f7, t7, h7⟩ := hread.relationMembers
  obtain ⟨d8, f8, t8, h8⟩ := hread.relationTags
  rw [holds_iff] at hu hc h1 h2 h3 h4 h5 h6 h7 h8
  obtain ⟨it, hit, hnew⟩ : ∃ it : ElementIterator, it =
      { fields := ⟨d1.fields, d2.fields, d3.fields, d4.fields, d5.fields, d6.fields, d7.fields, d8.fields⟩
        userIndex := insertAll c.users []
        changesetIndex := insertAll c.changesets []
        state := .start
        nodes := lines (sorted .nodes)
        nodeTags := { lines := lines (sorted .nodeTags) }
        ways := lines (sorted .ways)
        wayTags := { lines := lines (sorted .wayTags) }
        wayNodes := { lines := lines (sorted .wayNodes) }
        relations := lines (sorted .relations)
        relationTags := { lines := lines (sorted .relationTags) }
        relationMembers := { lines := lines (sorted .relationMembers) } } ∧
      ElementIterator.new tables sorted = .ok it := by
    refine ⟨_, rfl, ?_⟩
    unfold ElementIterator.new
    simp only [tu, tc, t1, t2, t3, t4, t5, t6, t7, t8, Out.unwrap_some, Out.orErr_some, Out.ok_bind,
      tableAll_reads hu, tableAll_reads hc, Out.pure_eq]
  refine ⟨it, hnew, by subst hit; rfl, by subst hit; exact h1, by subst hit; exact ⟨_, h2, rfl⟩,
    by subst hit; exact h3, by subst hit; exact ⟨_, h5, rfl⟩, by subst hit; exact ⟨_, h4, rfl⟩,
    by subst hit; exact h6, by subst hit; exact ⟨_, h8, rfl⟩, by subst hit; exact ⟨_, h7, rfl⟩, ?_⟩
  intro it₁ e1 e2 k
  subst hit
  rw [owner_eq e1 e2]
  unfold Content.owner
  cases lastValue c.changesets k <;> rfl

/-! ### C43, C45 on well formed dumps -/

/-- C43, C44, C45: reading a well formed dump whose changesets have owners yields all nodes, ways and
relations in the order of their sorted tables, each with exactly the tags, way nodes and members that
carry its id and version (in table order) and with the user owning its changeset; a sentinel follows
each type; then the iterator is at its end and stays there. -/
theorem C43_elements (z : Codec) (tables : Tables) (sorted : Table → Text) (c : Content)
    (hread : c.ReadFrom z tables sorted) (hwf : c.WellFormed)
    (ns : List Node) (ws : List Way) (rs : List Relation) (hel : c.Elements ns ws rs) :
    ∃ it it', ElementIterator.new tables sorted = .ok it ∧
      Iterates (ElementIterator.next z) it (withSentinels ns ws rs) it' ∧
      ElementIterator.next z it' = .ok (none, it') := by
  obtain ⟨it, hnew, hst, h1, h2, h3, h5, h4, h6, h8, h7, howner⟩ := new_of_readFrom hread
  suffices h : ∃ it', Iterates (ElementIterator.next z) it (withSentinels ns ws rs) it' ∧
      ElementIterator.next z it' = .ok (none, it') by
    obtain ⟨it', h⟩ := h
    exact ⟨it, it', hnew, h⟩
  clear hnew
  have hown : ∀ k uid user, c.owner k = some (uid, user) → ∀ it₁ : ElementIterator,
      it₁.userIndex = it.userIndex → it₁.changesetIndex = it.changesetIndex →
      it₁.owner k = .ok (uid, user) := by
    intro k uid user h it₁ e1 e2
    rw [howner it₁ e1 e2, h]
    rfl
  obtain ⟨a1, b1, y1⟩ := nodes_phase z (fun k => c.nodeTags.filter fun t => decide (tagKey t = k)) c.nodes
    { it with state := .nodes } c.nodeTags ns rfl h1 h2
    hwf.nodeTags (fun _ _ => rfl)
    (hel.nodes.imp (by
      rintro r n ⟨uid, user, ho, rfl⟩
      exact ⟨uid, user, hown _ _ _ ho _ rfl rfl, rfl⟩))
  obtain ⟨a2, b2, c2, y2⟩ := ways_phase z (fun k => c.wayTags.filter fun t => decide (tagKey t = k))
    (fun k => c.wayNodes.filter fun t => decide (wayNodeKey t = k)) c.ways
    { it with state := .ways, nodes := a1, nodeTags := b1 } c.wayTags c.wayNodes ws rfl h3 h5 h4
    hwf.wayTags hwf.wayNodes (fun _ _ => rfl) (fun _ _ => rfl)
    (hel.ways.imp (by
      rintro r n ⟨uid, user, ho, rfl⟩
      exact ⟨uid, user, hown _ _ _ ho _ rfl rfl, rfl⟩))
  obtain ⟨a3, b3, c3, y3⟩ := relations_phase z (fun k => c.relationTags.filter fun t => decide (tagKey t = k))
    (fun k => c.relationMembers.filter fun t => decide (memberKey t = k)) c.relations
    { it with state := .relations, nodes := a1, nodeTags := b1, ways := a2, wayTags := b2, wayNodes := c2 }
    c.relationTags c.relationMembers rs rfl h6 h8 h7
    hwf.relationTags hwf.relationMembers (fun _ _ => rfl) (fun _ _ => rfl)
    (hel.relations.imp (by
      rintro r n ⟨uid, user, ho, rfl⟩
      refine ⟨uid, user, hown _ _ _ ho _ rfl rfl, ?_⟩
      rfl))
  let fin : ElementIterator := { it with
    state := .finished, nodes := a1, nodeTags := b1, ways := a2, wayTags := b2, wayNodes := c2,
    relations := a3, relationTags := b3, relationMembers := c3 }
  refine ⟨fin, ⟨fin, ?_, rfl⟩, rfl⟩
  have y := Yields.append (Yields.append y1 y2) y3
  apply yields_start hst (by simp [withSentinels])
  have e : withSentinels ns ws rs = ns.map .node ++ [.sentinel] ++ (ws.map .way ++ [.sentinel]) ++
      (rs.map .relation ++ [.sentinel]) := by simp [withSentinels]
  rw [e]
  exact y

/-! ### C45 on arbitrary tables -/

/-- C45: whatever the tables contain, an iteration that ends has yielded nodes, a sentinel, ways, a
sentinel, relations and a sentinel, and the iterator stays at its end. -/
theorem C45_shape (z : Codec) (tables : Tables) (sorted : Table → Text) (it it' : ElementIterator) (es : List Element)
    (hnew : ElementIterator.new tables sorted = .ok it) (h : Iterates (ElementIterator.next z) it es it') :
    (∃ ns ws rs, es = withSentinels ns ws rs) ∧ ElementIterator.next z it' = .ok (none, it') := by
  obtain ⟨s, hy, hn⟩ := h
  obtain ⟨h1, rfl, h3⟩ := shape_of_yields hy hn
  rw [(new_start hnew).1] at h1
  exact ⟨h1, hn⟩

/-- C45: whatever the tables contain, an iteration either ends or panics, and yields at most one
element per line of the node, way and relation tables and three sentinels before it does. -/
theorem C45_ends (z : Codec) (tables : Tables) (sorted : Table → Text) (it : ElementIterator)
    (hnew : ElementIterator.new tables sorted = .ok it) :
    ∃ es : List Element, es.length ≤ (lines (sorted .nodes)).length + (lines (sorted .ways)).length +
        (lines (sorted .relations)).length + 3 ∧
      ((∃ it', Iterates (ElementIterator.next z) it es it') ∨
       (∃ s, Yields (ElementIterator.next z) it es s ∧ ElementIterator.next z s = .panic)) := by
  obtain ⟨h0, h1, h2, h3⟩ := new_start hnew
  rcases yields_ends z _ it (Nat.le_refl _) with ⟨es, it', hl, h⟩ | ⟨es, s, hl, h⟩
  · exact ⟨es, by simpa [left, rank, h0, h1, h2, h3] using hl, .inl ⟨it', h⟩⟩
  · exact ⟨es, by simpa [left, rank, h0, h1, h2, h3] using hl, .inr ⟨s, h⟩⟩

/-! ### C44 -/

/-- C44: every element read from a dump, whatever else the dump contains and whether or not the
reading ends, carries the id and the name of the user that the changesets table gives its changeset. -/
theorem C44_owner (z : Codec) (tables : Tables) (sorted : Table → Text) (it s : ElementIterator) (es : List Element)
    (du dc : TableDef) (fu fc : Text) (users : List (Int64 × String)) (changesets : List (Int64 × Int64))
    (tu : tables .users = some (du, fu)) (hu : Holds (createUser du.fields) (sorted .users) users)
    (tc : tables .changesets = some (dc, fc)) (hc : Holds (createChangeset dc.fields) (sorted .changesets) changesets)
    (hnew : ElementIterator.new tables sorted = .ok it) (h : Yields (ElementIterator.next z) it es s) :
    (∀ n, Element.node n ∈ es → ∃ uid, lastValue changesets n.changeset = some uid ∧
      lastValue users uid = some n.user ∧ n.uid = uid.toInt32) ∧
    (∀ w, Element.way w ∈ es → ∃ uid, lastValue changesets w.changeset = some uid ∧
      lastValue users uid = some w.user ∧ w.uid = uid.toInt32) ∧
    (∀ r, Element.relation r ∈ es → ∃ uid, lastValue changesets r.changeset = some uid ∧
      lastValue users uid = some r.user ∧ r.uid = uid.toInt32) := by
  rw [holds_iff] at hu hc
  have hidx : it.userIndex = insertAll users [] ∧ it.changesetIndex = insertAll changesets [] := by
    unfold ElementIterator.new at hnew
    simp only [tu, tc, Out.unwrap_some, Out.ok_bind, tableAll_reads hu, tableAll_reads hc,
      Out.bind_eq_ok, Prod.exists, Out.pure_eq] at hnew
    obtain ⟨_, _, _, _, _, _, _, _, _, _, _, _, _, _, _, _, _, _, _, _, _, _, _, _, hnew⟩ := hnew
    simp at hnew
    subst hnew
    exact ⟨rfl, rfl⟩
  have key : ∀ k uid user, it.owner k = .ok (uid, user) →
      lastValue changesets k = some uid ∧ lastValue users uid = some user := by
    intro k uid user h
    rw [owner_eq hidx.1 hidx.2] at h
    cases hl : lastValue changesets k with
    | none => simp [hl] at h
    | some u =>
      simp only [hl] at h
      cases hl' : lastValue users u with
      | none => simp [hl'] at h
      | some v =>
        simp [hl'] at h
        obtain ⟨rfl, rfl⟩ := h
        exact ⟨rfl, hl'⟩
  have own := yields_owned h
  refine ⟨?_, ?_, ?_⟩ <;>
  · intro n hn
    obtain ⟨uid, ho, he⟩ := own _ hn
    exact ⟨uid, (key _ _ _ ho).1, (key _ _ _ ho).2, he⟩

theorem objects_or_panic {z : Codec} {tables : Tables} {sorted : Table → Text} {c : Content}
    (hread : c.ReadFrom z tables sorted) :
    ∃ it, ElementIterator.new tables sorted = .ok it ∧
      ((∃ ns ws rs it', c.Objects ns ws rs ∧ Iterates (ElementIterator.next z) it (withSentinels ns ws rs) it') ∨
       (¬ c.AllOwned ∧ ∃ es s, Yields (ElementIterator.next z) it es s ∧ ElementIterator.next z s = .panic)) := by
  obtain ⟨it, hnew, hst, h1, h2, h3, h5, h4, h6, h8, h7, howner⟩ := new_of_readFrom hread
  refine ⟨it, hnew, ?_⟩
  have hown : ∀ k p, ∀ it₁ : ElementIterator,
      it₁.userIndex = it.userIndex → it₁.changesetIndex = it.changesetIndex →
      it₁.owner k = .ok p → c.owner k = some p := by
    intro k p it₁ e1 e2 h
    rw [howner it₁ e1 e2] at h
    cases ho : c.owner k with
    | none => simp [ho] at h
    | some q => simp [ho] at h; rw [h]
  have hnone : ∀ k, ∀ it₁ : ElementIterator,
      it₁.userIndex = it.userIndex → it₁.changesetIndex = it.changesetIndex →
      it₁.owner k = .panic → (c.owner k).isSome → False := by
    intro k it₁ e1 e2 h hs
    rw [howner it₁ e1 e2] at h
    cases ho : c.owner k with
    | none => simp [ho] at hs
    | some q => simp [ho] at h
  have start : ∀ {es s}, es ≠ [] → Yields (ElementIterator.next z) { it with state := .nodes } es s →
      Yields (ElementIterator.next z) it es s := fun hne h => yields_start hst hne h
  rcases nodes_total z c.nodes { it with state := .nodes } c.nodeTags rfl h1 h2 with
    ⟨ns, a1, b1, f1, y1⟩ | ⟨r, hr, ho, es, s, hy, hp⟩
  · rcases ways_total z c.ways { it with state := .ways, nodes := a1, nodeTags := b1 } c.wayTags c.wayNodes rfl h3 h5 h4
      with ⟨ws, a2, b2, c2, f2, y2⟩ | ⟨r, hr, ho, es, s, hy, hp⟩
    · rcases relations_total z c.relations
        { it with state := .relations, nodes := a1, nodeTags := b1, ways := a2, wayTags := b2, wayNodes := c2 }
        c.relationTags c.relationMembers rfl h6 h8 h7
        with ⟨rs, a3, b3, c3, f3, y3⟩ | ⟨r, hr, ho, es, s, hy, hp⟩
      · left
        let fin : ElementIterator := { it with
          state := .finished, nodes := a1, nodeTags := b1, ways := a2, wayTags := b2, wayNodes := c2,
          relations := a3, relationTags := b3, relationMembers := c3 }
        refine ⟨ns, ws, rs, fin, ⟨?_, ?_, ?_⟩, ⟨fin, ?_, rfl⟩⟩
        · refine f1.imp ?_
          rintro r n ⟨uid, user, ts, ho, rfl⟩
          exact ⟨uid, user, tagsOf ts, hown _ _ _ rfl rfl ho, rfl⟩
        · refine f2.imp ?_
          rintro r n ⟨uid, user, ts, ps, ho, rfl⟩
          exact ⟨uid, user, tagsOf ts, _, hown _ _ _ rfl rfl ho, rfl⟩
        · refine f3.imp ?_
          rintro r n ⟨uid, user, ts, ps, ho, rfl⟩
          exact ⟨uid, user, tagsOf ts, _, hown _ _ _ rfl rfl ho, rfl⟩
        · have y := Yields.append (Yields.append y1 y2) y3
          apply start (by simp [withSentinels])
          have e : withSentinels ns ws rs = ns.map .node ++ [.sentinel] ++ (ws.map .way ++ [.sentinel]) ++
              (rs.map .relation ++ [.sentinel]) := by simp [withSentinels]
          rw [e]
          exact y
      · exact .inr ⟨fun h => hnone _ _ rfl rfl ho (h.relations r hr), _, s,
          start (by simp) (Yields.append (Yields.append y1 y2) hy), hp⟩
    · exact .inr ⟨fun h => hnone _ _ rfl rfl ho (h.ways r hr), _, s, start (by simp) (Yields.append y1 hy), hp⟩
  · refine .inr ⟨fun h => hnone _ _ rfl rfl ho (h.nodes r hr), ?_⟩
    cases hy with
    | nil => exact ⟨[], it, .nil _, by rw [← hp]; simp [ElementIterator.next, hst]⟩
    | cons ha hy => exact ⟨_, s, start (by simp) (.cons ha hy), hp⟩

theorem objects_owned {c : Content} {ns : List Node} {ws : List Way} {rs : List Relation} (h : c.Objects ns ws rs) :
    c.AllOwned := by
  have aux : ∀ {α β : Type} {R : α → β → Prop} {as : List α} {bs : List β} {P : α → Prop},
      List.Forall₂ R as bs → (∀ a b, R a b → P a) → ∀ a ∈ as, P a := by
    intro α β R as bs P h hp
    induction h with
    | nil => simp
    | cons h _ ih =>
      intro a ha
      rcases List.mem_cons.1 ha with rfl | ha
      · exact hp _ _ h
      · exact ih a ha
  refine ⟨aux h.nodes ?_, aux h.ways ?_, aux h.relations ?_⟩
  · rintro r n ⟨uid, user, ts, ho, _⟩; simp [ho]
  · rintro r n ⟨uid, user, ts, ps, ho, _⟩; simp [ho]
  · rintro r n ⟨uid, user, ts, ps, ho, _⟩; simp [ho]

/-- C44, C45: reading a dump, in whatever order the rows of its tables are, ends exactly when every
object's changeset belongs to a user; then the elements correspond one to one, in order, to the records
of the tables, with the user of the changeset. -/
theorem C44_missing (z : Codec) (tables : Tables) (sorted : Table → Text) (c : Content)
    (hread : c.ReadFrom z tables sorted) :
    ∃ it, ElementIterator.new tables sorted = .ok it ∧
      (∀ es it', Iterates (ElementIterator.next z) it es it' →
        ∃ ns ws rs, es = withSentinels ns ws rs ∧ c.Objects ns ws rs) ∧
      (c.AllOwned → ∃ es it', Iterates (ElementIterator.next z) it es it') ∧
      (¬ c.AllOwned → (¬ ∃ es it', Iterates (ElementIterator.next z) it es it') ∧
        ∃ es s, Yields (ElementIterator.next z) it es s ∧ ElementIterator.next z s = .panic) := by
  obtain ⟨it, hnew, h⟩ := objects_or_panic hread
  refine ⟨it, hnew, ?_⟩
  rcases h with ⟨ns, ws, rs, it', hobj, s, hy, hn⟩ | ⟨hno, es, s, hy, hp⟩
  · refine ⟨?_, fun _ => ⟨_, it', s, hy, hn⟩, fun h => absurd (objects_owned hobj) h⟩
    rintro es it'' ⟨s', hy', hn'⟩
    obtain ⟨rfl, rfl⟩ := Yields.unique hy' hy (by simp [hn']) (by simp [hn])
    exact ⟨ns, ws, rs, rfl, hobj⟩
  · have no : ∀ es it', ¬ Iterates (ElementIterator.next z) it es it' := by
      rintro es' it' ⟨s', hy', hn'⟩
      obtain ⟨rfl, rfl⟩ := Yields.unique hy' hy (by simp [hn']) (by simp [hp])
      rw [hp] at hn'
      simp at hn'
    exact ⟨fun es it' h => absurd h (no es it'), fun h => absurd h hno,
      fun _ => ⟨fun ⟨es, it', h⟩ => no es it' h, es, s, hy, hp⟩⟩

/-! ### A part without an owner -/

/-- No node is yielded any more. -/
def nodesDone (it : ElementIterator) : Prop := it.state = .ways ∨ it.state = .relations ∨ it.state = .finished

theorem nodesDone_next {z : Codec} {it it' : ElementIterator} {e : Option Element} (hd : nodesDone it)
    (h : ElementIterator.next z it = .ok (e, it')) : nodesDone it' ∧ ∀ n, e ≠ some (.node n) := by
  unfold ElementIterator.next at h
  rcases hd with hs | hs | hs <;> simp only [hs] at h
  · rcases nextWay_inv h with ⟨_, _, _, _, rfl, rfl⟩ | ⟨_, _, _, _, _, _, _, _, _, ho, rfl, rfl⟩
    · exact ⟨.inr (.inl rfl), by simp⟩
    · exact ⟨.inl hs, by simp⟩
  · rcases nextRelation_inv h with ⟨_, _, _, _, rfl, rfl⟩ | ⟨_, _, _, _, _, _, _, _, _, ho, rfl, rfl⟩
    · exact ⟨.inr (.inr rfl), by simp⟩
    · exact ⟨.inr (.inl hs), by simp⟩
  · simp at h
    obtain ⟨rfl, rfl⟩ := h
    exact ⟨.inr (.inr hs), by simp⟩

/-- The pending tag belongs to none of the nodes to come. -/
def stuck (z : Codec) (t : TagRecord) (it : ElementIterator) : Prop :=
  nodesDone it ∨ ∃ recs ts, (∀ r ∈ recs, nodeKey r ≠ tagKey t) ∧ Reads (createNode it.fields.nodes) it.nodes recs ∧
    it.nodeTags.Holds (createNodeTag z it.fields.nodeTags) (t :: ts)

theorem stuck_next {z : Codec} {t : TagRecord} {it it' : ElementIterator} {e : Option Element} (hs : stuck z t it)
    (h : ElementIterator.next z it = .ok (e, it')) : stuck z t it' ∧ ∀ n, e = some (.node n) → n.tags = [] := by
  rcases hs with hd | ⟨recs, ts, hno, hr, ht⟩
  · have := nodesDone_next hd h
    exact ⟨.inl this.1, fun n hn => absurd hn (this.2 n)⟩
  · have node : ∀ it1 : ElementIterator, Reads (createNode it1.fields.nodes) it1.nodes recs →
        it1.nodeTags.Holds (createNodeTag z it1.fields.nodeTags) (t :: ts) → it1.nextNode z = .ok (e, it') →
        stuck z t it' ∧ ∀ n, e = some (.node n) → n.tags = [] := by
      intro it1 hr ht h
      rcases nextNode_inv h with ⟨_, _, _, rfl, rfl⟩ | ⟨r, nodes, ts1, tags, uid, user, hn, ho, rfl, ha, rfl⟩
      · exact ⟨.inl (.inl rfl), by simp⟩
      · obtain ⟨l, h1, h2, h3⟩ := tableNext_some hn
        rw [h3] at hr
        cases hr with
        | @cons _ r' _ recs' hl hr' =>
        have er : r = r' := by
          have := hl.2
          rw [h2] at this
          simpa using this
        subst er
        obtain ⟨c', e1, e2⟩ := attach_holds (fun t => decide (t.id = r.nodeId) && decide (t.version = r.version)) ht
        have hm : (decide (t.id = r.nodeId) && decide (t.version = r.version)) = false := by
          have := hno r (by simp)
          rw [← Bool.not_eq_true]
          intro hh
          simp at hh
          exact this (by simp [nodeKey, tagKey, hh])
        rw [List.takeWhile_cons_of_neg (by simp [hm])] at e1
        rw [List.dropWhile_cons_of_neg (by simp [hm])] at e2
        rw [e1] at ha
        simp at ha
        obtain ⟨rfl, hp, hl'⟩ := ha
        have hc : c' = tags := by cases c'; cases tags; simp at hp hl'; rw [hp, hl']
        subst hc
        exact ⟨.inr ⟨recs', ts, fun r hr => hno r (by simp [hr]), hr', e2⟩, by rintro n ⟨⟩; rfl⟩
    unfold ElementIterator.next at h
    cases hs : it.state <;> simp only [hs] at h
    · exact node { it with state := .nodes } hr ht h
    · exact node it hr ht h
    · have := nodesDone_next (.inl hs) (by unfold ElementIterator.next; simpa only [hs] using h)
      exact ⟨.inl this.1, fun n hn => absurd hn (this.2 n)⟩
    · have := nodesDone_next (.inr (.inl hs)) (by unfold ElementIterator.next; simpa only [hs] using h)
      exact ⟨.inl this.1, fun n hn => absurd hn (this.2 n)⟩
    · have := nodesDone_next (z := z) (.inr (.inr hs)) (by unfold ElementIterator.next; simpa only [hs] using h)
      exact ⟨.inl this.1, fun n hn => absurd hn (this.2 n)⟩

/-- C43, the condition that each part has an owner is needed: one node tag that belongs to no node and
sorts first takes the tags of all nodes away. -/
theorem C43_orphan (z : Codec) (tables : Tables) (sorted : Table → Text) (c : Content)
    (hread : c.ReadFrom z tables sorted) (t : TagRecord) (ts : List TagRecord) (ht : c.nodeTags = t :: ts)
    (hno : ∀ r ∈ c.nodes, nodeKey r ≠ tagKey t) (it s : ElementIterator) (es : List Element)
    (hnew : ElementIterator.new tables sorted = .ok it) (h : Yields (ElementIterator.next z) it es s) :
    ∀ n, Element.node n ∈ es → n.tags = [] := by
  obtain ⟨it1, hnew1, hst, h1, h2, hrest⟩ := new_of_readFrom hread
  rw [hnew] at hnew1
  simp at hnew1
  subst hnew1
  rw [ht] at h2
  have hs : stuck z t it := .inr ⟨_, _, hno, h1, h2⟩
  clear hnew h1 h2 hst hrest
  induction h with
  | nil => simp
  | cons h1 _ ih =>
    obtain ⟨a, b⟩ := stuck_next hs h1
    intro n hn
    rcases List.mem_cons.1 hn with rfl | hn
    · exact b n rfl
    · exact ih a n hn

/-! ### A concrete dump -/

namespace ReadExample

/-- A codec that changes nothing. -/
def plain : Codec := ⟨fun s => s.toList, fun t => some (String.ofList t)⟩

def t0 : String := "2024-01-02 03:04:05"

/-- Two versions of a node, a way and a relation with tags, way nodes and members; one user. -/
def sorted : Table → Text
  | .users => ("a@b\t7\tx\t" ++ t0 ++ "\tAda\tt\tAda\t0\t0\t3\t00\tf\t\\N\t\\N\t\\N\tpending\t\\N\tf\t\\N\t\\N\tf\tmarkdown\t0\t0\t0\tf\t\\N\t\\N\t\\N\n").toList
  | .changesets => ("5\t7\t" ++ t0 ++ "\t-900000000\t900000000\t-1800000000\t1800000000\t" ++ t0 ++ "\t0\n").toList
  | .nodes => ("1\t515000000\t-1000000\t5\tt\t" ++ t0 ++ "\t3\t1\t\\N\n1\t515000000\t-1000000\t5\tt\t" ++ t0 ++ "\t3\t2\t\\N\n").toList
  | .nodeTags => "1\t1\tk\told\n1\t2\tk\tnew\n1\t2\tname\tx\n".toList
  | .ways => ("4\t5\t" ++ t0 ++ "\t1\tt\t\\N\n").toList
  | .wayNodes => "4\t1\t1\t1\n4\t1\t1\t2\n".toList
  | .wayTags => "4\thighway\tpath\t1\n".toList
  | .relations => ("9\t5\t" ++ t0 ++ "\t1\tf\t\\N\n").toList
  | .relationMembers => "9\tNode\t1\tstop\t1\t1\n9\tWay\t4\t\t1\t2\n".toList
  | .relationTags => "9\ttype\troute\t1\n".toList
  | _ => []

/-- 2 January 2024, 03:04:05, in nanoseconds. -/
def ns : Int := 1704164645000000000

def content : Content :=
  { users := [(7, "Ada")]
    changesets := [(5, 7)]
    nodes := [⟨1, 515000000, -1000000, 5, true, ns, 3, 1, none⟩, ⟨1, 515000000, -1000000, 5, true, ns, 3, 2, none⟩]
    nodeTags := [⟨1, 1, "k", "old"⟩, ⟨1, 2, "k", "new"⟩, ⟨1, 2, "name", "x"⟩]
    ways := [⟨4, 5, ns, 1, true, none⟩]
    wayNodes := [⟨4, 1, 1, 1⟩, ⟨4, 1, 1, 2⟩]
    wayTags := [⟨4, 1, "highway", "path"⟩]
    relations := [⟨9, 5, ns, 1, false, none⟩]
    relationMembers := [⟨9, .node, 1, "stop", 1, 1⟩, ⟨9, .way, 4, "", 1, 2⟩]
    relationTags := [⟨9, 1, "type", "route"⟩] }

theorem holds_decide {α : Type} [DecidableEq α] {build : Text → Out α} {text : Text} {rs : List α}
    (h : (decide ((lines text).all fun l => !stopLine l) && decide ((lines text).map build = rs.map .ok)) = true) :
    Holds build text rs := by
  rw [holds_iff]
  simp only [Bool.and_eq_true, decide_eq_true_eq] at h
  obtain ⟨h1, h2⟩ := h
  unfold Reads
  generalize lines text = ls at h1 h2
  induction ls generalizing rs with
  | nil => cases rs <;> simp at h2; exact .nil
  | cons l ls ih =>
    cases rs with
    | nil => simp at h2
    | cons r rs =>
      simp at h1 h2
      exact .cons ⟨h1.1, h2.1⟩ (ih (by simpa using h1.2) h2.2)

theorem readFrom : content.ReadFrom plain dumpTables sorted where
  users := ⟨dumpDef .users, tocFile .users, dumpTables_eq _ (by decide), holds_decide (by decide +kernel)⟩
  changesets := ⟨dumpDef .changesets, tocFile .changesets, dumpTables_eq _ (by decide), holds_decide (by decide +kernel)⟩
  nodes := ⟨dumpDef .nodes, tocFile .nodes, dumpTables_eq _ (by decide), holds_decide (by decide +kernel)⟩
  nodeTags := ⟨dumpDef .nodeTags, tocFile .nodeTags, dumpTables_eq _ (by decide), holds_decide (by decide +kernel)⟩
  ways := ⟨dumpDef .ways, tocFile .ways, dumpTables_eq _ (by decide), holds_decide (by decide +kernel)⟩
  wayNodes := ⟨dumpDef .wayNodes, tocFile .wayNodes, dumpTables_eq _ (by decide), holds_decide (by decide +kernel)⟩
  wayTags := ⟨dumpDef .wayTags, tocFile .wayTags, dumpTables_eq _ (by decide), holds_decide (by decide +kernel)⟩
  relations := ⟨dumpDef .relations, tocFile .relations, dumpTables_eq _ (by decide), holds_decide (by decide +kernel)⟩
  relationMembers := ⟨dumpDef .relationMembers, tocFile .relationMembers, dumpTables_eq _ (by decide), holds_decide (by decide +kernel)⟩
  relationTags := ⟨dumpDef .relationTags, tocFile .relationTags, dumpTables_eq _ (by decide), holds_decide (by decide +kernel)⟩

instance : DecidableRel KeyLt := fun a b => inferInstanceAs (Decidable (a.1 < b.1 ∨ (a.1 = b.1 ∧ a.2 < b.2)))
instance : DecidableRel KeyLe := fun a b => inferInstanceAs (Decidable (a.1 < b.1 ∨ (a.1 = b.1 ∧ a.2 ≤ b.2)))

theorem wellFormed : content.WellFormed where
  nodeTags := ⟨by decide +kernel, by decide +kernel, by decide +kernel⟩
  wayTags := ⟨by decide +kernel, by decide +kernel, by decide +kernel⟩
  wayNodes := ⟨by decide +kernel, by decide +kernel, by decide +kernel⟩
  relationTags := ⟨by decide +kernel, by decide +kernel, by decide +kernel⟩
  relationMembers := ⟨by decide +kernel, by decide +kernel, by decide +kernel⟩

theorem elements : content.Elements
    [⟨1, 1, ⟨F64.div 515000000 10000000, F64.div (-1000000) 10000000⟩, 1704164645000, 5, 7, "Ada", true, [⟨"k", "old"⟩]⟩,
     ⟨1, 2, ⟨F64.div 515000000 10000000, F64.div (-1000000) 10000000⟩, 1704164645000, 5, 7, "Ada", true, [⟨"k", "new"⟩, ⟨"name", "x"⟩]⟩]
    [⟨4, 1, 1704164645000, 5, 7, "Ada", true, [1, 1], [⟨"highway", "path"⟩]⟩]
    [⟨9, 1, 1704164645000, 5, 7, "Ada", false, [.node ⟨1, "stop"⟩, .way ⟨4, ""⟩], [⟨"type", "route"⟩]⟩] where
  nodes := .cons ⟨7, "Ada", by decide +kernel, by rfl⟩ (.cons ⟨7, "Ada", by decide +kernel, by rfl⟩ .nil)
  ways := .cons ⟨7, "Ada", by decide +kernel, by rfl⟩ .nil
  relations := .cons ⟨7, "Ada", by decide +kernel, by rfl⟩ .nil

/-- The example meets the hypotheses of `C43_elements`, and of `C44_missing` with every object owned. -/
example : ∃ it es it', ElementIterator.new dumpTables sorted = .ok it ∧
    Iterates (ElementIterator.next plain) it es it' ∧ es.length = 7 := by
  obtain ⟨it, it', h1, h2, _⟩ := C43_elements plain dumpTables sorted content readFrom wellFormed _ _ _ elements
  exact ⟨it, _, it', h1, h2, rfl⟩

/-- Without its changeset the example is not readable to the end (`C44_missing`). -/
theorem notOwned : ¬ ({ content with changesets := [] } : Content).AllOwned := by
  intro h
  have := h.nodes _ (List.mem_cons_self ..)
  simp [Content.owner, lastValue] at this

def sortedNoChangeset : Table → Text
  | .changesets => []
  | t => sorted t

theorem readFromNoChangeset :
    ({ content with changesets := [] } : Content).ReadFrom plain dumpTables sortedNoChangeset :=
  { readFrom with changesets := ⟨dumpDef .changesets, tocFile .changesets, dumpTables_eq _ (by decide), .nil⟩ }

/-- `C44_missing` on the example without a changeset: the first call panics or a later one does. -/
example : ∃ it, ElementIterator.new dumpTables sortedNoChangeset = .ok it ∧
    ∃ es s, Yields (ElementIterator.next plain) it es s ∧ ElementIterator.next plain s = .panic := by
  obtain ⟨it, h, _, _, h2⟩ := C44_missing plain dumpTables sortedNoChangeset _ readFromNoChangeset
  exact ⟨it, h, (h2 notOwned).2⟩

def sortedOrphan : Table → Text
  | .nodeTags => "0\t1\tlost\tx\n1\t1\tk\told\n".toList
  | t => sorted t

/-- The example with a tag of a missing node in front: hypotheses of `C43_orphan`. -/
theorem readFromOrphan :
    ({ content with nodeTags := [⟨0, 1, "lost", "x"⟩, ⟨1, 1, "k", "old"⟩] } : Content).ReadFrom plain dumpTables
      sortedOrphan :=
  { readFrom with
    nodeTags := ⟨dumpDef .nodeTags, tocFile .nodeTags, dumpTables_eq _ (by decide), holds_decide (by decide +kernel)⟩ }

example : ∀ r ∈ content.nodes, nodeKey r ≠ tagKey ⟨0, 1, "lost", "x"⟩ := by decide +kernel

end ReadExample
end OsmIo
