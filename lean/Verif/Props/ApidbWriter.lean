import Verif.Lemmas.ApidbWriter
/-!
# Writing an apidb dump (C41, C42, C50, C52)
-/
namespace OsmIo
open Text Sql Apidb Spec

/-! ### C42 -/

theorem flatMap_hist_node (z : Codec) (t : Table) (f : Node → List (List Text))
    (h1 : ∀ n, histRows z t (.node n) = f n) (h2 : ∀ y, histRows z t (.way y) = [])
    (h3 : ∀ r, histRows z t (.relation r) = []) (h4 : histRows z t .sentinel = []) (es : List Element) :
    es.flatMap (histRows z t) = (nodesOf es).flatMap f := by
  induction es with
  | nil => rfl
  | cons e es ih => cases e <;> simp_all [nodesOf]

theorem flatMap_hist_way (z : Codec) (t : Table) (f : Way → List (List Text))
    (h1 : ∀ n, histRows z t (.node n) = []) (h2 : ∀ y, histRows z t (.way y) = f y)
    (h3 : ∀ r, histRows z t (.relation r) = []) (h4 : histRows z t .sentinel = []) (es : List Element) :
    es.flatMap (histRows z t) = (waysOf es).flatMap f := by
  induction es with
  | nil => rfl
  | cons e es ih => cases e <;> simp_all [waysOf]

theorem flatMap_hist_relation (z : Codec) (t : Table) (f : Relation → List (List Text))
    (h1 : ∀ n, histRows z t (.node n) = []) (h2 : ∀ y, histRows z t (.way y) = [])
    (h3 : ∀ r, histRows z t (.relation r) = f r) (h4 : histRows z t .sentinel = []) (es : List Element) :
    es.flatMap (histRows z t) = (relationsOf es).flatMap f := by
  induction es with
  | nil => rfl
  | cons e es ih => cases e <;> simp_all [relationsOf]

/-- Text of a table without pending lines, users or changesets. -/
theorem dump_plain {z : Codec} {uc cc : Int64 → Int64} {es : List Element} {files : Table → Text}
    (h : Dump z uc cc es files) (t : Table) (ht : ∀ e, event z t e = none) (h0 : t ∉ currentTables)
    (h1 : t ≠ .users) (h2 : t ≠ .changesets) (h3 : t ≠ .changesetTags) :
    files t = tableText (es.flatMap (histRows z t)) ++ endMarker := by
  obtain ⟨w, w', ha, hc, rfl⟩ := h
  have e1 := ((writeAll_files ha).1 t (fun e _ => ht e)).1
  rw [close_files hc t, if_neg h0, if_neg h1, if_neg h2, if_neg h3, e1]
  rfl

/-- C42: the history tables hold exactly one row for each version written and one row for each tag,
way node and member, the latter two numbered from 1, all in the order of writing. -/
theorem C42_history (z : Codec) (uc cc : Int64 → Int64) (es : List Element) (files : Table → Text)
    (h : Dump z uc cc es files) :
    files .nodes = tableText ((nodesOf es).map nodeRow) ++ endMarker ∧
    files .nodeTags = tableText ((nodesOf es).flatMap (nodeTagRows z)) ++ endMarker ∧
    files .ways = tableText ((waysOf es).map wayRow) ++ endMarker ∧
    files .wayNodes = tableText ((waysOf es).flatMap wayNodeRows) ++ endMarker ∧
    files .wayTags = tableText ((waysOf es).flatMap (wayTagRows z)) ++ endMarker ∧
    files .relations = tableText ((relationsOf es).map relationRow) ++ endMarker ∧
    files .relationMembers = tableText ((relationsOf es).flatMap (relationMemberRows z)) ++ endMarker ∧
    files .relationTags = tableText ((relationsOf es).flatMap (relationTagRows z)) ++ endMarker := by
  have pure_map : ∀ {α β : Type} (f : α → β) (l : List α), l.map f = l.flatMap (fun a => [f a]) := by
    intro α β f l; induction l <;> simp_all
  refine ⟨?_, ?_, ?_, ?_, ?_, ?_, ?_, ?_⟩
  · rw [dump_plain h .nodes (by intro e; cases e <;> rfl) (by decide) (by decide) (by decide) (by decide), pure_map,
      flatMap_hist_node z .nodes (fun n => [nodeRow n]) (fun _ => rfl) (fun _ => rfl) (fun _ => rfl) rfl]
  · rw [dump_plain h .nodeTags (by intro e; cases e <;> rfl) (by decide) (by decide) (by decide) (by decide),
      flatMap_hist_node z .nodeTags (nodeTagRows z) (fun _ => rfl) (fun _ => rfl) (fun _ => rfl) rfl]
  · rw [dump_plain h .ways (by intro e; cases e <;> rfl) (by decide) (by decide) (by decide) (by decide), pure_map,
      flatMap_hist_way z .ways (fun n => [wayRow n]) (fun _ => rfl) (fun _ => rfl) (fun _ => rfl) rfl]
  · rw [dump_plain h .wayNodes (by intro e; cases e <;> rfl) (by decide) (by decide) (by decide) (by decide),
      flatMap_hist_way z .wayNodes wayNodeRows (fun _ => rfl) (fun _ => rfl) (fun _ => rfl) rfl]
  · rw [dump_plain h .wayTags (by intro e; cases e <;> rfl) (by decide) (by decide) (by decide) (by decide),
      flatMap_hist_way z .wayTags (wayTagRows z) (fun _ => rfl) (fun _ => rfl) (fun _ => rfl) rfl]
  · rw [dump_plain h .relations (by intro e; cases e <;> rfl) (by decide) (by decide) (by decide) (by decide), pure_map,
      flatMap_hist_relation z .relations (fun n => [relationRow n]) (fun _ => rfl) (fun _ => rfl) (fun _ => rfl) rfl]
  · rw [dump_plain h .relationMembers (by intro e; cases e <;> rfl) (by decide) (by decide) (by decide) (by decide),
      flatMap_hist_relation z .relationMembers (relationMemberRows z) (fun _ => rfl) (fun _ => rfl) (fun _ => rfl) rfl]
  · rw [dump_plain h .relationTags (by intro e; cases e <;> rfl) (by decide) (by decide) (by decide) (by decide),
      flatMap_hist_relation z .relationTags (relationTagRows z) (fun _ => rfl) (fun _ => rfl) (fun _ => rfl) rfl]

/-! ### C41 -/

theorem lastVis_map {α : Type} (id : α → Int64) (vis : α → Bool) (rows : α → List (List Text)) (l : List α) :
    lastVis (l.map fun a => ⟨id a, vis a, rows a⟩) = ((lastVersions id l).filter vis).flatMap rows := by
  induction l with
  | nil => rfl
  | cons a l ih =>
    simp only [List.map_cons, lastVis, lastVersions, List.any_map]
    rw [ih]
    have : (l.any ((fun b : Event => decide (b.id = id a)) ∘ fun a => ⟨id a, vis a, rows a⟩)) =
        l.any (fun b => decide (id b = id a)) := rfl
    rw [this]
    split
    · simp
    · cases hv : vis a <;> simp [hv]

/-- Text of a current table, for the objects of one type. -/
theorem dump_current {α : Type} {z : Codec} {uc cc : Int64 → Int64} {es : List Element} {files : Table → Text}
    (h : Dump z uc cc es files) (t : Table) (l : List α) (id : α → Int64) (vis : α → Bool)
    (rows : α → List (List Text)) (ht : ∀ e, histRows z t e = []) (h0 : t ∈ currentTables)
    (hev : es.filterMap (event z t) = l.map fun a => ⟨id a, vis a, rows a⟩)
    (hs : l.Pairwise fun a b => id a ≤ id b) :
    files t = tableText (((lastVersions id l).filter vis).flatMap rows) ++ endMarker := by
  obtain ⟨w, w', ha, hc, rfl⟩ := h
  obtain ⟨e1, e2⟩ := (writeAll_files ha).2.1 t (fun e _ => ht e)
  rw [close_files hc t, if_pos h0, e1, e2, hev]
  have := runCur_spec (Apidb.Writer.new.current t) [] (l.map fun a => ⟨id a, vis a, rows a⟩) (.inl ⟨rfl, rfl⟩)
    (List.pairwise_map.2 hs)
  have e0 : Apidb.Writer.new.files t = [] := rfl
  rw [e0, List.nil_append, this]
  simp only [ite_self, List.nil_append, lastVis_map]

theorem filterMap_event_node (z : Codec) (t : Table) (f : Node → Event)
    (h1 : ∀ n, event z t (.node n) = some (f n)) (h2 : ∀ y, event z t (.way y) = none)
    (h3 : ∀ r, event z t (.relation r) = none) (h4 : event z t .sentinel = none) (es : List Element) :
    es.filterMap (event z t) = (nodesOf es).map f := by
  induction es with
  | nil => rfl
  | cons e es ih => cases e <;> simp_all [nodesOf]

theorem filterMap_event_way (z : Codec) (t : Table) (f : Way → Event)
    (h1 : ∀ n, event z t (.node n) = none) (h2 : ∀ y, event z t (.way y) = some (f y))
    (h3 : ∀ r, event z t (.relation r) = none) (h4 : event z t .sentinel = none) (es : List Element) :
    es.filterMap (event z t) = (waysOf es).map f := by
  induction es with
  | nil => rfl
  | cons e es ih => cases e <;> simp_all [waysOf]

theorem filterMap_event_relation (z : Codec) (t : Table) (f : Relation → Event)
    (h1 : ∀ n, event z t (.node n) = none) (h2 : ∀ y, event z t (.way y) = none)
    (h3 : ∀ r, event z t (.relation r) = some (f r)) (h4 : event z t .sentinel = none) (es : List Element) :
    es.filterMap (event z t) = (relationsOf es).map f := by
  induction es with
  | nil => rfl
  | cons e es ih => cases e <;> simp_all [relationsOf]

/-- C41, nodes: when the ids of the nodes do not decrease, the current tables hold the row (and the tag
rows) of the last version of each node if that version is visible, and nothing else. -/
theorem C41_current_nodes (z : Codec) (uc cc : Int64 → Int64) (es : List Element) (files : Table → Text)
    (h : Dump z uc cc es files) (hs : (nodesOf es).Pairwise fun a b => a.id ≤ b.id) :
    let current := (lastVersions Node.id (nodesOf es)).filter Node.visible
    files .currentNodes = tableText (current.map currentNodeRow) ++ endMarker ∧
    files .currentNodeTags = tableText (current.flatMap fun n => currentTagRows z n.id n.tags) ++ endMarker := by
  intro current
  have pure_map : ∀ {α β : Type} (f : α → β) (l : List α), l.map f = l.flatMap (fun a => [f a]) := by
    intro α β f l; induction l <;> simp_all
  constructor
  · rw [pure_map]
    exact dump_current h .currentNodes (nodesOf es) Node.id Node.visible _ (by intro e; cases e <;> rfl) (by decide)
      (filterMap_event_node z _ _ (fun _ => rfl) (fun _ => rfl) (fun _ => rfl) rfl es) hs
  · exact dump_current h .currentNodeTags (nodesOf es) Node.id Node.visible _ (by intro e; cases e <;> rfl) (by decide)
      (filterMap_event_node z _ _ (fun _ => rfl) (fun _ => rfl) (fun _ => rfl) rfl es) hs

/-- C41, ways. -/
theorem C41_current_ways (z : Codec) (uc cc : Int64 → Int64) (es : List Element) (files : Table → Text)
    (h : Dump z uc cc es files) (hs : (waysOf es).Pairwise fun a b => a.id ≤ b.id) :
    let current := (lastVersions Way.id (waysOf es)).filter Way.visible
    files .currentWays = tableText (current.map currentWayRow) ++ endMarker ∧
    files .currentWayNodes = tableText (current.flatMap currentWayNodeRows) ++ endMarker ∧
    files .currentWayTags = tableText (current.flatMap fun y => currentTagRows z y.id y.tags) ++ endMarker := by
  intro current
  have pure_map : ∀ {α β : Type} (f : α → β) (l : List α), l.map f = l.flatMap (fun a => [f a]) := by
    intro α β f l; induction l <;> simp_all
  refine ⟨?_, ?_, ?_⟩
  · rw [pure_map]
    exact dump_current h .currentWays (waysOf es) Way.id Way.visible _ (by intro e; cases e <;> rfl) (by decide)
      (filterMap_event_way z _ _ (fun _ => rfl) (fun _ => rfl) (fun _ => rfl) rfl es) hs
  · exact dump_current h .currentWayNodes (waysOf es) Way.id Way.visible _ (by intro e; cases e <;> rfl) (by decide)
      (filterMap_event_way z _ _ (fun _ => rfl) (fun _ => rfl) (fun _ => rfl) rfl es) hs
  · exact dump_current h .currentWayTags (waysOf es) Way.id Way.visible _ (by intro e; cases e <;> rfl) (by decide)
      (filterMap_event_way z _ _ (fun _ => rfl) (fun _ => rfl) (fun _ => rfl) rfl es) hs

/-- C41, relations. -/
theorem C41_current_relations (z : Codec) (uc cc : Int64 → Int64) (es : List Element) (files : Table → Text)
    (h : Dump z uc cc es files) (hs : (relationsOf es).Pairwise fun a b => a.id ≤ b.id) :
    let current := (lastVersions Relation.id (relationsOf es)).filter Relation.visible
    files .currentRelations = tableText (current.map currentRelationRow) ++ endMarker ∧
    files .currentRelationMembers = tableText (current.flatMap (currentRelationMemberRows z)) ++ endMarker ∧
    files .currentRelationTags = tableText (current.flatMap fun r => currentTagRows z r.id r.tags) ++ endMarker := by
  intro current
  have pure_map : ∀ {α β : Type} (f : α → β) (l : List α), l.map f = l.flatMap (fun a => [f a]) := by
    intro α β f l; induction l <;> simp_all
  refine ⟨?_, ?_, ?_⟩
  · rw [pure_map]
    exact dump_current h .currentRelations (relationsOf es) Relation.id Relation.visible _
      (by intro e; cases e <;> rfl) (by decide)
      (filterMap_event_relation z _ _ (fun _ => rfl) (fun _ => rfl) (fun _ => rfl) rfl es) hs
  · exact dump_current h .currentRelationMembers (relationsOf es) Relation.id Relation.visible _
      (by intro e; cases e <;> rfl) (by decide)
      (filterMap_event_relation z _ _ (fun _ => rfl) (fun _ => rfl) (fun _ => rfl) rfl es) hs
  · exact dump_current h .currentRelationTags (relationsOf es) Relation.id Relation.visible _
      (by intro e; cases e <;> rfl) (by decide)
      (filterMap_event_relation z _ _ (fun _ => rfl) (fun _ => rfl) (fun _ => rfl) rfl es) hs

/-- What `lastVersions` is: one entry for each id, from the list, and after it no entry with its id. -/
theorem C41_last_versions {α : Type} (id : α → Int64) (l : List α) :
    ((lastVersions id l).map id).Nodup ∧ (lastVersions id l).Sublist l ∧
    (∀ a ∈ l, ∃ b ∈ lastVersions id l, id b = id a) ∧
    (∀ a ∈ lastVersions id l, ∃ before after, l = before ++ a :: after ∧ ∀ b ∈ after, id b ≠ id a) := by
  induction l with
  | nil => simp [lastVersions]
  | cons a l ih =>
    obtain ⟨i1, i2, i3, i4⟩ := ih
    simp only [lastVersions]
    split
    · rename_i h
      refine ⟨i1, i2.cons _, ?_, ?_⟩
      · intro x hx
        rcases List.mem_cons.1 hx with rfl | hx
        · simp only [List.any_eq_true, decide_eq_true_eq] at h
          obtain ⟨y, hy, hid⟩ := h
          obtain ⟨b, hb, hb2⟩ := i3 y hy
          exact ⟨b, hb, hb2.trans hid⟩
        · exact i3 x hx
      · intro x hx
        obtain ⟨p, q, rfl, hq⟩ := i4 x hx
        exact ⟨a :: p, q, rfl, hq⟩
    · rename_i h
      simp only [List.any_eq_true, decide_eq_true_eq, not_exists, not_and] at h
      refine ⟨?_, i2.cons_cons _, ?_, ?_⟩
      · rw [List.map_cons, List.nodup_cons]
        refine ⟨?_, i1⟩
        intro hm
        obtain ⟨b, hb, hid⟩ := List.mem_map.1 hm
        exact h b (i2.subset hb) hid
      · intro x hx
        rcases List.mem_cons.1 hx with rfl | hx
        · exact ⟨x, by simp, rfl⟩
        · obtain ⟨b, hb, hid⟩ := i3 x hx
          exact ⟨b, by simp [hb], hid⟩
      · intro x hx
        rcases List.mem_cons.1 hx with rfl | hx
        · exact ⟨[], l, rfl, h⟩
        · obtain ⟨p, q, rfl, hq⟩ := i4 x hx
          exact ⟨a :: p, q, rfl, hq⟩

/-- In a history in which later entries of an id have larger versions, the last entry of an id has its
largest version. -/
theorem C41_last_is_highest {α : Type} (id : α → Int64) (version : α → Int32) (l : List α)
    (hs : l.Pairwise fun a b => id a = id b → version a ≤ version b) (a b : α)
    (ha : a ∈ lastVersions id l) (hb : b ∈ l) (hid : id b = id a) : version b ≤ version a := by
  obtain ⟨p, q, rfl, hq⟩ := (C41_last_versions id l).2.2.2 a ha
  rw [List.pairwise_append] at hs
  rcases List.mem_append.1 hb with hb | hb
  · exact hs.2.2 b hb a (by simp) hid
  · rcases List.mem_cons.1 hb with rfl | hb
    · exact Int32.le_refl _
    · exact absurd hid (hq b hb)

end OsmIo
