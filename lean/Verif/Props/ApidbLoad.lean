import Verif.Spec.ApidbLoad
import Verif.Props.ApidbDirectory
import Verif.Props.ApidbTables
import Verif.Props.ApidbSortable
/-!
# Loading a dump into a database (C65)
-/
set_option linter.unusedSimpArgs false
set_option linter.flexible false
namespace OsmIo
open OsmIo.Text OsmIo.Sql OsmIo.Apidb Spec

theorem loadLines_table {cols : List Text} {rows : List (List Text)} (h : ∀ r ∈ rows, Good r ∧ r.length = cols.length) :
    loadLines cols (lines (tableText rows ++ endMarker)) = some (rows.map cols.zip) := by
  rw [lines_tableText fun r hr => (h r hr).1.2.2]
  induction rows with
  | nil => simp [loadLines]
  | cons r rows ih =>
    have hr := h r (by simp)
    have e1 : List.intercalate ['\t'] r ≠ ['\\', '.'] := by
      intro e
      exact (rowOk_line hr.1.1).2 (by rw [e])
    have e2 : split '\t' (List.intercalate ['\t'] r) = r := by
      obtain ⟨⟨c, cs, rest, rfl, -⟩, h2⟩ := hr.1.1
      rw [← tabbed_eq]
      exact split_tabbed (by simp) h2
    have ih := ih fun x hx => h x (by simp [hx])
    simp only [List.map_cons, List.cons_append, loadLines, if_neg e1, loadRow, e2, hr.2, if_true, ih]

/-- The columns of the tables that hold data. -/
def dataColumns : Table → List String
  | .nodes => ["node_id", "latitude", "longitude", "changeset_id", "visible", "\"timestamp\"", "tile", "version", "redaction_id"]
  | .nodeTags => ["node_id", "version", "k", "v"]
  | .ways => ["way_id", "changeset_id", "\"timestamp\"", "version", "visible", "redaction_id"]
  | .wayNodes => ["way_id", "node_id", "version", "sequence_id"]
  | .wayTags => ["way_id", "k", "v", "version"]
  | .relations => ["relation_id", "changeset_id", "\"timestamp\"", "version", "visible", "redaction_id"]
  | .relationMembers => ["relation_id", "member_type", "member_id", "member_role", "version", "sequence_id"]
  | .relationTags => ["relation_id", "k", "v", "version"]
  | .currentNodes => ["id", "latitude", "longitude", "changeset_id", "visible", "\"timestamp\"", "tile", "version"]
  | .currentNodeTags => ["node_id", "k", "v"]
  | .currentWays => ["id", "changeset_id", "\"timestamp\"", "visible", "version"]
  | .currentWayNodes => ["way_id", "node_id", "sequence_id"]
  | .currentWayTags => ["way_id", "k", "v"]
  | .currentRelations => ["id", "changeset_id", "\"timestamp\"", "visible", "version"]
  | .currentRelationMembers => ["relation_id", "member_type", "member_id", "member_role", "sequence_id"]
  | .currentRelationTags => ["relation_id", "k", "v"]
  | .changesets => ["id", "user_id", "created_at", "min_lat", "max_lat", "min_lon", "max_lon", "closed_at", "num_changes"]
  | .changesetTags => ["changeset_id", "k", "v"]
  | .users => ["email", "id", "pass_crypt", "creation_time", "display_name", "data_public", "description", "home_lat", "home_lon",
      "home_zoom", "pass_salt", "email_valid", "new_email", "creation_ip", "languages", "status", "terms_agreed", "consider_pd",
      "auth_uid", "preferred_editor", "terms_seen", "description_format", "changesets_count", "traces_count",
      "diary_entries_count", "image_use_gravatar", "auth_provider", "home_tile", "tou_agreed"]
  | _ => []

/-- The tables that hold data. -/
def dataTables : List Table := [.nodes, .nodeTags, .ways, .wayNodes, .wayTags, .relations, .relationMembers, .relationTags,
      .currentNodes, .currentNodeTags, .currentWays, .currentWayNodes, .currentWayTags, .currentRelations,
      .currentRelationMembers, .currentRelationTags, .users, .changesets, .changesetTags]

theorem data_columns : ∀ t ∈ dataTables, ∀ s ∈ tocStatements, s.name = writerName t → s.columns = (dataColumns t).map String.toList := by
  decide +kernel

theorem toc_has {s : Statement} (hs : s ∈ tocStatements) : ListsStatement tocDat s := by
  refine ⟨embedded, tailBytes, toc_bytes, embedded_clear, tail_copy, ?_⟩
  have h := embedded_statements
  generalize embedded = es at h
  generalize tocStatements = ss at h hs
  induction h with
  | nil => cases hs
  | cons h _ ih =>
    rcases List.mem_cons.1 hs with rfl | hs
    · exact ⟨_, List.mem_cons_self, h⟩
    · obtain ⟨e, he, h⟩ := ih hs
      exact ⟨e, List.mem_cons_of_mem _ he, h⟩

theorem restores_of {d : Directory} {files : Table → Text} {t : Table} {name : String} {rows : List (List Text)}
    {fields : List (List (Text × Text))} (ht : t ∈ dataTables) (hn : writerName t = name.toList)
    (hf : files t = tableText rows ++ endMarker)
    (hg : ∀ r ∈ rows, Good r ∧ r.length = (dataColumns t).length) (hfields : fields = rows.map ((dataColumns t).map String.toList).zip) :
    Restores (d.create.flush files) name fields := by
  obtain ⟨h1, -⟩ := C64_files
  obtain ⟨h0, h2, -⟩ := C64_directory d files
  obtain ⟨s, hs, hname, hfile⟩ := h1 t
  refine ⟨tocDat, s, h0, toc_has hs, hname.trans hn, files t, by rw [hfile, h2], ?_⟩
  rw [data_columns t ht s hs hname, hf, hfields]
  exact loadLines_table fun r hr => ⟨(hg r hr).1, by rw [(hg r hr).2, List.length_map]⟩

theorem hist_length (z : Codec) (t : Table) (e : Element) : ∀ r ∈ histRows z t e, r.length = (dataColumns t).length := by
  intro r hr
  cases e <;> cases t <;> simp [histRows, nodeTagRows, wayTagRows, wayNodeRows, relationTagRows, relationMemberRows] at hr
  all_goals first
    | (subst hr; rfl)
    | (obtain ⟨a, ha, rfl⟩ := hr; rfl)
    | (obtain ⟨a, b, ha, rfl⟩ := hr; rfl)

theorem event_length (z : Codec) (t : Table) (e : Element) (ev : Event) (hev : event z t e = some ev) :
    ∀ r ∈ ev.rows, r.length = (dataColumns t).length := by
  intro r hr
  cases e <;> cases t <;> simp only [event, Option.some.injEq, reduceCtorEq] at hev
  all_goals
    subst hev
    simp [currentTagRows, currentWayNodeRows, currentRelationMemberRows] at hr
    first
    | (subst hr; rfl)
    | (obtain ⟨a, ha, rfl⟩ := hr; rfl)
    | (obtain ⟨a, b, ha, rfl⟩ := hr; rfl)

theorem good_event {z : Codec} (hz : Faithful z) {t : Table} {e : Element} {ev : Event} (hev : event z t e = some ev) {r : List Text}
    (h : r ∈ ev.rows) : Good r :=
  ⟨eventRows_ok (fun _ h => h.tab) hz.tab t e ev hev r h, eventRows_ok (fun _ h => h.newline) hz.newline t e ev hev r h⟩

/-- C65, history: restoring the directory of a dump stores every version of every object, its tags, way nodes
and members, each value in its column. -/
theorem C65_history (z : Codec) (hz : Faithful z) (uc cc : Int64 → Int64) (es : List Element) (files : Table → Text)
    (h : Dump z uc cc es files) (dir : Directory) :
    let d := dir.create.flush files
    Restores d "public.nodes" ((Spec.nodesOf es).map nodeFields) ∧
    Restores d "public.node_tags" ((Spec.nodesOf es).flatMap (nodeTagFields z)) ∧
    Restores d "public.ways" ((Spec.waysOf es).map wayFields) ∧
    Restores d "public.way_nodes" ((Spec.waysOf es).flatMap wayNodeFields) ∧
    Restores d "public.way_tags" ((Spec.waysOf es).flatMap (wayTagFields z)) ∧
    Restores d "public.relations" ((Spec.relationsOf es).map relationFields) ∧
    Restores d "public.relation_members" ((Spec.relationsOf es).flatMap (relationMemberFields z)) ∧
    Restores d "public.relation_tags" ((Spec.relationsOf es).flatMap (relationTagFields z)) := by
  intro d
  obtain ⟨t1, t2, t3, t4, t5, t6, t7, t8⟩ := C42_history z uc cc es files h
  have key : ∀ t (e : Element) r, r ∈ histRows z t e → Good r ∧ r.length = (dataColumns t).length :=
    fun t e r hr => ⟨good_hist hz hr, hist_length z t e r hr⟩
  have mapped : ∀ {α : Type} (l : List α) (f : α → List Text) (g : α → Element) (t : Table), (∀ a, histRows z t (g a) = [f a]) →
      ∀ r ∈ l.map f, Good r ∧ r.length = (dataColumns t).length := by
    intro α l f g t hh r hr
    obtain ⟨a, -, rfl⟩ := List.mem_map.1 hr
    exact key t (g a) _ (by rw [hh a]; simp)
  have flat : ∀ {α : Type} (l : List α) (f : α → List (List Text)) (g : α → Element) (t : Table), (∀ a, histRows z t (g a) = f a) →
      ∀ r ∈ l.flatMap f, Good r ∧ r.length = (dataColumns t).length := by
    intro α l f g t hh r hr
    obtain ⟨a, -, hr⟩ := List.mem_flatMap.1 hr
    exact key t (g a) _ (by rw [hh a]; exact hr)
  refine ⟨?_, ?_, ?_, ?_, ?_, ?_, ?_, ?_⟩
  · exact restores_of (t := .nodes) (by decide) rfl t1 (mapped _ _ Element.node _ fun _ => rfl) (by rw [List.map_map]; rfl)
  · refine restores_of (t := .nodeTags) (by decide) rfl t2 (flat _ _ Element.node _ fun _ => rfl) ?_
    rw [List.map_flatMap]; congr 1; funext n; simp only [nodeTagFields, nodeTagRows, List.map_map]; rfl
  · exact restores_of (t := .ways) (by decide) rfl t3 (mapped _ _ Element.way _ fun _ => rfl) (by rw [List.map_map]; rfl)
  · refine restores_of (t := .wayNodes) (by decide) rfl t4 (flat _ _ Element.way _ fun _ => rfl) ?_
    rw [List.map_flatMap]; congr 1; funext n; simp only [wayNodeFields, wayNodeRows, List.map_map]; rfl
  · refine restores_of (t := .wayTags) (by decide) rfl t5 (flat _ _ Element.way _ fun _ => rfl) ?_
    rw [List.map_flatMap]; congr 1; funext n; simp only [wayTagFields, wayTagRows, List.map_map]; rfl
  · exact restores_of (t := .relations) (by decide) rfl t6 (mapped _ _ Element.relation _ fun _ => rfl) (by rw [List.map_map]; rfl)
  · refine restores_of (t := .relationMembers) (by decide) rfl t7 (flat _ _ Element.relation _ fun _ => rfl) ?_
    rw [List.map_flatMap]; congr 1; funext n; simp only [relationMemberFields, relationMemberRows, List.map_map]; rfl
  · refine restores_of (t := .relationTags) (by decide) rfl t8 (flat _ _ Element.relation _ fun _ => rfl) ?_
    rw [List.map_flatMap]; congr 1; funext n; simp only [relationTagFields, relationTagRows, List.map_map]; rfl

/-- C65, current tables: restoring stores the last version of every object that is visible. -/
theorem C65_current (z : Codec) (hz : Faithful z) (uc cc : Int64 → Int64) (es : List Element) (files : Table → Text)
    (h : Dump z uc cc es files) (dir : Directory) (hn : (Spec.nodesOf es).Pairwise fun a b => a.id ≤ b.id)
    (hw : (Spec.waysOf es).Pairwise fun a b => a.id ≤ b.id) (hr : (Spec.relationsOf es).Pairwise fun a b => a.id ≤ b.id) :
    let d := dir.create.flush files
    let ns := (lastVersions Node.id (Spec.nodesOf es)).filter Node.visible
    let ws := (lastVersions Way.id (Spec.waysOf es)).filter Way.visible
    let rs := (lastVersions Relation.id (Spec.relationsOf es)).filter Relation.visible
    Restores d "public.current_nodes" (ns.map currentNodeFields) ∧
    Restores d "public.current_node_tags" (ns.flatMap fun n => currentTagFields z "node_id" n.id n.tags) ∧
    Restores d "public.current_ways" (ws.map currentWayFields) ∧
    Restores d "public.current_way_nodes" (ws.flatMap currentWayNodeFields) ∧
    Restores d "public.current_way_tags" (ws.flatMap fun y => currentTagFields z "way_id" y.id y.tags) ∧
    Restores d "public.current_relations" (rs.map currentRelationFields) ∧
    Restores d "public.current_relation_members" (rs.flatMap (currentRelationMemberFields z)) ∧
    Restores d "public.current_relation_tags" (rs.flatMap fun r => currentTagFields z "relation_id" r.id r.tags) := by
  intro d ns ws rs
  obtain ⟨t1, t2⟩ := C41_current_nodes z uc cc es files h hn
  obtain ⟨t3, t4, t5⟩ := C41_current_ways z uc cc es files h hw
  obtain ⟨t6, t7, t8⟩ := C41_current_relations z uc cc es files h hr
  have mapped : ∀ {α : Type} (l : List α) (f : α → List Text) (g : α → Element) (t : Table),
      (∀ a, ∃ ev, event z t (g a) = some ev ∧ ev.rows = [f a]) → ∀ r ∈ l.map f, Good r ∧ r.length = (dataColumns t).length := by
    intro α l f g t hh r hr
    obtain ⟨a, -, rfl⟩ := List.mem_map.1 hr
    obtain ⟨ev, h1, h2⟩ := hh a
    exact ⟨good_event hz h1 (by rw [h2]; simp), event_length z t _ ev h1 _ (by rw [h2]; simp)⟩
  have flat : ∀ {α : Type} (l : List α) (f : α → List (List Text)) (g : α → Element) (t : Table),
      (∀ a, ∃ ev, event z t (g a) = some ev ∧ ev.rows = f a) → ∀ r ∈ l.flatMap f, Good r ∧ r.length = (dataColumns t).length := by
    intro α l f g t hh r hr
    obtain ⟨a, -, hr⟩ := List.mem_flatMap.1 hr
    obtain ⟨ev, h1, h2⟩ := hh a
    exact ⟨good_event hz h1 (by rw [h2]; exact hr), event_length z t _ ev h1 _ (by rw [h2]; exact hr)⟩
  refine ⟨?_, ?_, ?_, ?_, ?_, ?_, ?_, ?_⟩
  · exact restores_of (t := .currentNodes) (by decide) rfl t1 (mapped _ _ Element.node _ fun _ => ⟨_, rfl, rfl⟩) (by rw [List.map_map]; rfl)
  · refine restores_of (t := .currentNodeTags) (by decide) rfl t2 (flat _ _ Element.node _ fun _ => ⟨_, rfl, rfl⟩) ?_
    rw [List.map_flatMap]; congr 1; funext n; simp only [currentTagFields, currentTagRows, List.map_map]; rfl
  · exact restores_of (t := .currentWays) (by decide) rfl t3 (mapped _ _ Element.way _ fun _ => ⟨_, rfl, rfl⟩) (by rw [List.map_map]; rfl)
  · refine restores_of (t := .currentWayNodes) (by decide) rfl t4 (flat _ _ Element.way _ fun _ => ⟨_, rfl, rfl⟩) ?_
    rw [List.map_flatMap]; congr 1; funext n; simp only [currentWayNodeFields, currentWayNodeRows, List.map_map]; rfl
  · refine restores_of (t := .currentWayTags) (by decide) rfl t5 (flat _ _ Element.way _ fun _ => ⟨_, rfl, rfl⟩) ?_
    rw [List.map_flatMap]; congr 1; funext n; simp only [currentTagFields, currentTagRows, List.map_map]; rfl
  · exact restores_of (t := .currentRelations) (by decide) rfl t6 (mapped _ _ Element.relation _ fun _ => ⟨_, rfl, rfl⟩) (by rw [List.map_map]; rfl)
  · refine restores_of (t := .currentRelationMembers) (by decide) rfl t7 (flat _ _ Element.relation _ fun _ => ⟨_, rfl, rfl⟩) ?_
    rw [List.map_flatMap]; congr 1; funext n; simp only [currentRelationMemberFields, currentRelationMemberRows, List.map_map]; rfl
  · refine restores_of (t := .currentRelationTags) (by decide) rfl t8 (flat _ _ Element.relation _ fun _ => ⟨_, rfl, rfl⟩) ?_
    rw [List.map_flatMap]; congr 1; funext n; simp only [currentTagFields, currentTagRows, List.map_map]; rfl

/-- C65, users and changesets. -/
theorem C65_users (z : Codec) (uc cc : Int64 → Int64) (es : List Element) (files : Table → Text)
    (h : Dump z uc cc es files) (hu : ∀ p ∈ userNames es, '\t' ∉ p.2.toList ∧ '\n' ∉ p.2.toList) (dir : Directory) :
    ∃ us cs, LastValues (userNames es) us ∧ LastValues (changesetUsers es) cs ∧
      Restores (dir.create.flush files) "public.users" (us.map fun p => userFields p.1 p.2 (clock (uc p.1))) ∧
      Restores (dir.create.flush files) "public.changesets" (cs.map fun p => changesetFields p.1 p.2 (clock (cc p.1))) ∧
      Restores (dir.create.flush files) "public.changeset_tags" (cs.flatMap fun p => changesetTagFields p.1) := by
  obtain ⟨us, hl, e⟩ := C52_users z uc cc es files h
  obtain ⟨cs, hl', e', e''⟩ := C52_changesets z uc cc es files h
  refine ⟨us, cs, hl, hl', ?_, ?_, ?_⟩
  · refine restores_of (t := .users) (by decide) rfl e ?_ (by rw [List.map_map]; rfl)
    intro r hr
    obtain ⟨p, hp, rfl⟩ := List.mem_map.1 hr
    have : lastValue (userNames es) p.1 = some p.2 := (hl.2 p.1 p.2).1 hp
    unfold lastValue at this
    rw [Option.map_eq_some_iff] at this
    obtain ⟨q, hq, hq2⟩ := this
    have hname := hu q (List.mem_reverse.1 (List.mem_of_find?_eq_some hq))
    rw [hq2] at hname
    exact ⟨good_user _ _ hname, rfl⟩
  · refine restores_of (t := .changesets) (by decide) rfl e' ?_ (by rw [List.map_map]; rfl)
    intro r hr
    obtain ⟨p, hp, rfl⟩ := List.mem_map.1 hr
    exact ⟨good_changeset _ _ _, rfl⟩
  · refine restores_of (t := .changesetTags) (by decide) rfl e'' ?_ (by rw [List.map_flatMap]; rfl)
    intro r hr
    obtain ⟨p, hp, hr⟩ := List.mem_flatMap.1 hr
    simp only [Spec.changesetTagRows, List.mem_cons, List.not_mem_nil, or_false] at hr
    have pn : ∀ x : Char, (∀ t, Printable t → x ∉ t) → ∀ r ∈ Spec.changesetTagRows p.1, RowOk x r := by
      intro x hx r hr
      have c1 : x ∉ "created_by".toList := hx _ (by unfold Printable; decide)
      have c2 : x ∉ "osm-io 0.2.2".toList := hx _ (by unfold Printable; decide)
      have c3 : x ∉ "replication".toList := hx _ (by unfold Printable; decide)
      have c4 : x ∉ "true".toList := hx _ (by unfold Printable; decide)
      simp only [Spec.changesetTagRows, List.mem_cons, List.not_mem_nil, or_false] at hr
      rcases hr with rfl | rfl
      · exact rowOk_num hx (by simp only [List.mem_cons, List.not_mem_nil, or_false, forall_eq_or_imp, forall_eq]; exact ⟨c1, c2⟩)
      · exact rowOk_num hx (by simp only [List.mem_cons, List.not_mem_nil, or_false, forall_eq_or_imp, forall_eq]; exact ⟨c3, c4⟩)
    have hg : Good r := ⟨pn _ (fun _ h => h.tab) r (by simpa [Spec.changesetTagRows] using hr), pn _ (fun _ h => h.newline) r (by simpa [Spec.changesetTagRows] using hr)⟩
    rcases hr with rfl | rfl <;> exact ⟨hg, rfl⟩

theorem toc_tables : ∀ s ∈ tocStatements, ∃ t ∈ closeOrder, s.name = writerName t := by decide +kernel

/-- C65: whatever elements were written, and in whatever order, every table that the table of contents lists
can be restored: its data file is there, ends with the end marker, and each line has as many values as the
statement has columns. The tables that hold no map data are empty. -/
theorem C65_every (z : Codec) (hz : Faithful z) (uc cc : Int64 → Int64) (es : List Element) (files : Table → Text)
    (h : Dump z uc cc es files) (hu : ∀ p ∈ userNames es, '\t' ∉ p.2.toList ∧ '\n' ∉ p.2.toList) (dir : Directory)
    (s : Statement) (hs : s ∈ tocStatements) :
    ∃ rows, Restores (dir.create.flush files) (String.ofList s.name) rows ∧
      ((∀ t ∈ dataTables, writerName t ≠ s.name) → rows = []) := by
  obtain ⟨t, -, hname⟩ := toc_tables s hs
  have hn : writerName t = (String.ofList s.name).toList := by rw [String.toList_ofList, hname]
  by_cases ht : t ∈ dataTables
  · obtain ⟨rows, hr⟩ : ∃ rows, Restores (dir.create.flush files) (String.ofList s.name) rows := by
      obtain ⟨a1, a2, a3, a4, a5, a6, a7, a8⟩ := C65_history z hz uc cc es files h dir
      obtain ⟨us, cs, -, -, b1, b2, b3⟩ := C65_users z uc cc es files h hu dir
      by_cases h0 : t ∈ currentTables
      · obtain ⟨w, w', ha, hc, rfl⟩ := h
        have hh : ∀ e, histRows z t e = [] := by
          intro e
          simp only [currentTables, List.mem_cons, List.not_mem_nil, or_false] at h0
          rcases h0 with rfl | rfl | rfl | rfl | rfl | rfl | rfl | rfl <;> cases e <;> rfl
        obtain ⟨e1, e2⟩ := (writeAll_files ha).2.1 t (fun e _ => hh e)
        obtain ⟨rows, hr, e⟩ := runCur_rows (fun r => Good r ∧ r.length = (dataColumns t).length)
          (Apidb.Writer.new.current t) [] (es.filterMap (event z t)) rfl
          (by simp) (by
            intro ev hev r hr
            obtain ⟨el, _, he⟩ := List.mem_filterMap.1 hev
            exact ⟨good_event hz he hr, event_length z t el ev he r hr⟩)
        refine ⟨_, restores_of ht hn (rows := rows) ?_ hr rfl⟩
        rw [close_files hc t, if_pos h0, e1, e2]
        have e0 : Apidb.Writer.new.files t = [] := rfl
        rw [e0, List.nil_append, e]
      · rw [← String.ofList_toList (s := String.ofList s.name), ← hn]
        simp only [dataTables, List.mem_cons, List.not_mem_nil, or_false] at ht
        rcases ht with rfl | rfl | rfl | rfl | rfl | rfl | rfl | rfl | rfl | rfl | rfl | rfl | rfl | rfl | rfl | rfl | rfl | rfl | rfl
        exacts [⟨_, a1⟩, ⟨_, a2⟩, ⟨_, a3⟩, ⟨_, a4⟩, ⟨_, a5⟩, ⟨_, a6⟩, ⟨_, a7⟩, ⟨_, a8⟩,
          absurd (by decide) h0, absurd (by decide) h0, absurd (by decide) h0, absurd (by decide) h0,
          absurd (by decide) h0, absurd (by decide) h0, absurd (by decide) h0, absurd (by decide) h0, ⟨_, b1⟩, ⟨_, b2⟩, ⟨_, b3⟩]
    exact ⟨rows, hr, fun hh => absurd hname.symm (hh t ht)⟩
  · obtain ⟨h1, -⟩ := C64_files
    obtain ⟨h0, h2, -⟩ := C64_directory dir files
    obtain ⟨s', hs', hname', hfile⟩ := h1 t
    refine ⟨[], ⟨tocDat, s', h0, toc_has hs', hname'.trans hn, files t, by rw [hfile, h2], ?_⟩, fun _ => rfl⟩
    rw [C50_empty z uc cc es files h t ht]
    exact loadLines_table (rows := []) (by simp)

/-- The hypotheses of the theorems hold for an example with all kinds of elements: the directory can be
opened, and the versions of the node are restored. -/
example : ∃ files r, Dump RoundTripExample.codec (fun _ => 0) (fun _ => 0) RoundTripExample.es files ∧
    OpenDirectory RoundTripExample.le ((Directory.create fun _ => none).flush files) r ∧
    Restores ((Directory.create fun _ => none).flush files) "public.nodes" [nodeFields RoundTripExample.n2, nodeFields RoundTripExample.n1] ∧
    Restores ((Directory.create fun _ => none).flush files) "public.current_nodes" [currentNodeFields RoundTripExample.n1] ∧
    Restores ((Directory.create fun _ => none).flush files) "public.current_way_nodes"
      [named [("way_id", "-4".toList), ("node_id", "1".toList), ("sequence_id", "1".toList)],
       named [("way_id", "-4".toList), ("node_id", "2".toList), ("sequence_id", "2".toList)],
       named [("way_id", "-4".toList), ("node_id", "1".toList), ("sequence_id", "3".toList)]] := by
  obtain ⟨files, sorted, hd, hs⟩ := RoundTripExample.dump
  have hh := C65_history _ RoundTripExample.faithful _ _ _ files hd (fun _ => none)
  have hc := C65_current _ RoundTripExample.faithful _ _ _ files hd (fun _ => none) (by decide +kernel) (by decide +kernel) (by decide +kernel)
  refine ⟨files, .ok (dumpTables, sorted), hd, (C64_open _ _ _ _).2 ⟨sorted, hs, rfl⟩, hh.1, ?_, ?_⟩
  · exact hc.1
  · have := hc.2.2.2.1
    have e : ((lastVersions Way.id (Spec.waysOf RoundTripExample.es)).filter Way.visible).flatMap currentWayNodeFields =
      [named [("way_id", "-4".toList), ("node_id", "1".toList), ("sequence_id", "1".toList)],
       named [("way_id", "-4".toList), ("node_id", "2".toList), ("sequence_id", "2".toList)],
       named [("way_id", "-4".toList), ("node_id", "1".toList), ("sequence_id", "3".toList)]] := by decide +kernel
    rw [e] at this
    exact this

end OsmIo
