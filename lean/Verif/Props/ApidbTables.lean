import Verif.Lemmas.ApidbRows
import Verif.Lemmas.ApidbIndex
import Verif.Props.ApidbWriter
/-!
# Tables of a dump: users, changesets, end markers (C50, C52)
-/
namespace OsmIo
open Text Sql Apidb Spec

/-! ### C52 -/

theorem userCols_eq (id : Int64) (name : String) (t : Text) : userCols id name t = Spec.userRow id name t := rfl
theorem changesetCols_eq (id uid : Int64) (t : Text) : changesetCols id uid t = Spec.changesetRow id uid t := rfl
theorem changesetTagCols_eq (id : Int64) : changesetTagCols id = Spec.changesetTagRows id := rfl

/-- C52, users: one row for each user id among the elements, in ascending order of ids, with the name
that the last element of that user carries. -/
theorem C52_users (z : Codec) (uc cc : Int64 → Int64) (es : List Element) (files : Table → Text)
    (h : Dump z uc cc es files) :
    ∃ us, LastValues (userNames es) us ∧
      files .users = tableText (us.map fun p => Spec.userRow p.1 p.2 (clock (uc p.1))) ++ endMarker := by
  obtain ⟨w, w', ha, hc, rfl⟩ := h
  obtain ⟨f1, f2, f3, f4, f5, f6⟩ := writeAll_files ha
  refine ⟨_, written_entries (userNames es), ?_⟩
  rw [close_files hc .users, if_neg (by decide), if_pos rfl,
    (f1 .users (fun e _ => by cases e <;> rfl)).1, f3, f5, foldl_users]
  have e0 : es.flatMap (histRows z .users) = [] := by
    rw [List.flatMap_eq_nil_iff]; intro e _; cases e <;> rfl
  rw [e0]
  rfl

/-- C52, changesets: one row and two tags for each changeset id among the elements, in ascending order of
ids, with the user id that the last element of that changeset carries. -/
theorem C52_changesets (z : Codec) (uc cc : Int64 → Int64) (es : List Element) (files : Table → Text)
    (h : Dump z uc cc es files) :
    ∃ cs, LastValues (changesetUsers es) cs ∧
      files .changesets = tableText (cs.map fun p => Spec.changesetRow p.1 p.2 (clock (cc p.1))) ++ endMarker ∧
      files .changesetTags = tableText (cs.flatMap fun p => Spec.changesetTagRows p.1) ++ endMarker := by
  obtain ⟨w, w', ha, hc, rfl⟩ := h
  obtain ⟨f1, f2, f3, f4, f5, f6⟩ := writeAll_files ha
  refine ⟨_, written_entries (changesetUsers es), ?_, ?_⟩
  · rw [close_files hc .changesets, if_neg (by decide), if_neg (by decide), if_pos rfl,
      (f1 .changesets (fun e _ => by cases e <;> rfl)).1, f4, f6, foldl_changesets]
    have e0 : es.flatMap (histRows z .changesets) = [] := by
      rw [List.flatMap_eq_nil_iff]; intro e _; cases e <;> rfl
    rw [e0]
    rfl
  · rw [close_files hc .changesetTags, if_neg (by decide), if_neg (by decide), if_neg (by decide), if_pos rfl,
      (f1 .changesetTags (fun e _ => by cases e <;> rfl)).1, f4, f6, foldl_changesets]
    have e0 : es.flatMap (histRows z .changesetTags) = [] := by
      rw [List.flatMap_eq_nil_iff]; intro e _; cases e <;> rfl
    rw [e0]
    rfl

/-! ### C50 -/

/-- The rows of every table are free of a control character (newline or tab) if the codec and the names
are, and none of them looks like the end of the table. -/
theorem dump_rows {x : Char} (hx : ∀ t, Printable t → x ∉ t) {z : Codec} (hz : ∀ s, x ∉ z.escape s)
    {uc cc : Int64 → Int64} {es : List Element} {files : Table → Text} (h : Dump z uc cc es files)
    (hu : ∀ p ∈ userNames es, x ∉ p.2.toList) (t : Table) :
    ∃ rows, (∀ r ∈ rows, RowOk x r) ∧ files t = tableText rows ++ endMarker := by
  have pn := fun n => hx _ (printable_num n)
  have pf := fun b => hx _ (printable_flag b)
  have pt := fun b => hx _ (printable_clock b)
  have p0 := hx _ printable_null
  by_cases h1 : t = .users
  · subst h1
    obtain ⟨us, hl, e⟩ := C52_users z uc cc es files h
    refine ⟨_, ?_, e⟩
    intro r hr
    obtain ⟨p, hp, rfl⟩ := List.mem_map.1 hr
    have hname : x ∉ p.2.toList := by
      have : lastValue (userNames es) p.1 = some p.2 := (hl.2 p.1 p.2).1 hp
      unfold lastValue at this
      rw [Option.map_eq_some_iff] at this
      obtain ⟨q, hq, hq2⟩ := this
      have := hu q (List.mem_reverse.1 (List.mem_of_find?_eq_some hq))
      rwa [hq2] at this
    refine ⟨⟨'o', "sm-admin-user-".toList ++ num p.1.toInt ++ "@example.com".toList, _, rfl, by decide⟩, ?_⟩
    have c1 : x ∉ "osm-admin-user-".toList ++ num p.1.toInt ++ "@example.com".toList :=
      hx _ (.append (.append (by unfold Printable; decide) (printable_num _)) (by unfold Printable; decide))
    have c2 : x ∉ "00000000000000000000000000000000".toList := hx _ (by unfold Printable; decide)
    have c3 : x ∉ "00000000".toList := hx _ (by unfold Printable; decide)
    have c4 : x ∉ "pending".toList := hx _ (by unfold Printable; decide)
    have c5 : x ∉ "markdown".toList := hx _ (by unfold Printable; decide)
    have c6 : x ∉ clock (uc p.1) := pt (uc p.1)
    unfold Spec.userRow
    simp only [List.mem_cons, List.not_mem_nil, or_false, forall_eq_or_imp, forall_eq]
    exact ⟨c1, pn _, c2, c6, hname, pf _, hname, pn _, pn _, pn _, c3, pf _, p0, p0, p0, c4, p0, pf _, p0, p0, pf _, c5,
      pn _, pn _, pn _, pf _, p0, p0, p0⟩
  by_cases h2 : t = .changesets
  · subst h2
    obtain ⟨cs, hl, e, _⟩ := C52_changesets z uc cc es files h
    refine ⟨_, ?_, e⟩
    intro r hr
    obtain ⟨p, hp, rfl⟩ := List.mem_map.1 hr
    have c6 : x ∉ clock (cc p.1) := pt (cc p.1)
    refine rowOk_num hx ?_
    simp only [List.mem_cons, List.not_mem_nil, or_false, forall_eq_or_imp, forall_eq]
    exact ⟨pn _, c6, pn _, pn _, pn _, pn _, c6, pn _⟩
  by_cases h3 : t = .changesetTags
  · subst h3
    obtain ⟨cs, hl, _, e⟩ := C52_changesets z uc cc es files h
    refine ⟨_, ?_, e⟩
    intro r hr
    obtain ⟨p, hp, hr⟩ := List.mem_flatMap.1 hr
    have c1 : x ∉ "created_by".toList := hx _ (by unfold Printable; decide)
    have c2 : x ∉ "osm-io 0.2.2".toList := hx _ (by unfold Printable; decide)
    have c3 : x ∉ "replication".toList := hx _ (by unfold Printable; decide)
    have c4 : x ∉ "true".toList := hx _ (by unfold Printable; decide)
    simp only [Spec.changesetTagRows, List.mem_cons, List.not_mem_nil, or_false] at hr
    rcases hr with rfl | rfl
    · refine rowOk_num hx ?_
      simp only [List.mem_cons, List.not_mem_nil, or_false, forall_eq_or_imp, forall_eq]
      exact ⟨c1, c2⟩
    · refine rowOk_num hx ?_
      simp only [List.mem_cons, List.not_mem_nil, or_false, forall_eq_or_imp, forall_eq]
      exact ⟨c3, c4⟩
  by_cases h0 : t ∈ currentTables
  · obtain ⟨w, w', ha, hc, rfl⟩ := h
    have hh : ∀ e, histRows z t e = [] := by
      intro e
      simp only [currentTables, List.mem_cons, List.not_mem_nil, or_false] at h0
      rcases h0 with rfl | rfl | rfl | rfl | rfl | rfl | rfl | rfl <;> cases e <;> rfl
    obtain ⟨e1, e2⟩ := (writeAll_files ha).2.1 t (fun e _ => hh e)
    obtain ⟨rows, hr, e⟩ := runCur_rows (RowOk x) (Apidb.Writer.new.current t) [] (es.filterMap (event z t)) rfl
      (by simp) (by
        intro ev hev r hr
        obtain ⟨el, _, he⟩ := List.mem_filterMap.1 hev
        exact eventRows_ok hx hz t el ev he r hr)
    refine ⟨rows, hr, ?_⟩
    rw [close_files hc t, if_pos h0, e1, e2]
    have e0 : Apidb.Writer.new.files t = [] := rfl
    rw [e0, List.nil_append, e]
  · refine ⟨_, ?_, dump_plain h t ?_ h0 h1 h2 h3⟩
    · intro r hr
      obtain ⟨e, _, hr⟩ := List.mem_flatMap.1 hr
      exact histRows_ok hx hz t e r hr
    · intro e
      cases e <;> cases t <;> first | rfl | exact absurd (by decide) h0

/-- C50: each table file of a dump consists of its rows, one line each, and one end marker after them; no
row is empty or starts like an end marker. (The escapes and the user names must not contain a newline.) -/
theorem C50_terminated (z : Codec) (uc cc : Int64 → Int64) (es : List Element) (files : Table → Text)
    (h : Dump z uc cc es files) (hz : ∀ s, '\n' ∉ z.escape s) (hu : ∀ p ∈ userNames es, '\n' ∉ p.2.toList)
    (t : Table) :
    ∃ rows : List (List Text), files t = tableText rows ++ endMarker ∧
      lines (files t) = rows.map (List.intercalate ['\t']) ++ [['\\', '.']] ∧
      ∀ r ∈ rows, List.intercalate ['\t'] r ≠ [] ∧ ¬ (['\\', '.'] <+: List.intercalate ['\t'] r) := by
  obtain ⟨rows, hr, e⟩ := dump_rows (fun t h => h.newline) hz h hu t
  exact ⟨rows, e, by rw [e, lines_tableText fun r h => (hr r h).2], fun r h => rowOk_line (hr r h)⟩

/-- C50: the tables that hold no map data are empty but for the end marker. -/
theorem C50_empty (z : Codec) (uc cc : Int64 → Int64) (es : List Element) (files : Table → Text)
    (h : Dump z uc cc es files) (t : Table)
    (ht : t ∉ [.nodes, .nodeTags, .ways, .wayNodes, .wayTags, .relations, .relationMembers, .relationTags,
      .currentNodes, .currentNodeTags, .currentWays, .currentWayNodes, .currentWayTags, .currentRelations,
      .currentRelationMembers, .currentRelationTags, .users, .changesets, .changesetTags]) :
    files t = endMarker := by
  have := dump_plain h t
    (by intro e; cases e <;> cases t <;> first | rfl | exact absurd (by decide) ht)
    (by cases t <;> first | decide | exact absurd (by decide) ht)
    (by rintro rfl; exact ht (by decide)) (by rintro rfl; exact ht (by decide)) (by rintro rfl; exact ht (by decide))
  rw [this]
  have e0 : es.flatMap (histRows z t) = [] := by
    rw [List.flatMap_eq_nil_iff]
    intro e _
    cases e <;> cases t <;> first | rfl | exact absurd (by decide) ht
  rw [e0]
  rfl

/-! ### Which sequences of elements give a dump -/

theorem toSqlTimeMillis_inRange {t : Int64} (h : inRange (t.toInt / 1000) = true) :
    ∃ s, toSqlTimeMillis t = .ok s := ⟨_, by unfold toSqlTimeMillis; simp only; rw [if_pos h]⟩

theorem writeAll_total (z : Codec) (es : List Element) (h : ∀ e ∈ es, TimeOk e) :
    ∀ w : Apidb.Writer, ∃ w', w.writeAll z es = .ok w' := by
  induction es with
  | nil => exact fun w => ⟨w, rfl⟩
  | cons e es ih =>
    intro w
    have he := h e (by simp)
    have : ∃ w1, w.writeElement z e = .ok w1 := by
      cases e with
      | node n =>
        obtain ⟨s, hs⟩ := toSqlTimeMillis_inRange he
        exact ⟨_, by simp only [Writer.writeElement, Writer.writeNode, hs, Out.ok_bind]; rfl⟩
      | way n =>
        obtain ⟨s, hs⟩ := toSqlTimeMillis_inRange he
        exact ⟨_, by simp only [Writer.writeElement, Writer.writeWay, hs, Out.ok_bind]; rfl⟩
      | relation n =>
        obtain ⟨s, hs⟩ := toSqlTimeMillis_inRange he
        exact ⟨_, by simp only [Writer.writeElement, Writer.writeRelation, hs, Out.ok_bind]; rfl⟩
      | sentinel => exact ⟨w, rfl⟩
    obtain ⟨w1, h1⟩ := this
    obtain ⟨w2, h2⟩ := ih (fun e he => h e (by simp [he])) w1
    exact ⟨w2, by simp only [Writer.writeAll, h1, Out.ok_bind, h2]⟩

theorem writeUsers_total (clock : Int64 → Int64) (hc : ∀ k, inRange ((clock k).toInt / 1000000) = true)
    (us : List (Int64 × String)) : ∀ w : Apidb.Writer, ∃ w', w.writeUsers clock us = .ok w' := by
  induction us with
  | nil => exact fun w => ⟨w, rfl⟩
  | cons p us ih =>
    intro w
    have : ∃ s, toSqlTimeMicros (clock p.1) = .ok s :=
      ⟨_, by unfold toSqlTimeMicros; simp only; rw [if_pos (hc _)]⟩
    obtain ⟨s, hs⟩ := this
    obtain ⟨w', h'⟩ := ih (w.put .users (Apidb.userRow p.1 p.2 s))
    exact ⟨w', by simp only [Writer.writeUsers, hs, Out.ok_bind, h']⟩

theorem writeChangesets_total (clock : Int64 → Int64) (hc : ∀ k, inRange ((clock k).toInt / 1000000) = true)
    (us : List (Int64 × Int64)) : ∀ w : Apidb.Writer, ∃ w', w.writeChangesets clock us = .ok w' := by
  induction us with
  | nil => exact fun w => ⟨w, rfl⟩
  | cons p us ih =>
    intro w
    have : ∃ s, toSqlTimeMicros (clock p.1) = .ok s :=
      ⟨_, by unfold toSqlTimeMicros; simp only; rw [if_pos (hc _)]⟩
    obtain ⟨s, hs⟩ := this
    simp only [Writer.writeChangesets, hs, Out.ok_bind]
    exact ih _

/-- Every sequence of elements whose timestamps can be represented gives a dump (when the clock can be
represented): no order, uniqueness or reference is checked. -/
theorem dump_total (z : Codec) (uc cc : Int64 → Int64) (es : List Element) (h : ∀ e ∈ es, TimeOk e)
    (hu : ∀ k, inRange ((uc k).toInt / 1000000) = true) (hc : ∀ k, inRange ((cc k).toInt / 1000000) = true) :
    ∃ files, Dump z uc cc es files := by
  obtain ⟨w, hw⟩ := writeAll_total z es h Apidb.Writer.new
  have : ∃ w', w.close uc cc = .ok w' := by
    unfold Writer.close
    obtain ⟨w1, h1⟩ := writeUsers_total uc hu (entries w.flushCurrent.flushBuffers.userIndex) w.flushCurrent.flushBuffers
    obtain ⟨w2, h2⟩ := writeChangesets_total cc hc (entries w1.changesetIndex) w1
    exact ⟨_, by simp only [h1, Out.ok_bind, h2]; rfl⟩
  obtain ⟨w', hw'⟩ := this
  exact ⟨_, w, w', hw, hw', rfl⟩

/-! ### The conditions are needed -/

/-- C41: the order of the ids is needed. Of two visible nodes written in descending order of ids only the
second is in the current table. -/
theorem C41_needs_order (z : Codec) (uc cc : Int64 → Int64) (a b : Node) (files : Table → Text)
    (h : Dump z uc cc [.node a, .node b] files) (hid : b.id < a.id) (hv : b.visible = true) :
    files .currentNodes = tableText [currentNodeRow b] ++ endMarker := by
  obtain ⟨w, w', ha, hc, rfl⟩ := h
  obtain ⟨e1, e2⟩ := (writeAll_files ha).2.1 .currentNodes (fun e _ => by cases e <;> rfl)
  rw [close_files hc .currentNodes, if_pos (by decide), e1, e2]
  have hn : ¬ a.id < b.id := fun h => Int64.lt_irrefl (Int64.lt_trans h hid)
  simp [event, runCur, stepCur, CurrentObject.setLast, CurrentObject.setLastId, Writer.new, hv, hn, textOf, row_eq,
    tableText]

/-- C50: every call of `close` appends an end marker to each table, so `close` must be called once. -/
theorem C50_close_appends (uc cc : Int64 → Int64) (w w' : Apidb.Writer) (h : w.close uc cc = .ok w')
    (t : Table) : ∃ more, w'.files t = w.files t ++ more ++ endMarker := by
  rw [close_files h t]
  split
  · exact ⟨_, rfl⟩
  split
  · exact ⟨_, rfl⟩
  split
  · exact ⟨_, rfl⟩
  split
  · exact ⟨_, rfl⟩
  · exact ⟨[], by simp⟩

/-! ### A concrete dump -/

namespace DumpExample

def plain : Codec := ⟨fun s => s.toList, fun t => some (String.ofList t)⟩

def t0 : Int64 := 1704164645123

def n1 : Node := ⟨1, 1, ⟨515 / 10, -1 / 10⟩, t0, 5, 7, "Ada", true, [⟨"k", "old"⟩]⟩
def n2 : Node := ⟨1, 2, ⟨515 / 10, -1 / 10⟩, t0, 6, 7, "Ada L.", true, [⟨"k", "new"⟩, ⟨"name", "x"⟩]⟩
def n3 : Node := ⟨2, 1, ⟨515 / 10, 1 / 10⟩, t0, 6, 7, "Ada L.", false, []⟩
def y1 : Way := ⟨4, 1, t0, 5, 8, "Bob", true, [1, 2, 1], [⟨"highway", "path"⟩]⟩
def r1 : Relation := ⟨9, 1, t0, 6, 7, "Ada L.", true, [.node ⟨2, "stop"⟩, .way ⟨4, ""⟩, .node ⟨1, ""⟩], [⟨"type", "route"⟩]⟩

/-- Two versions of a node, a deleted node, a way and a relation; user 7 changed the name. -/
def es : List Element := [.node n1, .node n2, .node n3, .sentinel, .way y1, .sentinel, .relation r1]

/-- The example gives a dump. -/
theorem dump : ∃ files, Dump plain (fun _ => 0) (fun _ => 0) es files :=
  dump_total _ _ _ _ (by
    intro e he
    simp only [es, List.mem_cons, List.not_mem_nil, or_false] at he
    rcases he with rfl | rfl | rfl | rfl | rfl | rfl | rfl <;> (unfold TimeOk; trivial))
    (fun _ => by decide +kernel) (fun _ => by decide +kernel)

/-- The hypotheses of `C41_current_nodes`, `C41_current_ways` and `C41_current_relations`; the current
node is the second version of node 1. -/
example : (nodesOf es).Pairwise (fun a b => a.id ≤ b.id) ∧ (waysOf es).Pairwise (fun a b => a.id ≤ b.id) ∧
    (relationsOf es).Pairwise (fun a b => a.id ≤ b.id) ∧
    (lastVersions Node.id (nodesOf es)).filter Node.visible = [n2] := by
  refine ⟨by simp [nodesOf, es, n1, n2, n3], by simp [waysOf, es], by simp [relationsOf, es], by rfl⟩

/-- The users of the example: the last name of user 7. -/
example : LastValues (userNames es) [(7, "Ada L."), (8, "Bob")] := by
  obtain ⟨files, h⟩ := dump
  refine ⟨by decide +kernel, fun k v => ?_⟩
  have e : (userNames es) = [(7, "Ada"), (7, "Ada L."), (7, "Ada L."), (8, "Bob"), (7, "Ada L.")] := by rfl
  rw [e]
  unfold lastValue
  by_cases h7 : k = 7
  · subst h7; simp; exact eq_comm
  · by_cases h8 : k = 8
    · subst h8; simp; exact eq_comm
    · simp [h7, h8, Ne.symm h7, Ne.symm h8]

/-- `C50_terminated` on a table of the example. -/
example : ∃ files, Dump plain (fun _ => 0) (fun _ => 0) es files ∧
    lines (files .wayNodes) = ["4\t1\t1\t1".toList, "4\t2\t1\t2".toList, "4\t1\t1\t3".toList, "\\.".toList] := by
  obtain ⟨files, h⟩ := dump
  refine ⟨files, h, ?_⟩
  rw [(C42_history _ _ _ _ _ h).2.2.2.1]
  decide +kernel

/-- `C41_needs_order` on an example. -/
example : ∃ files, Dump plain (fun _ => 0) (fun _ => 0) [.node { n1 with id := 3 }, .node n1] files ∧
    files .currentNodes = tableText [currentNodeRow n1] ++ endMarker := by
  obtain ⟨files, h⟩ := dump_total plain (fun _ => 0) (fun _ => 0) [.node { n1 with id := 3 }, .node n1] (by
    intro e he
    simp only [List.mem_cons, List.not_mem_nil, or_false] at he
    rcases he with rfl | rfl <;> (unfold TimeOk; decide +kernel)) (fun _ => by decide +kernel) (fun _ => by decide +kernel)
  exact ⟨files, h, C41_needs_order _ _ _ _ _ _ h (by decide +kernel) rfl⟩

end DumpExample
end OsmIo
