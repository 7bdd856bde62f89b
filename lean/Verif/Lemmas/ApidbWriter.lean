import Verif.Spec.Apidb
import Verif.Lemmas.Sql
/-! Lemmas about the apidb writer: what each call appends to each table. -/
namespace OsmIo.Apidb
open OsmIo.Text OsmIo.Sql

theorem tabbed_eq (fs : List Text) : tabbed fs = List.intercalate ['\t'] fs := by
  induction fs with
  | nil => simp [tabbed, List.intercalate]
  | cons f fs ih =>
    cases fs with
    | nil => simp [tabbed, List.intercalate]
    | cons g gs =>
      rw [tabbed, List.intercalate_cons_cons, ← ih]
      · simp
      · simp

theorem row_eq (fs : List Text) : row fs = Spec.tableText [fs] := by
  simp [row, Spec.tableText, tabbed_eq]

theorem tableText_append (a b : List (List Text)) : Spec.tableText (a ++ b) = Spec.tableText a ++ Spec.tableText b := by
  simp [Spec.tableText]

theorem tableText_flatMap {α : Type} (f : α → List (List Text)) (l : List α) :
    Spec.tableText (l.flatMap f) = l.flatMap (fun a => Spec.tableText (f a)) := by
  simp [Spec.tableText, List.flatMap_assoc]

/-- An update of the pending current lines: id, visibility, rows. -/
structure Event where
  id : Int64
  visible : Bool
  rows : List (List Text)

/-- Text of rows. -/
def textOf (rows : List (List Text)) : List Text := rows.map fun cols => row cols

theorem textOf_flatten (rows : List (List Text)) : (textOf rows).flatten = Spec.tableText rows := by
  simp [textOf, Spec.tableText, row, tabbed_eq, List.flatMap_def]

/-- One `set_last_lines`, `set_last_id`: the lines released and the new state. -/
def stepCur (c : CurrentObject) (ev : Event) : Text × CurrentObject :=
  let p := c.setLast (textOf ev.rows) ev.id ev.visible
  (match p.1 with | some ls => ls.flatten | none => [], p.2.setLastId ev.id)

def runCur (c : CurrentObject) : List Event → Text × CurrentObject
  | [] => ([], c)
  | ev :: evs => ((stepCur c ev).1 ++ (runCur (stepCur c ev).2 evs).1, (runCur (stepCur c ev).2 evs).2)

/-- The rows an element adds to a history table. -/
def histRows (z : Codec) : Table → Element → List (List Text)
  | .nodes, .node n => [Spec.nodeRow n]
  | .nodeTags, .node n => Spec.nodeTagRows z n
  | .ways, .way y => [Spec.wayRow y]
  | .wayNodes, .way y => Spec.wayNodeRows y
  | .wayTags, .way y => Spec.wayTagRows z y
  | .relations, .relation r => [Spec.relationRow r]
  | .relationMembers, .relation r => Spec.relationMemberRows z r
  | .relationTags, .relation r => Spec.relationTagRows z r
  | _, _ => []

/-- The update an element causes in a current table. -/
def event (z : Codec) : Table → Element → Option Event
  | .currentNodes, .node n => some ⟨n.id, n.visible, [Spec.currentNodeRow n]⟩
  | .currentNodeTags, .node n => some ⟨n.id, n.visible, Spec.currentTagRows z n.id n.tags⟩
  | .currentWays, .way y => some ⟨y.id, y.visible, [Spec.currentWayRow y]⟩
  | .currentWayNodes, .way y => some ⟨y.id, y.visible, Spec.currentWayNodeRows y⟩
  | .currentWayTags, .way y => some ⟨y.id, y.visible, Spec.currentTagRows z y.id y.tags⟩
  | .currentRelations, .relation r => some ⟨r.id, r.visible, [Spec.currentRelationRow r]⟩
  | .currentRelationMembers, .relation r => some ⟨r.id, r.visible, Spec.currentRelationMemberRows z r⟩
  | .currentRelationTags, .relation r => some ⟨r.id, r.visible, Spec.currentTagRows z r.id r.tags⟩
  | _, _ => none

theorem put_files (w : Writer) (t t' : Table) (s : Text) :
    (w.put t s).files t' = if t' = t then w.files t' ++ s else w.files t' := rfl
theorem put_current (w : Writer) (t : Table) (s : Text) : (w.put t s).current = w.current := rfl
theorem put_userBuffer (w : Writer) (t : Table) (s : Text) : (w.put t s).userBuffer = w.userBuffer := rfl
theorem put_changesetBuffer (w : Writer) (t : Table) (s : Text) : (w.put t s).changesetBuffer = w.changesetBuffer := rfl
theorem put_userIndex (w : Writer) (t : Table) (s : Text) : (w.put t s).userIndex = w.userIndex := rfl
theorem put_changesetIndex (w : Writer) (t : Table) (s : Text) : (w.put t s).changesetIndex = w.changesetIndex := rfl

theorem putCurrent_files (w : Writer) (t t' : Table) (rows : List (List Text)) (id : Int64) (v : Bool) :
    (w.putCurrent t (textOf rows) id v).files t' =
      if t' = t then w.files t' ++ (stepCur (w.current t) ⟨id, v, rows⟩).1 else w.files t' := by
  unfold Writer.putCurrent stepCur
  simp only
  cases ((w.current t).setLast (textOf rows) id v).1 <;> simp [put_files]

theorem putCurrent_current (w : Writer) (t t' : Table) (rows : List (List Text)) (id : Int64) (v : Bool) :
    (w.putCurrent t (textOf rows) id v).current t' =
      if t' = t then (stepCur (w.current t) ⟨id, v, rows⟩).2 else w.current t' := by
  unfold Writer.putCurrent stepCur
  simp only
  cases ((w.current t).setLast (textOf rows) id v).1 <;> simp [put_current]

theorem putCurrent_buffers (w : Writer) (t : Table) (ls : List Text) (id : Int64) (v : Bool) :
    (w.putCurrent t ls id v).userBuffer = w.userBuffer ∧
    (w.putCurrent t ls id v).changesetBuffer = w.changesetBuffer ∧
    (w.putCurrent t ls id v).userIndex = w.userIndex ∧
    (w.putCurrent t ls id v).changesetIndex = w.changesetIndex := by
  unfold Writer.putCurrent
  simp only
  cases ((w.current t).setLast ls id v).1 <;> simp [Writer.put]

theorem toSqlTimeMillis_ok {t : Int64} {s : Text} (h : toSqlTimeMillis t = .ok s) : s = Spec.time t := by
  unfold toSqlTimeMillis at h
  extract_lets secs at h
  split at h
  · injection h with h; exact h.symm
  · cases h

/-- Owner data of an element: uid, user name, changeset. -/
def owner : Element → Option (Int32 × String × Int64)
  | .node n => some (n.uid, n.user, n.changeset)
  | .way y => some (y.uid, y.user, y.changeset)
  | .relation r => some (r.uid, r.user, r.changeset)
  | .sentinel => none

/-- The user and changeset indexes after an element. -/
def users1 (m : List (Int64 × String)) (e : Element) : List (Int64 × String) :=
  match owner e with | some (uid, name, _) => insertKey uid.toInt64 name m | none => m
def changesets1 (m : List (Int64 × Int64)) (e : Element) : List (Int64 × Int64) :=
  match owner e with | some (uid, _, cs) => insertKey cs uid.toInt64 m | none => m

/-- The effect of one `write_element` on every table. -/
structure Stepped (z : Codec) (w : Writer) (e : Element) (w' : Writer) : Prop where
  files : ∀ t, w'.files t = w.files t ++ Spec.tableText (histRows z t e) ++
    (match event z t e with | some ev => (stepCur (w.current t) ev).1 | none => [])
  current : ∀ t, w'.current t = (match event z t e with | some ev => (stepCur (w.current t) ev).2 | none => w.current t)
  userBuffer : w'.userBuffer = users1 w.userBuffer e
  changesetBuffer : w'.changesetBuffer = changesets1 w.changesetBuffer e
  userIndex : w'.userIndex = w.userIndex
  changesetIndex : w'.changesetIndex = w.changesetIndex

theorem flatMap_row {α : Type} (l : List α) (f : α → List Text) :
    l.flatMap (fun a => row (f a)) = Spec.tableText (l.map f) := by
  simp [row, Spec.tableText, tabbed_eq, List.flatMap_map]

theorem map_row {α : Type} (l : List α) (f : α → List Text) :
    l.map (fun a => row (f a)) = textOf (l.map f) := by
  simp [textOf]

theorem nil_tableText : Spec.tableText [] = [] := rfl

theorem toSqlBool_eq (b : Bool) : toSqlBool b = Spec.flag b := by cases b <;> rfl

theorem showInt_natCast (n : Nat) : showInt (n : Int) = showNat n := by
  unfold showInt; rw [if_neg (by omega)]; simp

theorem null_eq : "\\N".toList = Spec.null := by decide

theorem writeNode_step {z : Codec} {w w' : Writer} {n : Node} (h : w.writeNode z n = .ok w') :
    Stepped z w (.node n) w' := by
  unfold Writer.writeNode at h
  cases ht : toSqlTimeMillis n.timestamp with
  | err => rw [ht] at h; simp at h
  | panic => rw [ht] at h; simp at h
  | ok s =>
    rw [ht] at h
    have hs := toSqlTimeMillis_ok ht
    subst hs
    simp only [Out.ok_bind, Out.pure_eq] at h
    injection h with h
    have e1 : [row [showInt n.id.toInt, showInt n.coordinate.lat7.toInt, showInt n.coordinate.lon7.toInt,
        showInt n.changeset.toInt, toSqlBool n.visible, Spec.time n.timestamp,
        showNat (calculateTile n.coordinate.lat n.coordinate.lon), showInt n.version.toInt]] =
        textOf [Spec.currentNodeRow n] := by
      simp only [textOf, Spec.currentNodeRow, Spec.num, showInt_natCast, toSqlBool_eq, List.map_cons, List.map_nil]
    have e2 : (n.tags.map fun tag => row [showInt n.id.toInt, z.escape tag.k, z.escape tag.v]) =
        textOf (Spec.currentTagRows z n.id n.tags) := by rw [map_row]; rfl
    have e3 : row [showInt n.id.toInt, showInt n.coordinate.lat7.toInt,
        showInt n.coordinate.lon7.toInt, showInt n.changeset.toInt, toSqlBool n.visible, Spec.time n.timestamp,
        showNat (calculateTile n.coordinate.lat n.coordinate.lon), showInt n.version.toInt, "\\N".toList] =
        Spec.tableText [Spec.nodeRow n] := by
      rw [row_eq, null_eq, toSqlBool_eq, ← showInt_natCast]; rfl
    have e4 : (n.tags.flatMap fun tag =>
        row [showInt n.id.toInt, showInt n.version.toInt, z.escape tag.k, z.escape tag.v]) =
        Spec.tableText (Spec.nodeTagRows z n) := by rw [flatMap_row]; rfl
    rw [e1, e2, e3, e4] at h
    subst h
    refine ⟨?_, ?_, ?_, ?_, ?_, ?_⟩
    · intro t
      simp only [putCurrent_files, putCurrent_current, put_files, put_current, Writer.index]
      cases t <;> simp [histRows, event, nil_tableText]
    · intro t
      simp only [putCurrent_current, put_current, Writer.index]
      cases t <;> simp [event]
    all_goals
      simp only [(putCurrent_buffers _ _ _ _ _).1, (putCurrent_buffers _ _ _ _ _).2.1,
        (putCurrent_buffers _ _ _ _ _).2.2.1, (putCurrent_buffers _ _ _ _ _).2.2.2, put_userBuffer,
        put_changesetBuffer, put_userIndex, put_changesetIndex, Writer.index, users1, changesets1, owner]

theorem zipIdx_one {α : Type} (l : List α) (k : Nat) : l.zipIdx (k + 1) = (l.zipIdx k).map (fun p => (p.1, p.2 + 1)) := by
  induction l generalizing k with
  | nil => rfl
  | cons a l ih => simp [List.zipIdx_cons, ih]

theorem writeWay_step {z : Codec} {w w' : Writer} {y : Way} (h : w.writeWay z y = .ok w') :
    Stepped z w (.way y) w' := by
  unfold Writer.writeWay at h
  cases ht : toSqlTimeMillis y.timestamp with
  | err => rw [ht] at h; simp at h
  | panic => rw [ht] at h; simp at h
  | ok s =>
    rw [ht] at h
    have hs := toSqlTimeMillis_ok ht
    subst hs
    simp only [Out.ok_bind, Out.pure_eq] at h
    injection h with h
    have e1 : (y.refs.zipIdx.flatMap fun (node, seq) =>
        row [showInt y.id.toInt, showInt node.toInt, showInt y.version.toInt, showNat (seq + 1)]) =
        Spec.tableText (Spec.wayNodeRows y) := by
      unfold Spec.wayNodeRows
      rw [show (1 : Nat) = 0 + 1 from rfl, zipIdx_one, List.map_map, ← flatMap_row]
      congr 1
    have e2 : (y.refs.zipIdx.map fun (node, seq) =>
        row [showInt y.id.toInt, showInt node.toInt, showNat (seq + 1)]) =
        textOf (Spec.currentWayNodeRows y) := by
      unfold Spec.currentWayNodeRows
      rw [show (1 : Nat) = 0 + 1 from rfl, zipIdx_one, List.map_map, ← map_row]
      congr 1
    have e3 : (y.tags.flatMap fun tag =>
        row [showInt y.id.toInt, z.escape tag.k, z.escape tag.v, showInt y.version.toInt]) =
        Spec.tableText (Spec.wayTagRows z y) := by rw [flatMap_row]; rfl
    have e4 : (y.tags.map fun tag => row [showInt y.id.toInt, z.escape tag.k, z.escape tag.v]) =
        textOf (Spec.currentTagRows z y.id y.tags) := by rw [map_row]; rfl
    have e5 : [row [showInt y.id.toInt, showInt y.changeset.toInt, Spec.time y.timestamp,
        toSqlBool y.visible, showInt y.version.toInt]] = textOf [Spec.currentWayRow y] := by
      rw [toSqlBool_eq]; rfl
    have e6 : row [showInt y.id.toInt, showInt y.changeset.toInt, Spec.time y.timestamp,
        showInt y.version.toInt, toSqlBool y.visible, "\\N".toList] = Spec.tableText [Spec.wayRow y] := by
      rw [row_eq, null_eq, toSqlBool_eq]; rfl
    rw [e1, e2, e3, e4, e5, e6] at h
    subst h
    refine ⟨?_, ?_, ?_, ?_, ?_, ?_⟩
    · intro t
      simp only [putCurrent_files, putCurrent_current, put_files, put_current, Writer.index]
      cases t <;> simp [histRows, event, nil_tableText]
    · intro t
      simp only [putCurrent_current, put_current, Writer.index]
      cases t <;> simp [event]
    all_goals
      simp only [(putCurrent_buffers _ _ _ _ _).1, (putCurrent_buffers _ _ _ _ _).2.1,
        (putCurrent_buffers _ _ _ _ _).2.2.1, (putCurrent_buffers _ _ _ _ _).2.2.2, put_userBuffer,
        put_changesetBuffer, put_userIndex, put_changesetIndex, Writer.index, users1, changesets1, owner]

theorem memberParts_eq (m : Member) : memberParts m = (Spec.memberId m, Spec.memberRole m, Spec.memberType m) := by
  cases m <;> simp [memberParts, Spec.memberId, Spec.memberRole, Spec.memberType]

theorem writeRelation_step {z : Codec} {w w' : Writer} {r : Relation} (h : w.writeRelation z r = .ok w') :
    Stepped z w (.relation r) w' := by
  unfold Writer.writeRelation at h
  cases ht : toSqlTimeMillis r.timestamp with
  | err => rw [ht] at h; simp at h
  | panic => rw [ht] at h; simp at h
  | ok s =>
    rw [ht] at h
    have hs := toSqlTimeMillis_ok ht
    subst hs
    simp only [Out.ok_bind, Out.pure_eq, memberParts_eq] at h
    injection h with h
    have e1 : (r.members.zipIdx.flatMap fun (m, seq) =>
        row [showInt r.id.toInt, Spec.memberType m, showInt (Spec.memberId m).toInt, z.escape (Spec.memberRole m),
          showInt r.version.toInt, showNat (seq + 1)]) =
        Spec.tableText (Spec.relationMemberRows z r) := by
      unfold Spec.relationMemberRows
      rw [show (1 : Nat) = 0 + 1 from rfl, zipIdx_one, List.map_map, ← flatMap_row]
      congr 1
    have e2 : (r.members.zipIdx.map fun (m, seq) =>
        row [showInt r.id.toInt, Spec.memberType m, showInt (Spec.memberId m).toInt, z.escape (Spec.memberRole m),
          showNat (seq + 1)]) =
        textOf (Spec.currentRelationMemberRows z r) := by
      unfold Spec.currentRelationMemberRows
      rw [show (1 : Nat) = 0 + 1 from rfl, zipIdx_one, List.map_map, ← map_row]
      congr 1
    have e3 : (r.tags.flatMap fun tag =>
        row [showInt r.id.toInt, z.escape tag.k, z.escape tag.v, showInt r.version.toInt]) =
        Spec.tableText (Spec.relationTagRows z r) := by rw [flatMap_row]; rfl
    have e4 : (r.tags.map fun tag => row [showInt r.id.toInt, z.escape tag.k, z.escape tag.v]) =
        textOf (Spec.currentTagRows z r.id r.tags) := by rw [map_row]; rfl
    have e5 : [row [showInt r.id.toInt, showInt r.changeset.toInt, Spec.time r.timestamp,
        toSqlBool r.visible, showInt r.version.toInt]] = textOf [Spec.currentRelationRow r] := by
      rw [toSqlBool_eq]; rfl
    have e6 : row [showInt r.id.toInt, showInt r.changeset.toInt, Spec.time r.timestamp,
        showInt r.version.toInt, toSqlBool r.visible, "\\N".toList] = Spec.tableText [Spec.relationRow r] := by
      rw [row_eq, null_eq, toSqlBool_eq]; rfl
    rw [e1, e2, e3, e4, e5, e6] at h
    subst h
    refine ⟨?_, ?_, ?_, ?_, ?_, ?_⟩
    · intro t
      simp only [putCurrent_files, putCurrent_current, put_files, put_current, Writer.index]
      cases t <;> simp [histRows, event, nil_tableText]
    · intro t
      simp only [putCurrent_current, put_current, Writer.index]
      cases t <;> simp [event]
    all_goals
      simp only [(putCurrent_buffers _ _ _ _ _).1, (putCurrent_buffers _ _ _ _ _).2.1,
        (putCurrent_buffers _ _ _ _ _).2.2.1, (putCurrent_buffers _ _ _ _ _).2.2.2, put_userBuffer,
        put_changesetBuffer, put_userIndex, put_changesetIndex, Writer.index, users1, changesets1, owner]

theorem writeElement_step {z : Codec} {w w' : Writer} {e : Element} (h : w.writeElement z e = .ok w') :
    Stepped z w e w' := by
  cases e with
  | node n => exact writeNode_step h
  | way y => exact writeWay_step h
  | relation r => exact writeRelation_step h
  | sentinel =>
    simp only [Writer.writeElement] at h
    injection h with h; subst h
    refine ⟨?_, ?_, rfl, rfl, rfl, rfl⟩
    · intro t; simp [histRows, event, nil_tableText]
    · intro t; simp [event]

/-- The effect of a sequence of calls. -/
theorem writeAll_files {z : Codec} {w w' : Writer} {es : List Element} (h : w.writeAll z es = .ok w') :
    (∀ t, (∀ e ∈ es, event z t e = none) →
      w'.files t = w.files t ++ Spec.tableText (es.flatMap (histRows z t)) ∧ w'.current t = w.current t) ∧
    (∀ t, (∀ e ∈ es, histRows z t e = []) →
      w'.files t = w.files t ++ (runCur (w.current t) (es.filterMap (event z t))).1 ∧
      w'.current t = (runCur (w.current t) (es.filterMap (event z t))).2) ∧
    w'.userBuffer = es.foldl users1 w.userBuffer ∧
    w'.changesetBuffer = es.foldl changesets1 w.changesetBuffer ∧
    w'.userIndex = w.userIndex ∧ w'.changesetIndex = w.changesetIndex := by
  induction es generalizing w with
  | nil =>
    simp only [Writer.writeAll] at h
    injection h with h; subst h
    simp [nil_tableText, runCur]
  | cons e es ih =>
    simp only [Writer.writeAll] at h
    obtain ⟨w1, h1, h2⟩ := Out.bind_eq_ok.1 h
    have st := writeElement_step h1
    obtain ⟨i1, i2, i3, i4, i5, i6⟩ := ih h2
    refine ⟨?_, ?_, ?_, ?_, ?_, ?_⟩
    · intro t ht
      have he := ht e (by simp)
      have := i1 t (fun x hx => ht x (by simp [hx]))
      rw [this.1, this.2, st.files, st.current, he]
      simp [tableText_append]
    · intro t ht
      have he := ht e (by simp)
      have := i2 t (fun x hx => ht x (by simp [hx]))
      rw [this.1, this.2, st.files, st.current, he]
      cases hev : event z t e with
      | none => simp [hev, nil_tableText]
      | some ev => simp [hev, nil_tableText, runCur]
    · rw [i3, st.userBuffer]; rfl
    · rw [i4, st.changesetBuffer]; rfl
    · rw [i5, st.userIndex]
    · rw [i6, st.changesetIndex]

/-! ### Closing -/

theorem flushOne_files (w : Writer) (t t' : Table) :
    (w.flushOne t).files t' = if t' = t then w.files t' ++ ((w.current t).last.getD []).flatten else w.files t' := by
  unfold Writer.flushOne
  cases (w.current t).last <;> simp [put_files]

theorem flushOne_current (w : Writer) (t t' : Table) (h : t' ≠ t) : (w.flushOne t).current t' = w.current t' := by
  unfold Writer.flushOne
  simp [h]

theorem flushOne_rest (w : Writer) (t : Table) :
    (w.flushOne t).userBuffer = w.userBuffer ∧ (w.flushOne t).changesetBuffer = w.changesetBuffer ∧
    (w.flushOne t).userIndex = w.userIndex ∧ (w.flushOne t).changesetIndex = w.changesetIndex := by
  unfold Writer.flushOne
  cases (w.current t).last <;> simp [Writer.put]

/-- The tables with pending lines. -/
def currentTables : List Table :=
  [.currentNodes, .currentNodeTags, .currentWays, .currentWayTags, .currentWayNodes, .currentRelations,
   .currentRelationTags, .currentRelationMembers]

theorem flushCurrent_files (w : Writer) (t : Table) :
    w.flushCurrent.files t =
      if t ∈ currentTables then w.files t ++ ((w.current t).last.getD []).flatten else w.files t := by
  unfold Writer.flushCurrent
  simp only [flushOne_files]
  cases t <;> simp [currentTables, flushOne_current]

theorem flushCurrent_rest (w : Writer) :
    w.flushCurrent.userBuffer = w.userBuffer ∧ w.flushCurrent.changesetBuffer = w.changesetBuffer ∧
    w.flushCurrent.userIndex = w.userIndex ∧ w.flushCurrent.changesetIndex = w.changesetIndex := by
  unfold Writer.flushCurrent
  simp [flushOne_rest]

/-- The columns of a row of `users`. -/
def userCols (id : Int64) (name : String) (time : Text) : List Text :=
  ["osm-admin-user-".toList ++ showInt id.toInt ++ "@example.com".toList, showInt id.toInt,
    "00000000000000000000000000000000".toList, time, name.toList, toSqlBool true, name.toList,
    showInt 0, showInt 0, showInt 3, "00000000".toList, toSqlBool false, "\\N".toList, "\\N".toList,
    "\\N".toList, "pending".toList, "\\N".toList, toSqlBool false, "\\N".toList, "\\N".toList, toSqlBool false,
    "markdown".toList, showInt 0, showInt 0, showInt 0, toSqlBool false, "\\N".toList, "\\N".toList, "\\N".toList]

/-- Text of the time of a clock. -/
def clockText (t : Int64) : Text := showSeconds (t.toInt / 1000000) ++ '.' :: padNat 6 (t.toInt % 1000000).toNat

theorem toSqlTimeMicros_ok {t : Int64} {s : Text} (h : toSqlTimeMicros t = .ok s) : s = clockText t := by
  unfold toSqlTimeMicros at h
  extract_lets secs at h
  split at h
  · injection h with h; exact h.symm
  · cases h

theorem writeUsers_files {clock : Int64 → Int64} {w w' : Writer} {us : List (Int64 × String)}
    (h : w.writeUsers clock us = .ok w') (t : Table) :
    w'.files t = (if t = .users then
      w.files t ++ Spec.tableText (us.map fun p => userCols p.1 p.2 (clockText (clock p.1))) else w.files t) ∧
    w'.changesetIndex = w.changesetIndex := by
  induction us generalizing w with
  | nil =>
    simp only [Writer.writeUsers] at h
    injection h with h; subst h
    simp [nil_tableText]
  | cons u us ih =>
    obtain ⟨id, name⟩ := u
    simp only [Writer.writeUsers] at h
    obtain ⟨s, hs, h⟩ := Out.bind_eq_ok.1 h
    have := toSqlTimeMicros_ok hs; subst this
    obtain ⟨i1, i2⟩ := ih h
    rw [i1, i2]
    constructor
    · simp only [put_files]
      split
      · rw [show userRow id name (clockText (clock id)) = Spec.tableText [userCols id name (clockText (clock id))] from
          row_eq _, List.append_assoc, ← tableText_append]
        simp
      · rfl
    · rfl

/-- The rows of `changesets` and `changeset_tags`. -/
def changesetCols (id uid : Int64) (time : Text) : List Text :=
  [showInt id.toInt, showInt uid.toInt, time, showInt (-900000000),
      showInt 900000000, showInt (-1800000000), showInt 1800000000, time, showInt 0]

def changesetTagCols (id : Int64) : List (List Text) :=
  [[showInt id.toInt, "created_by".toList, "osm-io 0.2.2".toList], [showInt id.toInt, "replication".toList, "true".toList]]

theorem writeChangesets_files {clock : Int64 → Int64} {w w' : Writer} {cs : List (Int64 × Int64)}
    (h : w.writeChangesets clock cs = .ok w') (t : Table) :
    w'.files t = (if t = .changesets then
      w.files t ++ Spec.tableText (cs.map fun p => changesetCols p.1 p.2 (clockText (clock p.1)))
      else if t = .changesetTags then w.files t ++ Spec.tableText (cs.flatMap fun p => changesetTagCols p.1)
      else w.files t) := by
  induction cs generalizing w with
  | nil =>
    simp only [Writer.writeChangesets] at h
    injection h with h; subst h
    simp [nil_tableText]
  | cons c cs ih =>
    obtain ⟨id, uid⟩ := c
    simp only [Writer.writeChangesets] at h
    obtain ⟨s, hs, h⟩ := Out.bind_eq_ok.1 h
    have := toSqlTimeMicros_ok hs; subst this
    rw [ih h]
    simp only [put_files, row_eq]
    by_cases h1 : t = .changesets
    · subst h1
      simp only [reduceCtorEq, if_true, if_false, List.append_assoc, ← tableText_append]
      rfl
    · by_cases h2 : t = .changesetTags
      · subst h2
        simp only [reduceCtorEq, if_true, if_false, List.append_assoc, ← tableText_append]
        rfl
      · simp [h1, h2]

theorem closeTables_files (w : Writer) (ts : List Table) (t : Table) :
    (w.closeTables ts).files t = w.files t ++ (List.replicate (ts.count t) Spec.endMarker).flatten := by
  induction ts generalizing w with
  | nil => simp [Writer.closeTables]
  | cons a ts ih =>
    simp only [Writer.closeTables]
    rw [ih, put_files]
    have hm : "\\.\n".toList = Spec.endMarker := by decide
    rw [hm]
    by_cases h : t = a
    · subst h
      rw [if_pos rfl, List.count_cons_self, List.replicate_succ]
      simp
    · rw [if_neg h, List.count_cons_of_ne (fun h' => h h'.symm)]

/-- Every table is closed exactly once. -/
theorem closeOrder_count (t : Table) : closeOrder.count t = 1 := by
  cases t <;> decide

/-- What `close` leaves in each table. -/
theorem close_files {uc cc : Int64 → Int64} {w w' : Writer} (h : w.close uc cc = .ok w') (t : Table) :
    w'.files t =
      (if t ∈ currentTables then w.files t ++ ((w.current t).last.getD []).flatten
       else if t = .users then w.files t ++ Spec.tableText
          ((entries (w.userBuffer.foldr (fun p m => insertKey p.1 p.2 m) w.userIndex)).map
            fun p => userCols p.1 p.2 (clockText (uc p.1)))
       else if t = .changesets then w.files t ++ Spec.tableText
          ((entries (w.changesetBuffer.foldr (fun p m => insertKey p.1 p.2 m) w.changesetIndex)).map
            fun p => changesetCols p.1 p.2 (clockText (cc p.1)))
       else if t = .changesetTags then w.files t ++ Spec.tableText
          ((entries (w.changesetBuffer.foldr (fun p m => insertKey p.1 p.2 m) w.changesetIndex)).flatMap
            fun p => changesetTagCols p.1)
       else w.files t) ++ Spec.endMarker := by
  unfold Writer.close at h
  obtain ⟨w1, h1, h⟩ := Out.bind_eq_ok.1 h
  obtain ⟨w2, h2, h⟩ := Out.bind_eq_ok.1 h
  simp only [Out.pure_eq] at h
  injection h with h; subst h
  have e1 := writeUsers_files h1 t
  have e2 := writeChangesets_files h2 t
  rw [closeTables_files, closeOrder_count, e2, e1.1, e1.2]
  have hr := flushCurrent_rest w
  have hf : w.flushCurrent.flushBuffers.files = w.flushCurrent.files := rfl
  have hu : w.flushCurrent.flushBuffers.userIndex = w.userBuffer.foldr (fun p m => insertKey p.1 p.2 m) w.userIndex := by
    unfold Writer.flushBuffers; simp only [hr.1, hr.2.2.1]
  have hc : w.flushCurrent.flushBuffers.changesetIndex =
      w.changesetBuffer.foldr (fun p m => insertKey p.1 p.2 m) w.changesetIndex := by
    unfold Writer.flushBuffers; simp only [hr.2.1, hr.2.2.2]
  rw [hf, hu, hc, flushCurrent_files]
  simp only [List.replicate_one, List.flatten_cons, List.flatten_nil, List.append_nil]
  congr 1
  by_cases h0 : t ∈ currentTables
  · have a1 : t ≠ .users := by rintro rfl; revert h0; decide
    have a2 : t ≠ .changesets := by rintro rfl; revert h0; decide
    have a3 : t ≠ .changesetTags := by rintro rfl; revert h0; decide
    simp only [h0, a1, a2, a3, if_true, if_false]
  · by_cases h1 : t = .users
    · subst h1; simp [currentTables]
    · by_cases h2 : t = .changesets
      · subst h2; simp [currentTables]
      · simp only [h0, h1, h2, if_false]

/-! ### Last visible versions -/

/-- The rows of the visible last versions. -/
def lastVis : List Event → List (List Text)
  | [] => []
  | e :: es => (if es.any (fun b => b.id = e.id) then [] else if e.visible then e.rows else []) ++ lastVis es

theorem runCur_spec (c : CurrentObject) (prev : List (List Text)) (evs : List Event)
    (hc : (c.last = none ∧ prev = []) ∨ (c.last = some (textOf prev) ∧ ∀ e ∈ evs, c.lastId ≤ e.id))
    (hs : evs.Pairwise (fun a b => a.id ≤ b.id)) :
    (runCur c evs).1 ++ ((runCur c evs).2.last.getD []).flatten =
      Spec.tableText ((if evs.any (fun b => b.id = c.lastId) then [] else prev) ++ lastVis evs) := by
  induction evs generalizing c prev with
  | nil =>
    simp only [runCur, List.any_nil, lastVis, List.append_nil, List.nil_append]
    rcases hc with ⟨h, rfl⟩ | ⟨h, _⟩
    · simp [h, nil_tableText]
    · simp [h, textOf_flatten]
  | cons e es ih =>
    have hs' := List.pairwise_cons.1 hs
    simp only [runCur]
    have hst : (stepCur c e).2 = ⟨e.id, if e.visible then some (textOf e.rows) else none⟩ := by
      unfold stepCur CurrentObject.setLast CurrentObject.setLastId
      simp only
      split <;> cases e.visible <;> simp
    have hout : (stepCur c e).1 = Spec.tableText (if (e :: es).any (fun b => b.id = c.lastId) then [] else prev) := by
      unfold stepCur CurrentObject.setLast
      simp only
      rcases hc with ⟨h, rfl⟩ | ⟨h, hle⟩
      · rw [h]; simp only [ite_self]; by_cases hg : e.id > c.lastId <;> simp [nil_tableText]
      · have hge := hle e (by simp)
        by_cases hgt : e.id > c.lastId
        · have hany : (e :: es).any (fun b => b.id = c.lastId) = false := by
            simp only [List.any_eq_false, decide_eq_true_eq]
            intro x hx heq
            rcases List.mem_cons.1 hx with rfl | hx
            · rw [heq] at hgt; exact absurd hgt (Int64.lt_irrefl)
            · have := hs'.1 x hx
              rw [heq] at this
              exact absurd (Int64.lt_of_lt_of_le hgt this) (Int64.lt_irrefl)
          rw [hany, if_pos hgt, h]
          simp [textOf_flatten]
        · have heq : e.id = c.lastId := Int64.le_antisymm (Int64.not_lt.1 hgt) hge
          rw [if_neg hgt]
          simp [heq, nil_tableText]
    rw [hst, hout]
    have := ih ⟨e.id, if e.visible then some (textOf e.rows) else none⟩
      (if e.visible then e.rows else [])
      (by
        cases hv : e.visible
        · left; simp
        · right; simp; exact hs'.1) hs'.2
    rw [List.append_assoc, this, ← tableText_append]
    rfl

end OsmIo.Apidb
