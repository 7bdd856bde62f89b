import Verif.Lemmas.DumpSessions
import Verif.Props.ApidbRoundTrip
import Verif.Props.ApidbSortable
/-!
# One writer of a dump closed several times (C95)
-/
namespace OsmIo
open Text Sql Apidb Spec

/-- C95: the files a writer leaves behind after any number of sessions, each ended by `close`. In the tables of users and changesets each
`close` adds all users and changesets since the beginning once more; in all other tables, the current ones included, a session adds what
it would leave behind alone. Each part ends with an end marker (C50). -/
theorem C95_files (z : Codec) (ss : List Session) (files : Table → Text) :
    InSessions z ss files ↔ ∃ parts, SessionParts z [] ss parts ∧ ∀ t, files t = parts.flatMap (· t) := by
  constructor
  · rintro ⟨w, h, rfl⟩
    obtain ⟨-, parts, hp, hf⟩ := sessions_parts between_new h
    exact ⟨parts, hp, fun t => by rw [hf]; rfl⟩
  · rintro ⟨parts, hp, hf⟩
    obtain ⟨w, h, hw⟩ := parts_sessions between_new hp
    exact ⟨w, h, funext fun t => by rw [hf, hw]; rfl⟩

/-! ### Lines -/

/-- What the sort keeps does not depend on where the end markers are. -/
theorem filtered_parts (rss : List (List (List Text))) (hg : ∀ rows ∈ rss, ∀ r ∈ rows, Good r) :
    (lines (rss.flatMap fun rows => tableText rows ++ endMarker)).filter (fun l => l ≠ [] ∧ l ≠ ['\\', '.']) =
      (lines (tableText rss.flatten ++ endMarker)).filter (fun l => l ≠ [] ∧ l ≠ ['\\', '.']) := by
  have hcol : ∀ rows ∈ rss, ∀ r ∈ rows, '\n' ∉ List.intercalate ['\t'] r := by
    intro rows hr r hm
    rw [← tabbed_eq]
    exact newline_not_mem_tabbed (hg rows hr r hm).2.2
  have e : (rss.flatMap fun rows => tableText rows ++ endMarker) =
      (rss.flatMap fun rows => rows.map (List.intercalate ['\t']) ++ [['\\', '.']]).flatMap (fun l => l ++ ['\n']) := by
    simp [tableText, endMarker, List.flatMap_map, List.flatMap_assoc]
  have hm : [(['\\', '.'] : Text)].filter (fun l => l ≠ [] ∧ l ≠ ['\\', '.']) = [] := by decide
  rw [e, lines_of_lines, lines_tableText, List.filter_append, hm, List.append_nil, List.filter_flatMap, List.map_flatten, List.filter_flatten]
  · simp only [List.flatMap, List.map_map]
    congr 1
    apply List.map_congr_left
    intro rows _
    simp only [Function.comp, List.filter_append, hm, List.append_nil]
  · intro r hr
    obtain ⟨rows, h1, h2⟩ := List.mem_flatten.1 hr
    exact (hg rows h1 r h2).2.2
  · intro l hl
    obtain ⟨rows, h1, h2⟩ := List.mem_flatMap.1 hl
    rcases List.mem_append.1 h2 with h2 | h2
    · obtain ⟨r, hr, rfl⟩ := List.mem_map.1 h2
      exact hcol rows h1 r hr
    · simp at h2; subst h2; decide

theorem sorted_parts {le : Text → Text → Prop} {key : List (Nat × FieldType)} {text sorted : Text} (rss : List (List (List Text)))
    (hg : ∀ rows ∈ rss, ∀ r ∈ rows, Good r) (e : text = rss.flatMap fun rows => tableText rows ++ endMarker) (h : Sorted le key text sorted) :
    Sorted le key (tableText rss.flatten ++ endMarker) sorted :=
  ⟨by rw [← filtered_parts rss hg, ← e]; exact h.perm, h.order⟩

/-! ### The parts of a table -/

theorem parts_history {z : Codec} {t : Table} (hc : t ∉ currentTables) (ho : t ∉ ownerTables) :
    ∀ {ss : List Session} {before : List Element} {parts : List (Table → Text)}, SessionParts z before ss parts →
    parts.flatMap (· t) = (ss.map fun s => s.es.flatMap (histRows z t)).flatMap fun rows => tableText rows ++ endMarker := by
  intro ss before parts h
  induction h with
  | nil => rfl
  | cons h1 h2 _ ih =>
    have := dump_plain h1 t (event_none_of hc) hc (by rintro rfl; exact ho (by decide)) (by rintro rfl; exact ho (by decide))
      (by rintro rfl; exact ho (by decide))
    simp only [List.flatMap_cons, List.map_cons, ih, if_neg ho, this]

theorem parts_users {z : Codec} : ∀ {ss : List Session} {before : List Element} {parts : List (Table → Text)}, SessionParts z before ss parts →
    ∃ ll : List (List ((Int64 × String) × Int64)),
      parts.flatMap (· .users) = (ll.map fun l => l.map fun q => Spec.userRow q.1.1 q.1.2 (clock q.2)).flatMap (fun rows => tableText rows ++ endMarker) ∧
      (∀ l ∈ ll, ∀ q ∈ l, inRange (q.2.toInt / 1000000) = true ∧ q.1 ∈ userNames (before ++ allOf ss)) ∧
      (ss ≠ [] → ∀ k v, lastValue (userNames (before ++ allOf ss)) k = some v → (k, v) ∈ ll.flatten.map Prod.fst) := by
  intro ss before parts h
  induction h with
  | nil => exact ⟨[], rfl, by simp, fun h => absurd rfl h⟩
  | @cons before s ss parts own all h1 h2 hp ih =>
    obtain ⟨us, hl, ht, e⟩ := dump_users h2
    obtain ⟨ll, i1, i2, i3⟩ := ih
    have ha : before ++ allOf (s :: ss) = before ++ s.es ++ allOf ss := by simp [allOf]
    refine ⟨(us.map fun p => (p, s.userClock p.1)) :: ll, ?_, ?_, ?_⟩
    · simp only [List.flatMap_cons, List.map_cons, i1, if_pos (show Table.users ∈ ownerTables by decide), e, List.map_map]
      rfl
    · rw [ha]
      intro l hl' q hq
      rcases List.mem_cons.1 hl' with rfl | hl'
      · obtain ⟨p, hp, rfl⟩ := List.mem_map.1 hq
        refine ⟨ht p hp, ?_⟩
        rw [userNames_append]
        exact List.mem_append_left _ (lastValue_mem ((hl.2 p.1 p.2).1 hp))
      · exact i2 l hl' q hq
    · intro _ k v hv
      rw [ha] at hv
      rw [List.flatten_cons, List.map_append, List.mem_append]
      by_cases hss : ss = []
      · left
        subst hss
        rw [show allOf [] = [] from rfl, List.append_nil] at hv
        rw [List.map_map]
        exact List.mem_map.2 ⟨(k, v), (hl.2 k v).2 hv, rfl⟩
      · right
        exact i3 hss k v hv

theorem parts_changesets {z : Codec} : ∀ {ss : List Session} {before : List Element} {parts : List (Table → Text)}, SessionParts z before ss parts →
    ∃ ll : List (List ((Int64 × Int64) × Int64)),
      parts.flatMap (· .changesets) =
        (ll.map fun l => l.map fun q => Spec.changesetRow q.1.1 q.1.2 (clock q.2)).flatMap (fun rows => tableText rows ++ endMarker) ∧
      (∀ l ∈ ll, ∀ q ∈ l, inRange (q.2.toInt / 1000000) = true ∧ q.1 ∈ changesetUsers (before ++ allOf ss)) ∧
      (ss ≠ [] → ∀ k v, lastValue (changesetUsers (before ++ allOf ss)) k = some v → (k, v) ∈ ll.flatten.map Prod.fst) := by
  intro ss before parts h
  induction h with
  | nil => exact ⟨[], rfl, by simp, fun h => absurd rfl h⟩
  | @cons before s ss parts own all h1 h2 hp ih =>
    obtain ⟨us, hl, ht, e⟩ := dump_changesets h2
    obtain ⟨ll, i1, i2, i3⟩ := ih
    have ha : before ++ allOf (s :: ss) = before ++ s.es ++ allOf ss := by simp [allOf]
    refine ⟨(us.map fun p => (p, s.changesetClock p.1)) :: ll, ?_, ?_, ?_⟩
    · simp only [List.flatMap_cons, List.map_cons, i1, if_pos (show Table.changesets ∈ ownerTables by decide), e, List.map_map]
      rfl
    · rw [ha]
      intro l hl' q hq
      rcases List.mem_cons.1 hl' with rfl | hl'
      · obtain ⟨p, hp, rfl⟩ := List.mem_map.1 hq
        refine ⟨ht p hp, ?_⟩
        rw [changesetUsers_append]
        exact List.mem_append_left _ (lastValue_mem ((hl.2 p.1 p.2).1 hp))
      · exact i2 l hl' q hq
    · intro _ k v hv
      rw [ha] at hv
      rw [List.flatten_cons, List.map_append, List.mem_append]
      by_cases hss : ss = []
      · left
        subst hss
        rw [show allOf [] = [] from rfl, List.append_nil] at hv
        rw [List.map_map]
        exact List.mem_map.2 ⟨(k, v), (hl.2 k v).2 hv, rfl⟩
      · right
        exact i3 hss k v hv

theorem lastValue_same {β : Type} {a b : List (Int64 × β)} (hb : ∀ p ∈ b, ∀ q ∈ b, p.1 = q.1 → p.2 = q.2) (hs : ∀ p ∈ a, p ∈ b)
    (h : ∀ k v, lastValue b k = some v → (k, v) ∈ a) (k : Int64) : lastValue a k = lastValue b k := by
  cases e : lastValue b k with
  | none =>
    cases e' : lastValue a k with
    | none => rfl
    | some v =>
      obtain ⟨w, hw⟩ := lastValue_isSome (hs _ (lastValue_mem e'))
      rw [e] at hw; cases hw
  | some v =>
    obtain ⟨w, hw⟩ := lastValue_isSome (h k v e)
    rw [hw]
    have := hb _ (hs _ (lastValue_mem hw)) _ (lastValue_mem e) rfl
    simp only at this
    rw [this]

/-- C95: a dump written in several sessions reads back as the same elements written in one (C53), whatever the end markers and repeated rows in
between, if each changeset has one user and each user one name in all of it. -/
theorem C95_read_back (z : Codec) (hz : Faithful z) (le : Text → Text → Prop) (ss : List Session) (files sorted : Table → Text)
    (h : InSessions z ss files) (hs : Storable (allOf ss)) (hc : Consistent (allOf ss)) (hsort : SortedCopy le files sorted) :
    ∃ it it' ns ns' ws ws' rs rs', ElementIterator.new dumpTables sorted = .ok it ∧
      Iterates (ElementIterator.next z) it (withSentinels ns' ws' rs') it' ∧
      ElementIterator.next z it' = .ok (none, it') ∧ Back z le (allOf ss) ns ns' ws ws' rs rs' := by
  obtain ⟨parts, hp, hf⟩ := (C95_files z ss files).1 h
  obtain ⟨w, hw, -⟩ := h
  have hb := (sessions_parts between_new hw).1
  rw [List.nil_append] at hb
  obtain ⟨one, hone⟩ := dump_total z (fun _ => 0) (fun _ => 0) (allOf ss) hb.times (fun _ => by decide) (fun _ => by decide)
  have hS : ∀ t ∈ ofInterest, Sorted le (dumpDef t).key (files t) (sorted t) := fun t ht => hsort t _ _ (dumpTables_eq t ht)
  have hne : ∀ {β : Type} (f : List Element → List (Int64 × β)), f [] = [] → ∀ l : List (Int64 × β), (ss ≠ [] → ∀ k v, lastValue (f ([] ++ allOf ss)) k = some v → (k, v) ∈ l) →
      ∀ k v, lastValue (f (allOf ss)) k = some v → (k, v) ∈ l := by
    intro β f f0 l hl k v hv
    by_cases hss : ss = []
    · subst hss
      rw [show allOf [] = [] from rfl, f0] at hv
      cases hv
    · exact hl hss k v hv
  refine round_trip_core z hz le _ _ (allOf ss) one sorted hone hs (fun t ht hn => ?_) ?_ ?_
  · have hcur : t ∉ currentTables := by revert ht; cases t <;> decide
    have hown : t ∉ ownerTables := by revert ht hn; cases t <;> decide
    have e := dump_plain hone t (event_none_of hcur) hcur hn.1 hn.2 (by rintro rfl; exact hown (by decide))
    have h2 := sorted_parts _ (fun rows hr r hm => by
      obtain ⟨s, -, rfl⟩ := List.mem_map.1 hr
      obtain ⟨el, -, hel⟩ := List.mem_flatMap.1 hm
      exact good_hist hz hel) ((hf t).trans (parts_history hcur hown hp)) (hS t ht)
    have e2 : (ss.map fun s => s.es.flatMap (histRows z t)).flatten = (allOf ss).flatMap (histRows z t) := by
      rw [allOf, List.flatMap_assoc]; rfl
    rw [e, ← e2]
    exact h2
  · obtain ⟨ll, e, h1, h2⟩ := parts_users hp
    have hg : ∀ q ∈ ll.flatten, Good (Spec.userRow q.1.1 q.1.2 (clock q.2)) := fun q hq => by
      obtain ⟨l, hl, hq⟩ := List.mem_flatten.1 hq
      exact good_user _ _ (hs.names q.1 (h1 l hl q hq).2)
    have h3 := sorted_parts _ (fun rows hr r hm => by
      obtain ⟨l, hl, rfl⟩ := List.mem_map.1 hr
      obtain ⟨q, hq, rfl⟩ := List.mem_map.1 hm
      exact hg q (List.mem_flatten.2 ⟨l, hl, hq⟩)) ((hf .users).trans e) (hS .users (by decide))
    rw [← List.map_flatten] at h3
    obtain ⟨l', hperm, hlines, -⟩ := sorted_lines hg rfl h3
    refine ⟨l'.map Prod.fst, sorted_holds hlines (fun q hq => hg q (hperm.subset hq)) (fun q hq => ?_), ?_⟩
    · obtain ⟨l, hl, hq'⟩ := List.mem_flatten.1 (hperm.subset hq)
      exact createUser_row (h1 l hl q hq').1 (hg q (hperm.subset hq))
    · refine lastValue_same hc.users (fun p hp => ?_) (fun k v hv => ?_)
      · obtain ⟨q, hq, rfl⟩ := List.mem_map.1 hp
        obtain ⟨l, hl, hq'⟩ := List.mem_flatten.1 (hperm.subset hq)
        exact (h1 l hl q hq').2
      · exact (hperm.map Prod.fst).symm.subset (hne userNames rfl _ h2 k v hv)
  · obtain ⟨ll, e, h1, h2⟩ := parts_changesets hp
    have hg : ∀ q ∈ ll.flatten, Good (Spec.changesetRow q.1.1 q.1.2 (clock q.2)) := fun q hq => good_changeset ..
    have h3 := sorted_parts _ (fun rows hr r hm => by
      obtain ⟨l, hl, rfl⟩ := List.mem_map.1 hr
      obtain ⟨q, hq, rfl⟩ := List.mem_map.1 hm
      exact hg q (List.mem_flatten.2 ⟨l, hl, hq⟩)) ((hf .changesets).trans e) (hS .changesets (by decide))
    rw [← List.map_flatten] at h3
    obtain ⟨l', hperm, hlines, -⟩ := sorted_lines hg rfl h3
    refine ⟨l'.map Prod.fst, sorted_holds hlines (fun q hq => hg q (hperm.subset hq)) (fun q hq => ?_), ?_⟩
    · obtain ⟨l, hl, hq'⟩ := List.mem_flatten.1 (hperm.subset hq)
      exact createChangeset_row (h1 l hl q hq').1 (hg q (hperm.subset hq))
    · refine lastValue_same hc.changesets (fun p hp => ?_) (fun k v hv => ?_)
      · obtain ⟨q, hq, rfl⟩ := List.mem_map.1 hp
        obtain ⟨l, hl, hq'⟩ := List.mem_flatten.1 (hperm.subset hq)
        exact (h1 l hl q hq').2
      · exact (hperm.map Prod.fst).symm.subset (hne changesetUsers rfl _ h2 k v hv)

/-- C95: such tables can be sorted, whatever the order of strings. -/
theorem C95_sortable (z : Codec) (hz : Faithful z) (le : Text → Text → Prop) (h1 : ∀ a b, le a b ∨ le b a) (h2 : ∀ a b c, le a b → le b c → le a c)
    (ss : List Session) (files : Table → Text) (h : InSessions z ss files) (hn : ∀ p ∈ userNames (allOf ss), '\t' ∉ p.2.toList ∧ '\n' ∉ p.2.toList) :
    ∃ sorted, SortedCopy le files sorted := by
  obtain ⟨parts, hp, hf⟩ := (C95_files z ss files).1 h
  suffices h : ∀ t, ∃ sorted, t ∈ ofInterest → Sorted le (dumpDef t).key (files t) sorted by
    refine ⟨fun t => (h t).choose, fun t d f he => ?_⟩
    by_cases ht : t ∈ ofInterest
    · rw [dumpTables_eq t ht] at he
      simp only [Option.some.injEq, Prod.mk.injEq] at he
      obtain ⟨rfl, -⟩ := he
      exact (h t).choose_spec ht
    · unfold dumpTables at he
      rw [if_neg ht] at he
      cases he
  intro t
  by_cases ht : t ∈ ofInterest
  swap
  · exact ⟨[], fun h => absurd h ht⟩
  have key : ∀ {before : List Element} {ss : List Session} {parts : List (Table → Text)}, SessionParts z before ss parts →
      (∀ p ∈ userNames (before ++ allOf ss), '\t' ∉ p.2.toList ∧ '\n' ∉ p.2.toList) →
      ∃ rss : List (List (List Text)), parts.flatMap (· t) = (rss.flatMap fun rows => tableText rows ++ endMarker) ∧
        ∀ rows ∈ rss, ∀ r ∈ rows, Good r ∧ KeyOk (dumpDef t).key r := by
    intro before ss parts hp
    induction hp with
    | nil => exact fun _ => ⟨[], rfl, by simp⟩
    | @cons before s ss parts own all d1 d2 hp ih =>
      intro hn
      have ha : before ++ allOf (s :: ss) = before ++ s.es ++ allOf ss := by simp [allOf]
      rw [ha] at hn
      obtain ⟨rss, e, hr⟩ := ih hn
      have hn2 : ∀ p ∈ userNames (before ++ s.es), '\t' ∉ p.2.toList ∧ '\n' ∉ p.2.toList := fun p hp => hn p (by
        rw [userNames_append]; exact List.mem_append_left _ hp)
      have hn1 : ∀ p ∈ userNames s.es, '\t' ∉ p.2.toList ∧ '\n' ∉ p.2.toList := fun p hp => hn2 p (by
        rw [userNames_append]; exact List.mem_append_right _ hp)
      obtain ⟨r1, e1, g1⟩ := sortable_rows z hz _ _ _ _ d1 hn1 t ht
      obtain ⟨r2, e2, g2⟩ := sortable_rows z hz _ _ _ _ d2 hn2 t ht
      by_cases ho : t ∈ ownerTables
      · exact ⟨r2 :: rss, by simp only [List.flatMap_cons, if_pos ho, e2, e], by
          intro rows hm; rcases List.mem_cons.1 hm with rfl | hm; exacts [g2, hr rows hm]⟩
      · exact ⟨r1 :: rss, by simp only [List.flatMap_cons, if_neg ho, e1, e], by
          intro rows hm; rcases List.mem_cons.1 hm with rfl | hm; exacts [g1, hr rows hm]⟩
  obtain ⟨rss, e, hr⟩ := key hp (by simpa using hn)
  have hflat : ∀ r ∈ rss.flatten, Good r ∧ KeyOk (dumpDef t).key r := fun r hm => by
    obtain ⟨rows, a, b⟩ := List.mem_flatten.1 hm
    exact hr rows a r b
  obtain ⟨s, hs⟩ := sorted_exists h1 h2 (dumpDef t).key rss.flatten (fun r h => (hflat r h).1) (fun r h => (hflat r h).2)
  refine ⟨s, fun _ => ⟨?_, hs.order⟩⟩
  rw [hf t, e, filtered_parts rss (fun rows a r b => (hr rows a r b).1)]
  exact hs.perm

/-- C95: the current tables are not those of a single session: of two visible versions of a node written in two sessions both remain in them, although the
second replaces the first (C41). -/
theorem C95_current_twice (z : Codec) (u1 c1 u2 c2 : Int64 → Int64) (a b : Node) (files : Table → Text)
    (h : InSessions z [⟨[.node a], u1, c1⟩, ⟨[.node b], u2, c2⟩] files) (ha : a.visible = true) (hb : b.visible = true) :
    files .currentNodes = tableText [currentNodeRow a] ++ endMarker ++ (tableText [currentNodeRow b] ++ endMarker) := by
  obtain ⟨parts, hp, hf⟩ := (C95_files z _ files).1 h
  obtain _ | @⟨_, _, _, parts, own, all, d1, -, hp⟩ := hp
  obtain _ | @⟨_, _, _, parts, own2, all2, d2, -, hp⟩ := hp
  cases hp
  have e1 := (C41_current_nodes z _ _ _ _ d1 (by simp [Spec.nodesOf])).1
  have e2 := (C41_current_nodes z _ _ _ _ d2 (by simp [Spec.nodesOf])).1
  rw [hf]
  simp only [List.flatMap_cons, List.flatMap_nil, List.append_nil, if_neg (show Table.currentNodes ∉ ownerTables by decide), e1, e2]
  simp [Spec.nodesOf, lastVersions, ha, hb]

/-! ## Sample data -/

/-- Two sessions: a relation and a node, then another node and a way. -/
example : ∃ ss files sorted, ss.length = 2 ∧ InSessions RoundTripExample.codec ss files ∧ allOf ss = RoundTripExample.es ∧
    Storable (allOf ss) ∧ Consistent (allOf ss) ∧ SortedCopy RoundTripExample.le files sorted := by
  have tot := fun a b : Text => List.le_total a b
  have hT := RoundTripExample.timeOk
  have hin : inRange ((0 : Int64).toInt / 1000000) = true := by decide +kernel
  let ss : List Session := [⟨RoundTripExample.es.take 2, fun _ => 0, fun _ => 0⟩, ⟨RoundTripExample.es.drop 2, fun _ => 0, fun _ => 0⟩]
  have hall : allOf ss = RoundTripExample.es := by simp [ss, allOf]
  have hw : ∃ files, InSessions RoundTripExample.codec ss files := by
    have d : ∀ es : List Element, (∀ e ∈ es, e ∈ RoundTripExample.es) → ∃ files, Dump RoundTripExample.codec (fun _ => 0) (fun _ => 0) es files := fun es h =>
      dump_total _ _ _ es (fun e he => hT e (h e he)) (fun _ => hin) (fun _ => hin)
    obtain ⟨f1, d1⟩ := d (RoundTripExample.es.take 2) (fun e he => List.mem_of_mem_take he)
    obtain ⟨f2, d2⟩ := d (RoundTripExample.es.drop 2) (fun e he => List.mem_of_mem_drop he)
    obtain ⟨f3, d3⟩ := d RoundTripExample.es (fun e he => he)
    refine ⟨_, (C95_files _ _ _).2 ⟨_, .cons (own := f1) (all := f1) d1 d1 (.cons (own := f2) (all := f3) d2 ?_ .nil), fun t => rfl⟩⟩
    simpa using d3
  obtain ⟨files, hw⟩ := hw
  have hst : Storable (allOf ss) := by rw [hall]; exact RoundTripExample.storable
  obtain ⟨sorted, hs⟩ := C95_sortable RoundTripExample.codec RoundTripExample.faithful RoundTripExample.le tot (fun a b c => List.le_trans) ss files hw hst.names
  refine ⟨ss, files, sorted, rfl, hw, hall, hst, ?_, hs⟩
  rw [hall]
  exact RoundTripExample.consistent

end OsmIo
