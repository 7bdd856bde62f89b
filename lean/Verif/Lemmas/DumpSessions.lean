import Verif.Spec.DumpSessions
import Verif.Lemmas.ApidbOwners
import Verif.Props.ApidbTables
/-! One writer of a dump closed several times. -/
namespace OsmIo.Apidb
open OsmIo.Text OsmIo.Sql OsmIo.Spec

/-! ### What does not change -/

theorem flushOne_last (w : Writer) (t t' : Table) : ((w.flushOne t).current t').last = if t' = t then none else (w.current t').last := by
  unfold Writer.flushOne
  by_cases h : t' = t <;> simp [h]

theorem flushCurrent_last (w : Writer) (t : Table) : (w.flushCurrent.current t).last = if t ∈ currentTables then none else (w.current t).last := by
  unfold Writer.flushCurrent
  simp only [flushOne_last]
  cases t <;> simp [currentTables]

/-- All but the files of two writers are the same. -/
structure SameRest (w w' : Writer) : Prop where
  current : w'.current = w.current
  userBuffer : w'.userBuffer = w.userBuffer
  changesetBuffer : w'.changesetBuffer = w.changesetBuffer
  userIndex : w'.userIndex = w.userIndex
  changesetIndex : w'.changesetIndex = w.changesetIndex

theorem SameRest.trans {a b c : Writer} (h : SameRest a b) (g : SameRest b c) : SameRest a c :=
  ⟨g.1.trans h.1, g.2.trans h.2, g.3.trans h.3, g.4.trans h.4, g.5.trans h.5⟩

theorem sameRest_put (w : Writer) (t : Table) (s : Text) : SameRest w (w.put t s) := ⟨rfl, rfl, rfl, rfl, rfl⟩

theorem sameRest_closeTables (ts : List Table) : ∀ w : Writer, SameRest w (w.closeTables ts) := by
  induction ts with
  | nil => exact fun w => ⟨rfl, rfl, rfl, rfl, rfl⟩
  | cons t ts ih => exact fun w => (sameRest_put w t _).trans (ih _)

theorem sameRest_users {clock : Int64 → Int64} : ∀ {us : List (Int64 × String)} {w w' : Writer}, w.writeUsers clock us = .ok w' → SameRest w w' := by
  intro us
  induction us with
  | nil => intro w w' h; injection h with h; subst h; exact ⟨rfl, rfl, rfl, rfl, rfl⟩
  | cons u us ih =>
    obtain ⟨id, name⟩ := u
    intro w w' h
    simp only [Writer.writeUsers] at h
    obtain ⟨s, -, h⟩ := Out.bind_eq_ok.1 h
    exact (sameRest_put ..).trans (ih h)

theorem sameRest_changesets {clock : Int64 → Int64} : ∀ {cs : List (Int64 × Int64)} {w w' : Writer}, w.writeChangesets clock cs = .ok w' → SameRest w w' := by
  intro cs
  induction cs with
  | nil => intro w w' h; injection h with h; subst h; exact ⟨rfl, rfl, rfl, rfl, rfl⟩
  | cons u us ih =>
    obtain ⟨id, name⟩ := u
    intro w w' h
    simp only [Writer.writeChangesets] at h
    obtain ⟨s, -, h⟩ := Out.bind_eq_ok.1 h
    exact (((sameRest_put ..).trans (sameRest_put ..)).trans (sameRest_put ..)).trans (ih h)

/-! ### When `close` succeeds -/

theorem writeUsers_ok (clock : Int64 → Int64) (us : List (Int64 × String)) (hc : ∀ p ∈ us, inRange ((clock p.1).toInt / 1000000) = true) :
    ∀ w : Writer, ∃ w', w.writeUsers clock us = .ok w' := by
  induction us with
  | nil => exact fun w => ⟨w, rfl⟩
  | cons p us ih =>
    intro w
    have : ∃ s, toSqlTimeMicros (clock p.1) = .ok s :=
      ⟨_, by unfold toSqlTimeMicros; simp only; rw [if_pos (hc p (by simp))]⟩
    obtain ⟨s, hs⟩ := this
    obtain ⟨w', h'⟩ := ih (fun q hq => hc q (by simp [hq])) (w.put .users (Apidb.userRow p.1 p.2 s))
    exact ⟨w', by simp only [Writer.writeUsers, hs, Out.ok_bind, h']⟩

theorem writeChangesets_ok (clock : Int64 → Int64) (us : List (Int64 × Int64)) (hc : ∀ p ∈ us, inRange ((clock p.1).toInt / 1000000) = true) :
    ∀ w : Writer, ∃ w', w.writeChangesets clock us = .ok w' := by
  induction us with
  | nil => exact fun w => ⟨w, rfl⟩
  | cons p us ih =>
    intro w
    have : ∃ s, toSqlTimeMicros (clock p.1) = .ok s :=
      ⟨_, by unfold toSqlTimeMicros; simp only; rw [if_pos (hc p (by simp))]⟩
    obtain ⟨s, hs⟩ := this
    simp only [Writer.writeChangesets, hs, Out.ok_bind]
    exact ih (fun q hq => hc q (by simp [hq])) _

/-- The users known to a writer. -/
def Writer.allUsers (w : Writer) : List (Int64 × String) := w.userBuffer.foldr (fun p m => insertKey p.1 p.2 m) w.userIndex
/-- The changesets known to a writer. -/
def Writer.allChangesets (w : Writer) : List (Int64 × Int64) := w.changesetBuffer.foldr (fun p m => insertKey p.1 p.2 m) w.changesetIndex

theorem flushed_users (w : Writer) : w.flushCurrent.flushBuffers.userIndex = w.allUsers := by
  have hr := flushCurrent_rest w
  unfold Writer.flushBuffers Writer.allUsers; simp only [hr.1, hr.2.2.1]

theorem flushed_changesets (w : Writer) : w.flushCurrent.flushBuffers.changesetIndex = w.allChangesets := by
  have hr := flushCurrent_rest w
  unfold Writer.flushBuffers Writer.allChangesets; simp only [hr.2.1, hr.2.2.2]

theorem close_ok_iff (uc cc : Int64 → Int64) (w : Writer) : (∃ w', w.close uc cc = .ok w') ↔
    (∀ p ∈ entries w.allUsers, inRange ((uc p.1).toInt / 1000000) = true) ∧
    (∀ p ∈ entries w.allChangesets, inRange ((cc p.1).toInt / 1000000) = true) := by
  constructor
  · rintro ⟨w', h⟩
    exact close_times h
  · rintro ⟨hu, hc⟩
    unfold Writer.close
    obtain ⟨w1, h1⟩ := writeUsers_ok uc (entries w.flushCurrent.flushBuffers.userIndex) (by rwa [flushed_users]) w.flushCurrent.flushBuffers
    obtain ⟨w2, h2⟩ := writeChangesets_ok cc (entries w1.changesetIndex) (by rwa [(sameRest_users h1).changesetIndex, flushed_changesets]) w1
    exact ⟨_, by simp only [h1, Out.ok_bind, h2]; rfl⟩

/-- What `close` leaves in the writer. -/
theorem close_rest {uc cc : Int64 → Int64} {w w' : Writer} (h : w.close uc cc = .ok w') :
    (∀ t, (w'.current t).last = if t ∈ currentTables then none else (w.current t).last) ∧ w'.userBuffer = [] ∧ w'.changesetBuffer = [] ∧
      w'.userIndex = w.allUsers ∧ w'.changesetIndex = w.allChangesets := by
  unfold Writer.close at h
  obtain ⟨w1, h1, h⟩ := Out.bind_eq_ok.1 h
  obtain ⟨w2, h2, h⟩ := Out.bind_eq_ok.1 h
  simp only [Out.pure_eq] at h
  injection h with h; subst h
  have hs := ((sameRest_users h1).trans (sameRest_changesets h2)).trans (sameRest_closeTables closeOrder w2)
  refine ⟨fun t => ?_, hs.userBuffer, hs.changesetBuffer, hs.userIndex.trans (flushed_users w), hs.changesetIndex.trans (flushed_changesets w)⟩
  rw [hs.current]
  exact flushCurrent_last w t

/-! ### A writer between two sessions -/

/-- A writer that was closed after `before`. -/
structure Between (before : List Element) (w : Writer) : Prop where
  current : ∀ t, (w.current t).last = none
  userBuffer : w.userBuffer = []
  changesetBuffer : w.changesetBuffer = []
  usersKeyed : Keyed w.userIndex
  changesetsKeyed : Keyed w.changesetIndex
  users : ∀ k, lookup k w.userIndex = lastValue (userNames before) k
  changesets : ∀ k, lookup k w.changesetIndex = lastValue (changesetUsers before) k
  times : ∀ e ∈ before, TimeOk e

theorem between_new : Between [] Writer.new :=
  ⟨fun _ => rfl, rfl, rfl, List.Pairwise.nil, List.Pairwise.nil, fun _ => rfl, fun _ => rfl, by simp⟩

theorem runCur_none {c : CurrentObject} (hc : c.last = none) (evs : List Event) :
    (runCur c evs).1 = (runCur {} evs).1 ∧ (runCur c evs).2.last = (runCur {} evs).2.last := by
  cases evs with
  | nil => exact ⟨rfl, hc⟩
  | cons ev evs =>
    have : stepCur c ev = stepCur {} ev := by
      have h0 : ∀ d : CurrentObject, d.last = none → stepCur d ev = ([], ⟨ev.id, if ev.visible then some (textOf ev.rows) else none⟩) := by
        intro d hd
        unfold stepCur CurrentObject.setLast CurrentObject.setLastId
        by_cases h1 : ev.id > d.lastId <;> by_cases h2 : ev.visible = true <;> simp [h1, h2, hd]
      rw [h0 c hc, h0 {} rfl]
    simp only [runCur, this, and_self]

theorem lastValue_append {β : Type} (l m : List (Int64 × β)) (k : Int64) : lastValue (l ++ m) k = (lastValue m k).or (lastValue l k) := by
  unfold lastValue
  rw [List.reverse_append, List.find?_append]
  cases List.find? (fun p => decide (p.1 = k)) m.reverse <;> rfl

theorem lookup_foldr_onto {β : Type} (b m : List (Int64 × β)) (k : Int64) :
    lookup k (b.foldr (fun p m => insertKey p.1 p.2 m) m) = (lookup k b).or (lookup k m) := by
  have e : b.foldr (fun p m => insertKey p.1 p.2 m) m = insertAll b.reverse m := by
    unfold insertAll; rw [List.foldl_reverse]
  rw [e, lookup_insertAll]
  simp only [lastValue, List.reverse_reverse]
  rfl

theorem keyed_foldr_onto {β : Type} (b : List (Int64 × β)) {m : List (Int64 × β)} (h : Keyed m) : Keyed (b.foldr (fun p m => insertKey p.1 p.2 m) m) := by
  induction b with
  | nil => exact h
  | cons p b ih => exact keyed_insertKey _ _ ih

theorem userNames_append (a b : List Element) : userNames (a ++ b) = userNames a ++ userNames b := List.filterMap_append ..
theorem changesetUsers_append (a b : List Element) : changesetUsers (a ++ b) = changesetUsers a ++ changesetUsers b := List.filterMap_append ..

/-- The indexes after writing more elements. -/
theorem known_after {z : Codec} {before es : List Element} {w w1 : Writer} (hb : Between before w) (h : w.writeAll z es = .ok w1) :
    (Keyed w1.allUsers ∧ ∀ k, lookup k w1.allUsers = lastValue (userNames (before ++ es)) k) ∧
    (Keyed w1.allChangesets ∧ ∀ k, lookup k w1.allChangesets = lastValue (changesetUsers (before ++ es)) k) := by
  obtain ⟨-, -, f3, f4, f5, f6⟩ := writeAll_files h
  unfold Writer.allUsers Writer.allChangesets
  rw [f3, f4, f5, f6, hb.userBuffer, hb.changesetBuffer, foldl_users, foldl_changesets]
  refine ⟨⟨keyed_foldr_onto _ hb.usersKeyed, fun k => ?_⟩, keyed_foldr_onto _ hb.changesetsKeyed, fun k => ?_⟩
  · rw [lookup_foldr_onto, lookup_insertAll, hb.users, userNames_append, lastValue_append]
    simp [lookup]
  · rw [lookup_foldr_onto, lookup_insertAll, hb.changesets, changesetUsers_append, lastValue_append]
    simp [lookup]

theorem lastValues_unique {β : Type} {l a b : List (Int64 × β)} (ha : LastValues l a) (hb : LastValues l b) : a = b := by
  have hm : ∀ p, p ∈ a ↔ p ∈ b := fun p => (ha.2 p.1 p.2).trans (hb.2 p.1 p.2).symm
  have nd : ∀ {x : List (Int64 × β)}, x.Pairwise (fun a b => a.1 < b.1) → x.Nodup := fun h =>
    h.imp fun hlt e => by rw [e] at hlt; exact Int64.lt_irrefl hlt
  have hp : a.Perm b := (List.perm_ext_iff_of_nodup (nd ha.1) (nd hb.1)).2 hm
  exact hp.eq_of_pairwise (fun x y _ _ h1 h2 => absurd (Int64.lt_trans h1 h2) (fun h => Int64.lt_irrefl h)) ha.1 hb.1

theorem event_none_of {z : Codec} {t : Table} (ht : t ∉ currentTables) (e : Element) : event z t e = none := by
  cases e <;> cases t <;> first | rfl | exact absurd (by decide) ht

theorem histRows_nil_of {z : Codec} {t : Table} (ht : t ∈ currentTables) (e : Element) : histRows z t e = [] := by
  cases e <;> cases t <;> first | rfl | exact absurd ht (by decide)

/-- A session adds its part and leaves the writer closed. -/
theorem session_step {z : Codec} {before : List Element} {w w1 w2 : Writer} {s : Session} (hb : Between before w) (h1 : w.writeAll z s.es = .ok w1)
    (h2 : w1.close s.userClock s.changesetClock = .ok w2) :
    Between (before ++ s.es) w2 ∧ ∃ own all, Dump z s.userClock s.changesetClock s.es own ∧
      Dump z s.userClock s.changesetClock (before ++ s.es) all ∧ ∀ t, w2.files t = w.files t ++ if t ∈ ownerTables then all t else own t := by
  have hk := known_after hb h1
  have ht : ∀ e ∈ before ++ s.es, TimeOk e := fun e he => (List.mem_append.1 he).elim (hb.times e) (writeAll_times h1 e)
  obtain ⟨c1, c2, c3, c4, c5⟩ := close_rest h2
  obtain ⟨g1, g2, -, -, -, -⟩ := writeAll_files h1
  have hlast : ∀ t, t ∉ currentTables → (w1.current t).last = none := fun t h => by
    rw [(g1 t (fun e _ => event_none_of h e)).2]; exact hb.current t
  refine ⟨⟨fun t => ?_, c2, c3, by rw [c4]; exact hk.1.1, by rw [c5]; exact hk.2.1, by rw [c4]; exact hk.1.2, by rw [c5]; exact hk.2.2, ht⟩, ?_⟩
  · rw [c1]
    split
    · rfl
    · next h => exact hlast t h
  have hin := (close_ok_iff _ _ w1).1 ⟨_, h2⟩
  -- the two dumps
  obtain ⟨v, hv⟩ := writeAll_total z s.es (fun e he => ht e (by simp [he])) Writer.new
  obtain ⟨u, hu⟩ := writeAll_total z (before ++ s.es) ht Writer.new
  have kv := known_after between_new hv
  have ku := known_after between_new hu
  simp only [List.nil_append] at kv ku
  have eu : entries u.allUsers = entries w1.allUsers := lastValues_unique (entries_lastValues ku.1.1 ku.1.2) (entries_lastValues hk.1.1 hk.1.2)
  have ec : entries u.allChangesets = entries w1.allChangesets :=
    lastValues_unique (entries_lastValues ku.2.1 ku.2.2) (entries_lastValues hk.2.1 hk.2.2)
  have sub : ∀ {β : Type} {a b : List (Int64 × β)} {m n : List (Int64 × β)}, LastValues (a ++ b) m → LastValues b n → ∀ p ∈ n, ∃ v, (p.1, v) ∈ m := by
    intro β a b m n hm hn p hp
    have h1 := (hn.2 p.1 p.2).1 hp
    refine ⟨p.2, (hm.2 p.1 p.2).2 ?_⟩
    rw [lastValue_append, h1]; rfl
  obtain ⟨u', hu'⟩ := (close_ok_iff s.userClock s.changesetClock u).2 ⟨by rw [eu]; exact hin.1, by rw [ec]; exact hin.2⟩
  obtain ⟨v', hv'⟩ := (close_ok_iff s.userClock s.changesetClock v).2
    ⟨fun p hp => by
      obtain ⟨x, hx⟩ := sub (by rw [← userNames_append]; exact entries_lastValues hk.1.1 hk.1.2) (entries_lastValues kv.1.1 kv.1.2) p hp
      exact hin.1 (p.1, x) hx,
     fun p hp => by
      obtain ⟨x, hx⟩ := sub (by rw [← changesetUsers_append]; exact entries_lastValues hk.2.1 hk.2.2) (entries_lastValues kv.2.1 kv.2.2) p hp
      exact hin.2 (p.1, x) hx⟩
  refine ⟨v'.files, u'.files, ⟨v, v', hv, hv', rfl⟩, ⟨u, u', hu, hu', rfl⟩, fun t => ?_⟩
  obtain ⟨gv1, gv2, -, -, -, -⟩ := writeAll_files hv
  obtain ⟨gu1, -, -, -, -, -⟩ := writeAll_files hu
  have hnew : ∀ t, Writer.new.files t = [] := fun _ => rfl
  have hcur : ∀ t, Writer.new.current t = {} := fun _ => rfl
  by_cases hc : t ∈ currentTables
  · have ho : t ∉ ownerTables := by revert hc; cases t <;> decide
    rw [if_neg ho, close_files h2 t, close_files hv' t, if_pos hc, if_pos hc]
    obtain ⟨a1, a2⟩ := g2 t (fun e _ => histRows_nil_of hc e)
    obtain ⟨b1, b2⟩ := gv2 t (fun e _ => histRows_nil_of hc e)
    rw [hnew, hcur, List.nil_append] at b1
    rw [hcur] at b2
    obtain ⟨r1, r2⟩ := runCur_none (hb.current t) (s.es.filterMap (event z t))
    rw [a1, a2, b1, b2, r1, r2]
    simp only [List.append_assoc]
  · have a1 := (g1 t (fun e _ => event_none_of hc e)).1
    have b1 := (gv1 t (fun e _ => event_none_of hc e)).1
    have d1 := (gu1 t (fun e _ => event_none_of hc e)).1
    rw [hnew, List.nil_append] at b1 d1
    have hist : t ∈ ownerTables → ∀ es : List Element, es.flatMap (histRows z t) = [] := by
      intro ht es
      rw [List.flatMap_eq_nil_iff]
      intro e _
      revert ht; cases e <;> cases t <;> first | exact fun _ => rfl | exact fun h => absurd h (by decide)
    change entries (u.userBuffer.foldr _ u.userIndex) = entries (w1.userBuffer.foldr _ w1.userIndex) at eu
    change entries (u.changesetBuffer.foldr _ u.changesetIndex) = entries (w1.changesetBuffer.foldr _ w1.changesetIndex) at ec
    by_cases ho : t ∈ ownerTables
    · rw [hist ho] at a1 d1
      simp only [tableText, List.flatMap_nil, List.append_nil] at a1 d1
      rw [if_pos ho, close_files h2 t, close_files hu' t, if_neg hc, if_neg hc, a1, d1, eu, ec]
      split
      · simp
      split
      · simp
      split
      · simp
      · simp
    · have n1 : t ≠ .users := by rintro rfl; exact ho (by decide)
      have n2 : t ≠ .changesets := by rintro rfl; exact ho (by decide)
      have n3 : t ≠ .changesetTags := by rintro rfl; exact ho (by decide)
      rw [if_neg ho, close_files h2 t, close_files hv' t]
      simp only [hc, n1, n2, n3, if_false, a1, b1, List.append_assoc]

theorem sessions_parts {z : Codec} : ∀ {ss : List Session} {before : List Element} {w w' : Writer}, Between before w → sessions z w ss = .ok w' →
    Between (before ++ allOf ss) w' ∧ ∃ parts, SessionParts z before ss parts ∧ ∀ t, w'.files t = w.files t ++ parts.flatMap (· t) := by
  intro ss
  induction ss with
  | nil =>
    intro before w w' hb h
    injection h with h; subst h
    exact ⟨by simpa [allOf] using hb, [], .nil, by simp⟩
  | cons s ss ih =>
    intro before w w' hb h
    simp only [sessions] at h
    obtain ⟨w1, h1, h⟩ := Out.bind_eq_ok.1 h
    obtain ⟨w2, h2, h⟩ := Out.bind_eq_ok.1 h
    obtain ⟨hb2, own, all, hown, hall, hf⟩ := session_step hb h1 h2
    obtain ⟨hb3, parts, hp, hf2⟩ := ih hb2 h
    refine ⟨by simpa [allOf, List.append_assoc] using hb3, _, .cons hown hall hp, fun t => ?_⟩
    rw [hf2, hf]
    simp

theorem parts_sessions {z : Codec} : ∀ {ss : List Session} {before : List Element} {w : Writer} {parts : List (Table → Text)}, Between before w →
    SessionParts z before ss parts → ∃ w', sessions z w ss = .ok w' ∧ ∀ t, w'.files t = w.files t ++ parts.flatMap (· t) := by
  intro ss
  induction ss with
  | nil =>
    intro before w parts hb h
    cases h
    exact ⟨w, rfl, by simp⟩
  | cons s ss ih =>
    intro before w parts hb h
    obtain _ | @⟨_, _, _, parts, own, all, hown, hall, hp⟩ := h
    have hown' := hown
    have hall' := hall
    obtain ⟨v, v', hv, hv', rfl⟩ := hown'
    obtain ⟨u, u', hu, hu', rfl⟩ := hall'
    obtain ⟨w1, h1⟩ := writeAll_total z s.es (writeAll_times hv) w
    have hk := known_after hb h1
    have ku := known_after between_new hu
    simp only [List.nil_append] at ku
    have eu : entries u.allUsers = entries w1.allUsers := lastValues_unique (entries_lastValues ku.1.1 ku.1.2) (entries_lastValues hk.1.1 hk.1.2)
    have ec : entries u.allChangesets = entries w1.allChangesets :=
      lastValues_unique (entries_lastValues ku.2.1 ku.2.2) (entries_lastValues hk.2.1 hk.2.2)
    have hin := (close_ok_iff _ _ u).1 ⟨_, hu'⟩
    obtain ⟨w2, h2⟩ := (close_ok_iff s.userClock s.changesetClock w1).2 ⟨by rw [← eu]; exact hin.1, by rw [← ec]; exact hin.2⟩
    obtain ⟨hb2, own2, all2, hown2, hall2, hf⟩ := session_step hb h1 h2
    obtain ⟨x, x', hx, hx', rfl⟩ := hown2
    obtain ⟨y, y', hy, hy', rfl⟩ := hall2
    have e1 : x = v := Out.ok.inj (hx.symm.trans hv)
    subst e1
    have e2 : x' = v' := Out.ok.inj (hx'.symm.trans hv')
    subst e2
    have e3 : y = u := Out.ok.inj (hy.symm.trans hu)
    subst e3
    have e4 : y' = u' := Out.ok.inj (hy'.symm.trans hu')
    subst e4
    obtain ⟨w', h3, hf3⟩ := ih hb2 hp
    refine ⟨w', ?_, fun t => ?_⟩
    · simp only [sessions, h1, Out.ok_bind, h2, h3]
    · rw [hf3, hf]; simp

end OsmIo.Apidb
