import Verif.Lemmas.ApidbJoin
/-! The users and changesets of a dump, read back. -/
namespace OsmIo.Apidb
open OsmIo.Text OsmIo.Sql OsmIo.Spec

/-- Times of the rows written by `close`. -/
theorem close_times {uc cc : Int64 → Int64} {w w' : Writer} (h : w.close uc cc = .ok w') :
    (∀ p ∈ entries (w.userBuffer.foldr (fun p m => insertKey p.1 p.2 m) w.userIndex),
      inRange ((uc p.1).toInt / 1000000) = true) ∧
    (∀ p ∈ entries (w.changesetBuffer.foldr (fun p m => insertKey p.1 p.2 m) w.changesetIndex),
      inRange ((cc p.1).toInt / 1000000) = true) := by
  unfold Writer.close at h
  obtain ⟨w1, h1, h⟩ := Out.bind_eq_ok.1 h
  obtain ⟨w2, h2, h⟩ := Out.bind_eq_ok.1 h
  have hr := flushCurrent_rest w
  have hu : w.flushCurrent.flushBuffers.userIndex = w.userBuffer.foldr (fun p m => insertKey p.1 p.2 m) w.userIndex := by
    unfold Writer.flushBuffers; simp only [hr.1, hr.2.2.1]
  have hc : w.flushCurrent.flushBuffers.changesetIndex =
      w.changesetBuffer.foldr (fun p m => insertKey p.1 p.2 m) w.changesetIndex := by
    unfold Writer.flushBuffers; simp only [hr.2.1, hr.2.2.2]
  have e1 := writeUsers_files h1 .users
  have t1 := writeUsers_times h1
  have t2 := writeChangesets_times h2
  rw [hu] at t1
  rw [e1.2, hc] at t2
  exact ⟨t1, t2⟩

theorem dump_users {z : Codec} {uc cc : Int64 → Int64} {es : List Element} {files : Table → Text}
    (h : Dump z uc cc es files) :
    ∃ us, LastValues (userNames es) us ∧ (∀ p ∈ us, inRange ((uc p.1).toInt / 1000000) = true) ∧
      files .users = tableText (us.map fun p => Spec.userRow p.1 p.2 (clock (uc p.1))) ++ endMarker := by
  obtain ⟨w, w', ha, hc, rfl⟩ := h
  obtain ⟨f1, f2, f3, f4, f5, f6⟩ := writeAll_files ha
  refine ⟨_, written_entries (userNames es), ?_, ?_⟩
  · have := (close_times hc).1
    rw [f3, f5, foldl_users] at this
    exact this
  rw [close_files hc .users, if_neg (by decide), if_pos rfl,
    (f1 .users (fun e _ => by cases e <;> rfl)).1, f3, f5, foldl_users]
  have e0 : es.flatMap (histRows z .users) = [] := by
    rw [List.flatMap_eq_nil_iff]; intro e _; cases e <;> rfl
  rw [e0]
  rfl

theorem dump_changesets {z : Codec} {uc cc : Int64 → Int64} {es : List Element} {files : Table → Text}
    (h : Dump z uc cc es files) :
    ∃ cs, LastValues (changesetUsers es) cs ∧ (∀ p ∈ cs, inRange ((cc p.1).toInt / 1000000) = true) ∧
      files .changesets = tableText (cs.map fun p => Spec.changesetRow p.1 p.2 (clock (cc p.1))) ++ endMarker := by
  obtain ⟨w, w', ha, hc, rfl⟩ := h
  obtain ⟨f1, f2, f3, f4, f5, f6⟩ := writeAll_files ha
  refine ⟨_, written_entries (changesetUsers es), ?_, ?_⟩
  · have := (close_times hc).2
    rw [f4, f6, foldl_changesets] at this
    exact this
  · rw [close_files hc .changesets, if_neg (by decide), if_neg (by decide), if_pos rfl,
      (f1 .changesets (fun e _ => by cases e <;> rfl)).1, f4, f6, foldl_changesets]
    have e0 : es.flatMap (histRows z .changesets) = [] := by
      rw [List.flatMap_eq_nil_iff]; intro e _; cases e <;> rfl
    rw [e0]
    rfl

theorem users_back {z : Codec} {le : Text → Text → Prop} {uc cc : Int64 → Int64} {es : List Element}
    {files : Table → Text} {sorted : Text} (h : Dump z uc cc es files)
    (hn : ∀ p ∈ userNames es, '\t' ∉ p.2.toList ∧ '\n' ∉ p.2.toList)
    (hs : Sorted le (dumpDef .users).key (files .users) sorted) :
    ∃ us, Holds (createUser (dumpDef .users).fields) sorted us ∧ ∀ k, lastValue us k = lastValue (userNames es) k := by
  obtain ⟨us, hl, ht, e⟩ := dump_users h
  have hg : ∀ p ∈ us, Good (Spec.userRow p.1 p.2 (clock (uc p.1))) := by
    intro p hp
    exact good_user _ _ (hn p (lastValue_mem ((hl.2 p.1 p.2).1 hp)))
  obtain ⟨us', hp, hli, _⟩ := sorted_lines hg e hs
  refine ⟨us', ?_, fun k => lastValue_perm hl hp k⟩
  have := sorted_holds (r := id) hli (fun p h => hg p (hp.subset h))
    (fun p h => createUser_row (ht p (hp.subset h)) (hg p (hp.subset h)))
  rwa [List.map_id] at this

theorem changesets_back {z : Codec} {le : Text → Text → Prop} {uc cc : Int64 → Int64} {es : List Element}
    {files : Table → Text} {sorted : Text} (h : Dump z uc cc es files)
    (hs : Sorted le (dumpDef .changesets).key (files .changesets) sorted) :
    ∃ us, Holds (createChangeset (dumpDef .changesets).fields) sorted us ∧
      ∀ k, lastValue us k = lastValue (changesetUsers es) k := by
  obtain ⟨us, hl, ht, e⟩ := dump_changesets h
  have hg : ∀ p ∈ us, Good (Spec.changesetRow p.1 p.2 (clock (cc p.1))) := fun p _ => good_changeset ..
  obtain ⟨us', hp, hli, _⟩ := sorted_lines hg e hs
  refine ⟨us', ?_, fun k => lastValue_perm hl hp k⟩
  have := sorted_holds (r := id) hli (fun p h => hg p (hp.subset h))
    (fun p h => createChangeset_row (ht p (hp.subset h)) (hg p (hp.subset h)))
  rwa [List.map_id] at this

end OsmIo.Apidb
