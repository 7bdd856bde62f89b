import Verif.Lemmas.ApidbRoundTrip
/-! The sorted tables of a dump: objects, tags, way nodes, members. -/
namespace OsmIo.Apidb
open OsmIo.Text OsmIo.Sql OsmIo.Spec

theorem keyLt_of_before {id id' : Int64} {v v' : Int32} (h : KeyBefore (id, v) (id', v')) :
    KeyLt (id, v.toInt64) (id', v'.toInt64) := by
  rcases h with h | ⟨h, h2⟩
  · exact .inl h
  · refine .inr ⟨h, ?_⟩
    rw [Int64.lt_iff_toInt_lt]
    simp only [Int32.toInt_toInt64]
    exact Int32.lt_iff_toInt_lt.1 h2

/-- Sorted objects. -/
theorem objects_back {α : Type} {le : Text → Text → Prop} {l : List α} {id : α → Int64} {ver : α → Int32}
    {cols : α → List Text} {jv : Nat} {text sorted : Text} (hg : ∀ a ∈ l, Good (cols a))
    (hid : ∀ a, (cols a)[0]? = some (num (id a).toInt)) (hv : ∀ a, (cols a)[jv - 1]? = some (num (ver a).toInt))
    (e : text = tableText (l.map cols) ++ endMarker)
    (hs : Sorted le [(1, .integer), (jv, .integer)] text sorted)
    (hu : l.Pairwise fun a b => ¬ (id a = id b ∧ ver a = ver b)) :
    ∃ l' : List α, l'.Perm l ∧ lines sorted = l'.map (fun a => tabbed (cols a)) ∧
      l'.Pairwise fun a b => KeyBefore (id a, ver a) (id b, ver b) := by
  obtain ⟨l', hp, hl, ho⟩ := sorted_lines hg e hs
  refine ⟨l', hp, hl, ?_⟩
  have hu' : l'.Pairwise fun a b => ¬ (id a = id b ∧ ver a = ver b) :=
    (hp.pairwise_iff (fun {a b} h e => h ⟨e.1.symm, e.2.symm⟩)).2 hu
  refine (List.pairwise_and_iff.2 ⟨ho, hu'⟩).imp_of_mem ?_
  rintro a b ha hb ⟨h1, h2⟩
  have ga := hg a (hp.subset ha)
  have gb := hg b (hp.subset hb)
  refine before_of_le (lineLe_keys h1 ?_ ?_ ?_ ?_).1 h2
  · rw [ga.column, show 1 - 1 = 0 from rfl, hid]; rfl
  · rw [gb.column, show 1 - 1 = 0 from rfl, hid]; rfl
  · rw [ga.column, hv]; rfl
  · rw [gb.column, hv]; rfl

/-- Parts of objects, sorted by the key of their owner first. -/
theorem parts_back {α β : Type} {le : Text → Text → Prop} {l : List α} {id : α → Int64} {ver : α → Int32}
    {parts : α → List β} {cols : α × β → List Text} {jv : Nat} {key : List (Nat × FieldType)} {text sorted : Text}
    (hg : ∀ p ∈ l.flatMap (fun a => (parts a).map (Prod.mk a)), Good (cols p))
    (hid : ∀ p, (cols p)[0]? = some (num (id p.1).toInt)) (hv : ∀ p, (cols p)[jv - 1]? = some (num (ver p.1).toInt))
    (e : text = tableText ((l.flatMap fun a => (parts a).map (Prod.mk a)).map cols) ++ endMarker)
    (hs : Sorted le ((1, .integer) :: (jv, .integer) :: key) text sorted)
    (hu : l.Pairwise fun a b => ¬ (id a = id b ∧ ver a = ver b)) :
    ∃ ps : List (α × β), lines sorted = ps.map (fun p => tabbed (cols p)) ∧
      (∀ p ∈ ps, p.1 ∈ l ∧ p.2 ∈ parts p.1 ∧ Good (cols p)) ∧
      (ps.Pairwise fun p q => KeyLe (id p.1, (ver p.1).toInt64) (id q.1, (ver q.1).toInt64)) ∧
      ∀ a ∈ l, ∃ qs : List β, qs.Perm (parts a) ∧
        ps.filter (fun p => (id p.1, (ver p.1).toInt64) = (id a, (ver a).toInt64)) = qs.map (Prod.mk a) ∧
        qs.Pairwise fun b c => lineLe le key (tabbed (cols (a, b))) (tabbed (cols (a, c))) := by
  obtain ⟨ps, hp, hl, ho⟩ := sorted_lines hg e hs
  have hk : ∀ p ∈ ps, ∀ q ∈ ps, lineLe le ((1, .integer) :: (jv, .integer) :: key) (tabbed (cols p)) (tabbed (cols q)) →
      KeyLe (id p.1, (ver p.1).toInt64) (id q.1, (ver q.1).toInt64) ∧
        ((id p.1 = id q.1 ∧ ver p.1 = ver q.1) → lineLe le key (tabbed (cols p)) (tabbed (cols q))) := by
    intro p hpm q hqm h
    have ga := hg p (hp.subset hpm)
    have gb := hg q (hp.subset hqm)
    refine lineLe_keys h ?_ ?_ ?_ ?_
    · rw [ga.column, show 1 - 1 = 0 from rfl, hid]; rfl
    · rw [gb.column, show 1 - 1 = 0 from rfl, hid]; rfl
    · rw [ga.column, hv]; rfl
    · rw [gb.column, hv]; rfl
  refine ⟨ps, hl, ?_, ?_, ?_⟩
  · intro p hpm
    have hm := hp.subset hpm
    refine ⟨?_, ?_, hg p hm⟩
    · obtain ⟨a, ha, hm⟩ := List.mem_flatMap.1 hm
      obtain ⟨b, _, rfl⟩ := List.mem_map.1 hm
      exact ha
    · obtain ⟨a, ha, hm⟩ := List.mem_flatMap.1 hm
      obtain ⟨b, hb, rfl⟩ := List.mem_map.1 hm
      exact hb
  · exact ho.imp_of_mem fun {p q} hp' hq' h => (hk p hp' q hq' h).1
  · intro a ha
    have hu' : l.Pairwise fun a b => (id a, (ver a).toInt64) ≠ (id b, (ver b).toInt64) :=
      hu.imp fun {a b} h e => by
        simp only [Prod.mk.injEq, toInt64_inj] at e
        exact h e
    obtain ⟨qs, hq, hf⟩ := perm_parts (fun a => (id a, (ver a).toInt64)) parts hp hu' ha
    refine ⟨qs, hq, hf, ?_⟩
    have hsub : (qs.map (Prod.mk a)).Sublist ps := hf ▸ List.filter_sublist
    have := ho.sublist hsub
    rw [List.pairwise_map] at this
    refine this.imp_of_mem fun {b c} hb hc h => ?_
    exact (hk (a, b) (hsub.subset (List.mem_map_of_mem hb)) (a, c) (hsub.subset (List.mem_map_of_mem hc)) h).2 ⟨rfl, rfl⟩

/-- Sorted tags. -/
theorem tags_back {α : Type} {z : Codec} {le : Text → Text → Prop} {l : List α} {id : α → Int64} {ver : α → Int32}
    {tags : α → List Tag} {cols : α × Tag → List Text} {jv jk : Nat} {text sorted : Text} {build : Text → Out TagRecord}
    (hg : ∀ p ∈ l.flatMap (fun a => (tags a).map (Prod.mk a)), Good (cols p))
    (hid : ∀ p, (cols p)[0]? = some (num (id p.1).toInt)) (hv : ∀ p, (cols p)[jv - 1]? = some (num (ver p.1).toInt))
    (hk : ∀ p, (cols p)[jk - 1]? = some (z.escape p.2.k))
    (e : text = tableText ((l.flatMap fun a => (tags a).map (Prod.mk a)).map cols) ++ endMarker)
    (hs : Sorted le [(1, .integer), (jv, .integer), (jk, .string)] text sorted)
    (hu : l.Pairwise fun a b => ¬ (id a = id b ∧ ver a = ver b))
    (hb : ∀ p, Good (cols p) → build (tabbed (cols p)) = .ok (tagRec (id p.1) (ver p.1) p.2)) :
    ∃ rs : List TagRecord, Holds build sorted rs ∧ (rs.Pairwise fun a b => KeyLe (tagKey a) (tagKey b)) ∧
      (∀ r ∈ rs, ∃ a ∈ l, tagKey r = (id a, (ver a).toInt64)) ∧
      ∀ a ∈ l, (tagsAt rs (id a, (ver a).toInt64)).Perm (tags a) ∧
        (tagsAt rs (id a, (ver a).toInt64)).Pairwise (TagLe z le) := by
  obtain ⟨ps, hl, hm, ho, hf⟩ := parts_back hg hid hv e hs hu
  refine ⟨ps.map fun p => tagRec (id p.1) (ver p.1) p.2, sorted_holds hl (fun p h => (hm p h).2.2)
    (fun p h => hb p (hm p h).2.2), ?_, ?_, ?_⟩
  · rw [List.pairwise_map]
    exact ho
  · intro r hr
    obtain ⟨p, hp, rfl⟩ := List.mem_map.1 hr
    exact ⟨p.1, (hm p hp).1, rfl⟩
  · intro a ha
    obtain ⟨qs, hq, hfe, hqo⟩ := hf a ha
    have e1 : tagsAt (ps.map fun p => tagRec (id p.1) (ver p.1) p.2) (id a, (ver a).toInt64) = qs := by
      unfold tagsAt
      rw [List.filter_map]
      have : (fun t => decide (tagKey t = (id a, (ver a).toInt64))) ∘ (fun p : α × Tag => tagRec (id p.1) (ver p.1) p.2) =
          fun p => decide ((id p.1, (ver p.1).toInt64) = (id a, (ver a).toInt64)) := rfl
      rw [this, hfe, List.map_map, List.map_map]
      conv_rhs => rw [← List.map_id qs]
      rfl
    rw [e1]
    refine ⟨hq, hqo.imp_of_mem fun {b c} hb hc h => ?_⟩
    have hgd : ∀ b ∈ qs, Good (cols (a, b)) := fun b hb =>
      hg (a, b) (List.mem_flatMap.2 ⟨a, ha, List.mem_map_of_mem (hq.subset hb)⟩)
    rw [lineLe_string (x := z.escape b.k) (y := z.escape c.k)
      (by rw [(hgd b hb).column, hk]; rfl) (by rw [(hgd c hc).column, hk]; rfl)] at h
    rcases h with h | h
    · exact h.1
    · exact h.1

/-- Sorted way nodes. -/
theorem wayNodes_back {le : Text → Text → Prop} {l : List Way} {text sorted : Text}
    (hg : ∀ p ∈ l.flatMap (fun a => (a.refs.zipIdx 1).map (Prod.mk a)), Good (wayNodeCols p.1 p.2))
    (e : text = tableText ((l.flatMap fun a => (a.refs.zipIdx 1).map (Prod.mk a)).map fun p => wayNodeCols p.1 p.2) ++ endMarker)
    (hs : Sorted le (dumpDef .wayNodes).key text sorted)
    (hu : l.Pairwise fun a b => ¬ (a.id = b.id ∧ a.version = b.version)) (hlen : ∀ a ∈ l, a.refs.length < 2 ^ 63 - 1) :
    ∃ rs : List WayNodeRecord, Holds (createWayNode (dumpDef .wayNodes).fields) sorted rs ∧
      (rs.Pairwise fun a b => KeyLe (wayNodeKey a) (wayNodeKey b)) ∧
      (∀ r ∈ rs, ∃ a ∈ l, wayNodeKey r = (a.id, a.version.toInt64)) ∧
      ∀ a ∈ l, ((rs.filter fun n => wayNodeKey n = (a.id, a.version.toInt64)).map (·.nodeId)) = a.refs := by
  obtain ⟨ps, hl, hm, ho, hf⟩ := parts_back (id := Way.id) (ver := Way.version) (jv := 3) (key := [(4, .integer)])
    hg (fun _ => rfl) (fun _ => rfl) e hs hu
  refine ⟨ps.map fun p => wayNodeRec p.1 p.2, sorted_holds hl (fun p h => (hm p h).2.2)
    (fun p h => createWayNode_row ?_ (hm p h).2.2), ?_, ?_, ?_⟩
  · have := zipIdx_lt (hm p h).2.1
    have := hlen p.1 (hm p h).1
    omega
  · rw [List.pairwise_map]
    exact ho
  · intro r hr
    obtain ⟨p, hp, rfl⟩ := List.mem_map.1 hr
    exact ⟨p.1, (hm p hp).1, rfl⟩
  · intro a ha
    obtain ⟨qs, hq, hfe, hqo⟩ := hf a ha
    have hqe : qs = a.refs.zipIdx 1 := by
      refine eq_of_numbered (fun p q => p.2 ≤ q.2) hq ?_ ((zipIdx_pairwise _ _).imp fun h => Nat.le_of_lt h)
        (fun p q h1 h2 => Nat.le_antisymm h1 h2)
      refine hqo.imp_of_mem fun {b c} hb hc h => ?_
      have hgd : ∀ b ∈ qs, Good (wayNodeCols a b) := fun b hb =>
        hg (a, b) (List.mem_flatMap.2 ⟨a, ha, List.mem_map_of_mem (hq.subset hb)⟩)
      rw [lineLe_int (m := (b.2 : Int)) (n := (c.2 : Int)) (by rw [(hgd b hb).column]; rfl)
        (by rw [(hgd c hc).column]; rfl)] at h
      omega
    rw [List.filter_map]
    have : (fun n => decide (wayNodeKey n = (a.id, a.version.toInt64))) ∘ (fun p : Way × (Int64 × Nat) => wayNodeRec p.1 p.2) =
        fun p => decide ((p.1.id, p.1.version.toInt64) = (a.id, a.version.toInt64)) := rfl
    rw [this, hfe, List.map_map, List.map_map, hqe]
    exact zipIdx_map_fst _ _

/-- The order of numbered members. -/
def NumberedLe (z : Codec) (le : Text → Text → Prop) (p q : Member × Nat) : Prop :=
  (le (memberType p.1) (memberType q.1) ∧ ¬ le (memberType q.1) (memberType p.1)) ∨
  (le (memberType p.1) (memberType q.1) ∧ le (memberType q.1) (memberType p.1) ∧
    (memberId p.1 < memberId q.1 ∨ (memberId p.1 = memberId q.1 ∧
      ((le (z.escape (memberRole p.1)) (z.escape (memberRole q.1)) ∧ ¬ le (z.escape (memberRole q.1)) (z.escape (memberRole p.1))) ∨
       (le (z.escape (memberRole p.1)) (z.escape (memberRole q.1)) ∧ le (z.escape (memberRole q.1)) (z.escape (memberRole p.1)) ∧
        p.2 ≤ q.2)))))

theorem NumberedLe.member {z : Codec} {le : Text → Text → Prop} {p q : Member × Nat} (h : NumberedLe z le p q) :
    MemberLe z le p.1 q.1 := by
  rcases h with h | ⟨h1, h2, h⟩
  · exact ⟨h.1, fun h' => absurd h' h.2⟩
  · refine ⟨h1, fun _ => ?_⟩
    rcases h with h | ⟨h, h3 | h3⟩
    · exact .inl h
    · exact .inr ⟨h, h3.1⟩
    · exact .inr ⟨h, h3.1⟩

theorem NumberedLe.of_member {z : Codec} {le : Text → Text → Prop} {p q : Member × Nat} (h : MemberLe z le p.1 q.1)
    (hn : p.2 ≤ q.2) : NumberedLe z le p q := by
  obtain ⟨h1, h2⟩ := h
  by_cases ht : le (memberType q.1) (memberType p.1)
  · refine .inr ⟨h1, ht, ?_⟩
    rcases h2 ht with h | ⟨h, h3⟩
    · exact .inl h
    · refine .inr ⟨h, ?_⟩
      by_cases hr : le (z.escape (memberRole q.1)) (z.escape (memberRole p.1))
      · exact .inr ⟨h3, hr, hn⟩
      · exact .inl ⟨h3, hr⟩
  · exact .inl ⟨h1, ht⟩

theorem NumberedLe.antisymm {z : Codec} {le : Text → Text → Prop} {p q : Member × Nat} (h : NumberedLe z le p q)
    (h' : NumberedLe z le q p) : p.2 = q.2 := by
  rcases h with h | ⟨h1, h2, h⟩
  · rcases h' with h' | h'
    · exact absurd h'.1 h.2
    · exact absurd h'.1 h.2
  · rcases h' with h' | ⟨_, _, h'⟩
    · exact absurd h1 h'.2
    · rcases h with h | ⟨h, h3⟩
      · rcases h' with h' | ⟨h', _⟩
        · exact absurd (Int64.lt_trans h h') Int64.lt_irrefl
        · rw [h'] at h; exact absurd h Int64.lt_irrefl
      · rcases h' with h' | ⟨_, h4⟩
        · rw [h] at h'; exact absurd h' Int64.lt_irrefl
        · rcases h3 with h3 | ⟨h3, _, h5⟩
          · rcases h4 with h4 | h4
            · exact absurd h4.1 h3.2
            · exact absurd h4.1 h3.2
          · rcases h4 with h4 | ⟨_, _, h6⟩
            · exact absurd h3 h4.2
            · omega

theorem memberOf_rec (r : Relation) (p : Member × Nat) :
    (match (memberRec r p).memberType with
      | .node => Member.node ⟨(memberRec r p).memberId, (memberRec r p).memberRole⟩
      | .way => .way ⟨(memberRec r p).memberId, (memberRec r p).memberRole⟩
      | .relation => .relation ⟨(memberRec r p).memberId, (memberRec r p).memberRole⟩) = p.1 := by
  obtain ⟨m, k⟩ := p
  cases m <;> rfl

/-- The members of a relation among the member records. -/
def membersAt (rs : List MemberRecord) (key : Int64 × Int64) : List Member :=
  (rs.filter fun m => memberKey m = key).map fun m =>
      match m.memberType with
      | .node => .node ⟨m.memberId, m.memberRole⟩
      | .way => .way ⟨m.memberId, m.memberRole⟩
      | .relation => .relation ⟨m.memberId, m.memberRole⟩

/-- Sorted members. -/
theorem members_back {z : Codec} (hz : Faithful z) {le : Text → Text → Prop} {l : List Relation} {text sorted : Text}
    (hg : ∀ p ∈ l.flatMap (fun a => (a.members.zipIdx 1).map (Prod.mk a)), Good (memberCols z p.1 p.2))
    (e : text = tableText ((l.flatMap fun a => (a.members.zipIdx 1).map (Prod.mk a)).map fun p => memberCols z p.1 p.2) ++ endMarker)
    (hs : Sorted le (dumpDef .relationMembers).key text sorted)
    (hu : l.Pairwise fun a b => ¬ (a.id = b.id ∧ a.version = b.version)) (hlen : ∀ a ∈ l, a.members.length < 2 ^ 63 - 1) :
    ∃ rs : List MemberRecord, Holds (createMember z (dumpDef .relationMembers).fields) sorted rs ∧
      (rs.Pairwise fun a b => KeyLe (memberKey a) (memberKey b)) ∧
      (∀ r ∈ rs, ∃ a ∈ l, memberKey r = (a.id, a.version.toInt64)) ∧
      ∀ a ∈ l, (membersAt rs (a.id, a.version.toInt64)).Perm a.members ∧
        (membersAt rs (a.id, a.version.toInt64)).Pairwise (MemberLe z le) ∧
        (a.members.Pairwise (MemberLe z le) → membersAt rs (a.id, a.version.toInt64) = a.members) := by
  obtain ⟨ps, hl, hm, ho, hf⟩ := parts_back (id := Relation.id) (ver := Relation.version) (jv := 5)
    (key := [(2, .string), (3, .integer), (4, .string), (6, .integer)]) hg (fun _ => rfl) (fun _ => rfl) e hs hu
  refine ⟨ps.map fun p => memberRec p.1 p.2, sorted_holds hl (fun p h => (hm p h).2.2)
    (fun p h => createMember_row hz ?_ (hm p h).2.2), ?_, ?_, ?_⟩
  · have := zipIdx_lt (hm p h).2.1
    have := hlen p.1 (hm p h).1
    omega
  · rw [List.pairwise_map]
    exact ho
  · intro r hr
    obtain ⟨p, hp, rfl⟩ := List.mem_map.1 hr
    exact ⟨p.1, (hm p hp).1, rfl⟩
  · intro a ha
    obtain ⟨qs, hq, hfe, hqo⟩ := hf a ha
    have hqn : qs.Pairwise (NumberedLe z le) := by
      refine hqo.imp_of_mem fun {b c} hb hc h => ?_
      have hgd : ∀ b ∈ qs, Good (memberCols z a b) := fun b hb =>
        hg (a, b) (List.mem_flatMap.2 ⟨a, ha, List.mem_map_of_mem (hq.subset hb)⟩)
      rw [lineLe_string (x := memberType b.1) (y := memberType c.1) (by rw [(hgd b hb).column]; rfl)
          (by rw [(hgd c hc).column]; rfl),
        lineLe_int (m := (memberId b.1).toInt) (n := (memberId c.1).toInt) (by rw [(hgd b hb).column]; rfl)
          (by rw [(hgd c hc).column]; rfl),
        lineLe_string (x := z.escape (memberRole b.1)) (y := z.escape (memberRole c.1)) (by rw [(hgd b hb).column]; rfl)
          (by rw [(hgd c hc).column]; rfl),
        lineLe_int (m := (b.2 : Int)) (n := (c.2 : Int)) (by rw [(hgd b hb).column]; rfl)
          (by rw [(hgd c hc).column]; rfl)] at h
      rcases h with h | ⟨h1, h2, h⟩
      · exact .inl h
      · refine .inr ⟨h1, h2, ?_⟩
        rcases h with h | ⟨h, h3⟩
        · exact .inl (Int64.lt_iff_toInt_lt.2 h)
        · refine .inr ⟨Int64.toInt_inj.1 h, ?_⟩
          rcases h3 with h3 | ⟨h3, h4, h5⟩
          · exact .inl h3
          · exact .inr ⟨h3, h4, by omega⟩
    have e1 : membersAt (ps.map fun p => memberRec p.1 p.2) (a.id, a.version.toInt64) = qs.map Prod.fst := by
      unfold membersAt
      rw [List.filter_map]
      have : (fun n => decide (memberKey n = (a.id, a.version.toInt64))) ∘
          (fun p : Relation × (Member × Nat) => memberRec p.1 p.2) =
          fun p => decide ((p.1.id, p.1.version.toInt64) = (a.id, a.version.toInt64)) := rfl
      rw [this, hfe, List.map_map, List.map_map]
      apply List.map_congr_left
      intro p _
      exact memberOf_rec a p
    rw [e1]
    refine ⟨?_, ?_, ?_⟩
    · have := hq.map Prod.fst
      rwa [zipIdx_map_fst] at this
    · rw [List.pairwise_map]
      exact hqn.imp fun h => h.member
    · intro hsorted
      have : qs = a.members.zipIdx 1 := by
        refine eq_of_numbered (NumberedLe z le) hq hqn ?_ (fun p q h1 h2 => h1.antisymm h2)
        have h1 : (a.members.zipIdx 1).Pairwise fun p q => MemberLe z le p.1 q.1 := by
          have : ((a.members.zipIdx 1).map Prod.fst).Pairwise (MemberLe z le) := by rwa [zipIdx_map_fst]
          rwa [List.pairwise_map] at this
        exact (List.pairwise_and_iff.2 ⟨h1, zipIdx_pairwise _ _⟩).imp fun h => .of_member h.1 (Nat.le_of_lt h.2)
      rw [this, zipIdx_map_fst]

end OsmIo.Apidb
