import Verif.Spec.ApidbRead
/-! Lemmas about the apidb reader: table iteration and merge joins. -/
namespace OsmIo.Apidb
open OsmIo.Text OsmIo.Sql OsmIo.Spec

/-- Lines that give records. -/
def Reads {α : Type} (build : Text → Out α) (ls : List Text) (rs : List α) : Prop :=
  List.Forall₂ (fun l r => stopLine l = false ∧ build l = .ok r) ls rs

theorem stopLine_false {l : Text} : stopLine l = false ↔ l ≠ [] ∧ ¬ (['\\', '.'] <+: l) := by
  unfold stopLine
  rw [Bool.or_eq_false_iff, ← Bool.not_eq_true, List.isPrefixOf_iff_prefix, decide_eq_false_iff_not, and_comm]

theorem holds_iff {α : Type} {build : Text → Out α} {text : Text} {rs : List α} :
    Holds build text rs ↔ Reads build (lines text) rs := by
  unfold Holds Reads
  simp only [stopLine_false, and_assoc]

theorem tableAll_reads {α : Type} {build : Text → Out α} {ls : List Text} {rs : List α} (h : Reads build ls rs) :
    tableAll build ls = .ok rs := by
  induction h with
  | nil => rfl
  | cons h _ ih => simp [tableAll, h.1, h.2, ih]

theorem gather_reads {β : Type} {build : Text → Out β} (mine : β → Bool) {ls : List Text} {rs : List β}
    (h : Reads build ls rs) :
    ∃ next rest rest', gather build mine ls = .ok (rs.takeWhile mine, next, rest) ∧ Reads build rest rest' ∧
      rs.dropWhile mine = next.toList ++ rest' := by
  induction h with
  | nil => exact ⟨none, [], [], rfl, .nil, rfl⟩
  | @cons l r ls rs h hs ih =>
    obtain ⟨next, rest, rest', e1, e2, e3⟩ := ih
    simp only [gather, h.1, h.2, Out.ok_bind, Bool.false_eq_true, if_false]
    cases hm : mine r
    · exact ⟨some r, ls, rs, by simp [hm], hs, by simp [hm]⟩
    · exact ⟨next, rest, rest', by simp [hm, e1], e2, by simp [hm, e3]⟩

/-- The records a child table still has to deliver. -/
def Child.Holds {β : Type} (build : Text → Out β) (c : Child β) (rs : List β) : Prop :=
  ∃ rs', Reads build c.lines rs' ∧ rs = c.pending.toList ++ rs'

theorem attach_holds {β : Type} {build : Text → Out β} (mine : β → Bool) {c : Child β} {rs : List β}
    (h : c.Holds build rs) :
    ∃ c' : Child β, attach build mine c.pending c.lines = .ok (rs.takeWhile mine, c'.pending, c'.lines) ∧
      c'.Holds build (rs.dropWhile mine) := by
  obtain ⟨rs', hr, rfl⟩ := h
  obtain ⟨next, rest, rest', e1, e2, e3⟩ := gather_reads mine hr
  unfold attach
  cases hp : c.pending with
  | none => exact ⟨⟨next, rest⟩, by simp [e1], rest', e2, by simpa using e3⟩
  | some r =>
    cases hm : mine r
    · exact ⟨⟨some r, c.lines⟩, by simp [hm], rs', hr, by simp [hm]⟩
    · exact ⟨⟨next, rest⟩, by simp [hm, e1], rest', e2, by simpa [hm] using e3⟩

/-- In grouped parts, the parts of the first object come first. -/
theorem takeWhile_first {α β : Type} (ok : α → Int64 × Int64) (pk : β → Int64 × Int64) (o : α) (os : List α)
    (ps : List β) (h : Joinable (o :: os) ok ps pk) :
    ps.takeWhile (fun p => decide (pk p = ok o)) = ps.filter (fun p => decide (pk p = ok o)) ∧
    ps.dropWhile (fun p => decide (pk p = ok o)) = ps.filter (fun p => !decide (pk p = ok o)) := by
  obtain ⟨h1, h2, h3⟩ := h
  induction ps with
  | nil => simp
  | cons p ps ih =>
    have h2' := List.pairwise_cons.1 h2
    by_cases hp : pk p = ok o
    · have := ih h2'.2 (fun q hq => h3 q (by simp [hq]))
      simp [hp, this]
    · obtain ⟨o', ho', he⟩ := h3 p (by simp)
      rcases List.mem_cons.1 ho' with rfl | ho'
      · exact absurd he.symm hp
      · have hlt := (List.pairwise_cons.1 h1).1 o' ho'
        have hall : ∀ q ∈ p :: ps, pk q ≠ ok o := by
          intro q hq heq
          rcases List.mem_cons.1 hq with rfl | hq
          · exact hp heq
          · have hle := h2'.1 q hq
            rw [heq, ← he] at hle
            rcases hlt with hlt | ⟨e1, hlt⟩ <;> rcases hle with hle | ⟨e2, hle⟩
            · exact Int64.lt_irrefl (Int64.lt_trans hlt hle)
            · rw [e2] at hlt; exact Int64.lt_irrefl hlt
            · rw [e1] at hle; exact Int64.lt_irrefl hle
            · exact Int64.lt_irrefl (Int64.lt_of_lt_of_le hlt hle)
        constructor
        · rw [List.filter_eq_nil_iff.2 (by simpa using hall)]
          simp [hp]
        · rw [List.filter_eq_self.2 (by simpa using hall)]
          simp [hp]

theorem joinable_rest {α β : Type} (ok : α → Int64 × Int64) (pk : β → Int64 × Int64) (o : α) (os : List α)
    (ps : List β) (h : Joinable (o :: os) ok ps pk) :
    Joinable os ok (ps.filter (fun p => !decide (pk p = ok o))) pk := by
  obtain ⟨h1, h2, h3⟩ := h
  refine ⟨(List.pairwise_cons.1 h1).2, h2.filter _, ?_⟩
  intro p hp
  simp only [List.mem_filter, Bool.not_eq_true', decide_eq_false_iff_not] at hp
  obtain ⟨o', ho', he⟩ := h3 p hp.1
  rcases List.mem_cons.1 ho' with rfl | ho'
  · exact absurd he.symm hp.2
  · exact ⟨o', ho', he⟩

theorem filter_rest {α β : Type} (ok : α → Int64 × Int64) (pk : β → Int64 × Int64) (o o' : α) (os : List α)
    (ps : List β) (h1 : (o :: os).Pairwise fun a b => KeyLt (ok a) (ok b)) (ho : o' ∈ os) :
    (ps.filter (fun p => !decide (pk p = ok o))).filter (fun p => decide (pk p = ok o')) =
      ps.filter (fun p => decide (pk p = ok o')) := by
  rw [List.filter_filter]
  apply List.filter_congr
  intro p _
  have hlt := (List.pairwise_cons.1 h1).1 o' ho
  by_cases hp : pk p = ok o'
  · have : pk p ≠ ok o := by
      intro e
      rw [← hp, e] at hlt
      rcases hlt with hlt | ⟨_, hlt⟩ <;> exact Int64.lt_irrefl hlt
    simp [hp]
    rw [← hp]; exact this
  · simp [hp]

/-! ### The three phases -/

theorem Yields.append {S α : Type} {next : S → Out (Option α × S)} {s s' s'' : S} {as bs : List α}
    (h : Yields next s as s') (h' : Yields next s' bs s'') : Yields next s (as ++ bs) s'' := by
  induction h with
  | nil => exact h'
  | cons h1 _ ih => exact .cons h1 (ih h')

theorem nodes_phase (z : Codec) (T : Int64 × Int64 → List TagRecord) (recs : List NodeRecord) :
    ∀ (it : ElementIterator) (ts : List TagRecord) (ns : List Node), it.state = .nodes →
      Reads (createNode it.fields.nodes) it.nodes recs →
      it.nodeTags.Holds (createNodeTag z it.fields.nodeTags) ts →
      Joinable recs nodeKey ts tagKey →
      (∀ r ∈ recs, ts.filter (fun t => decide (tagKey t = nodeKey r)) = T (nodeKey r)) →
      List.Forall₂ (fun r n => ∃ uid user, it.owner r.changesetId = .ok (uid, user) ∧
        n = nodeOf r (T (nodeKey r)) uid user) recs ns →
      ∃ a b, Yields (ElementIterator.next z) it (ns.map .node ++ [.sentinel])
        { it with state := .ways, nodes := a, nodeTags := b } := by
  induction recs with
  | nil =>
    intro it ts ns hst hr ht hj hT hf
    cases hf
    cases hn : it.nodes with
    | cons l ls => rw [hn] at hr; cases hr
    | nil =>
      refine ⟨[], it.nodeTags, .cons ?_ (.nil _)⟩
      simp [ElementIterator.next, hst, ElementIterator.nextNode, nodesNext, hn, tableNext]
  | cons r recs ih =>
    intro it ts ns hst hr ht hj hT hf
    cases hn : it.nodes with
    | nil => rw [hn] at hr; cases hr
    | cons l ls =>
      rw [hn] at hr
      cases hr with
      | cons hl hr =>
      cases hf with
      | @cons _ n _ ns hrn hf =>
      obtain ⟨uid, user, ho, rfl⟩ := hrn
      obtain ⟨c', e1, e2⟩ := attach_holds (fun t => decide (tagKey t = nodeKey r)) ht
      obtain ⟨t1, t2⟩ := takeWhile_first nodeKey tagKey r recs ts hj
      rw [t1, hT r (by simp)] at e1
      rw [t2] at e2
      have emine : (fun t : TagRecord => decide (tagKey t = nodeKey r)) =
          fun t => decide (t.id = r.nodeId) && decide (t.version = r.version) := by
        funext t
        simp [tagKey, nodeKey, Prod.ext_iff]
      rw [emine] at e1
      obtain ⟨a, b, hy⟩ := ih { it with nodes := ls, nodeTags := c' }
        (ts.filter fun t => !decide (tagKey t = nodeKey r)) ns hst hr e2
        (joinable_rest nodeKey tagKey r recs ts hj)
        (by
          intro r' hr'
          rw [filter_rest nodeKey tagKey r r' recs ts hj.ascending hr']
          exact hT r' (by simp [hr']))
        hf
      refine ⟨a, b, .cons ?_ hy⟩
      simp [ElementIterator.next, hst, ElementIterator.nextNode, nodesNext, hn, tableNext, hl.1, hl.2, e1]
      erw [ho]
      rfl

theorem objectsNext_none {β : Type} (z : Codec) (fo ft : List Nat) (b : Text → Out β) (pk : β → Int64 × Int64)
    (tags : Child TagRecord) (parts : Child β) :
    objectsNext z fo ft b pk [] tags parts = .ok (none, [], tags, parts) := rfl

theorem objectsNext_some {β : Type} (z : Codec) (fo ft : List Nat) (b : Text → Out β) (pk : β → Int64 × Int64)
    {l : Text} {ls : List Text} {o : ObjectRecord} {os : List ObjectRecord} {tags : Child TagRecord} {parts : Child β}
    {ts : List TagRecord} {ps : List β}
    (hl : stopLine l = false ∧ createObject fo l = .ok o)
    (ht : tags.Holds (createObjectTag z ft) ts) (hp : parts.Holds b ps)
    (hjt : Joinable (o :: os) objectKey ts tagKey) (hjp : Joinable (o :: os) objectKey ps pk) :
    ∃ tags' parts', objectsNext z fo ft b pk (l :: ls) tags parts =
        .ok (some (o, ts.filter (fun t => decide (tagKey t = objectKey o)),
          ps.filter (fun p => decide (pk p = objectKey o))), ls, tags', parts') ∧
      Child.Holds (createObjectTag z ft) tags' (ts.filter fun t => !decide (tagKey t = objectKey o)) ∧
      Child.Holds b parts' (ps.filter fun p => !decide (pk p = objectKey o)) := by
  obtain ⟨c1, e1, e2⟩ := attach_holds (fun t => decide (tagKey t = objectKey o)) ht
  obtain ⟨c2, f1, f2⟩ := attach_holds (fun t => decide (pk t = objectKey o)) hp
  obtain ⟨t1, t2⟩ := takeWhile_first objectKey tagKey o os ts hjt
  obtain ⟨p1, p2⟩ := takeWhile_first objectKey pk o os ps hjp
  have m1 : (fun t : TagRecord => decide (tagKey t = objectKey o)) =
      fun t => decide (t.id = o.id) && decide (t.version = o.version) := by
    funext t; simp [tagKey, objectKey, Prod.ext_iff]
  have m2 : (fun t : β => decide (pk t = objectKey o)) =
      fun t => decide ((pk t).1 = o.id) && decide ((pk t).2 = o.version) := by
    funext t; simp [objectKey, Prod.ext_iff]
  rw [t1] at e1; rw [t2] at e2; rw [p1] at f1; rw [p2] at f2
  rw [m1] at e1; rw [m2] at f1
  refine ⟨c1, c2, ?_, e2, f2⟩
  rw [m1, m2]
  simp [objectsNext, tableNext, hl.1, hl.2, e1, f1]

theorem ways_phase (z : Codec) (T : Int64 × Int64 → List TagRecord) (P : Int64 × Int64 → List WayNodeRecord)
    (recs : List ObjectRecord) :
    ∀ (it : ElementIterator) (ts : List TagRecord) (ps : List WayNodeRecord) (ws : List Way), it.state = .ways →
      Reads (createObject it.fields.ways) it.ways recs →
      it.wayTags.Holds (createObjectTag z it.fields.wayTags) ts →
      it.wayNodes.Holds (createWayNode it.fields.wayNodes) ps →
      Joinable recs objectKey ts tagKey → Joinable recs objectKey ps wayNodeKey →
      (∀ r ∈ recs, ts.filter (fun t => decide (tagKey t = objectKey r)) = T (objectKey r)) →
      (∀ r ∈ recs, ps.filter (fun t => decide (wayNodeKey t = objectKey r)) = P (objectKey r)) →
      List.Forall₂ (fun r n => ∃ uid user, it.owner r.changesetId = .ok (uid, user) ∧
        n = wayOf r (T (objectKey r)) (P (objectKey r)) uid user) recs ws →
      ∃ a b c, Yields (ElementIterator.next z) it (ws.map .way ++ [.sentinel])
        { it with state := .relations, ways := a, wayTags := b, wayNodes := c } := by
  induction recs with
  | nil =>
    intro it ts ps ws hst hr ht hp hj hj' hT hP hf
    cases hf
    cases hn : it.ways with
    | cons l ls => rw [hn] at hr; cases hr
    | nil =>
      refine ⟨[], it.wayTags, it.wayNodes, .cons ?_ (.nil _)⟩
      simp [ElementIterator.next, hst, ElementIterator.nextWay, objectsNext_none, hn]
  | cons r recs ih =>
    intro it ts ps ws hst hr ht hp hj hj' hT hP hf
    cases hn : it.ways with
    | nil => rw [hn] at hr; cases hr
    | cons l ls =>
      rw [hn] at hr
      cases hr with
      | cons hl hr =>
      cases hf with
      | @cons _ n _ ws hrn hf =>
      obtain ⟨uid, user, ho, rfl⟩ := hrn
      obtain ⟨c1, c2, e1, e2, e3⟩ := objectsNext_some (ls := ls) z it.fields.ways it.fields.wayTags _ wayNodeKey hl ht hp hj hj'
      rw [hT r (by simp), hP r (by simp)] at e1
      obtain ⟨a, b, c, hy⟩ := ih { it with ways := ls, wayTags := c1, wayNodes := c2 } _ _ ws hst hr e2 e3
        (joinable_rest objectKey tagKey r recs ts hj) (joinable_rest objectKey wayNodeKey r recs ps hj')
        (by
          intro r' hr'
          rw [filter_rest objectKey tagKey r r' recs ts hj.ascending hr']
          exact hT r' (by simp [hr']))
        (by
          intro r' hr'
          rw [filter_rest objectKey wayNodeKey r r' recs ps hj.ascending hr']
          exact hP r' (by simp [hr']))
        hf
      refine ⟨a, b, c, .cons ?_ hy⟩
      have ek : (fun p : WayNodeRecord => (p.wayId, p.version)) = wayNodeKey := rfl
      simp [ElementIterator.next, hst, ElementIterator.nextWay, hn, ek, e1]
      erw [ho]
      rfl

theorem relations_phase (z : Codec) (T : Int64 × Int64 → List TagRecord) (P : Int64 × Int64 → List MemberRecord)
    (recs : List ObjectRecord) :
    ∀ (it : ElementIterator) (ts : List TagRecord) (ps : List MemberRecord) (rs : List Relation),
      it.state = .relations →
      Reads (createObject it.fields.relations) it.relations recs →
      it.relationTags.Holds (createObjectTag z it.fields.relationTags) ts →
      it.relationMembers.Holds (createMember z it.fields.relationMembers) ps →
      Joinable recs objectKey ts tagKey → Joinable recs objectKey ps memberKey →
      (∀ r ∈ recs, ts.filter (fun t => decide (tagKey t = objectKey r)) = T (objectKey r)) →
      (∀ r ∈ recs, ps.filter (fun t => decide (memberKey t = objectKey r)) = P (objectKey r)) →
      List.Forall₂ (fun r n => ∃ uid user, it.owner r.changesetId = .ok (uid, user) ∧
        n = relationOf r (T (objectKey r)) (P (objectKey r)) uid user) recs rs →
      ∃ a b c, Yields (ElementIterator.next z) it (rs.map .relation ++ [.sentinel])
        { it with state := .finished, relations := a, relationTags := b, relationMembers := c } := by
  induction recs with
  | nil =>
    intro it ts ps ws hst hr ht hp hj hj' hT hP hf
    cases hf
    cases hn : it.relations with
    | cons l ls => rw [hn] at hr; cases hr
    | nil =>
      refine ⟨[], it.relationTags, it.relationMembers, .cons ?_ (.nil _)⟩
      simp [ElementIterator.next, hst, ElementIterator.nextRelation, objectsNext_none, hn]
  | cons r recs ih =>
    intro it ts ps ws hst hr ht hp hj hj' hT hP hf
    cases hn : it.relations with
    | nil => rw [hn] at hr; cases hr
    | cons l ls =>
      rw [hn] at hr
      cases hr with
      | cons hl hr =>
      cases hf with
      | @cons _ n _ ws hrn hf =>
      obtain ⟨uid, user, ho, rfl⟩ := hrn
      obtain ⟨c1, c2, e1, e2, e3⟩ := objectsNext_some (ls := ls) z it.fields.relations it.fields.relationTags _ memberKey hl ht hp
        hj hj'
      rw [hT r (by simp), hP r (by simp)] at e1
      obtain ⟨a, b, c, hy⟩ := ih { it with relations := ls, relationTags := c1, relationMembers := c2 } _ _ ws hst hr e2 e3
        (joinable_rest objectKey tagKey r recs ts hj) (joinable_rest objectKey memberKey r recs ps hj')
        (by
          intro r' hr'
          rw [filter_rest objectKey tagKey r r' recs ts hj.ascending hr']
          exact hT r' (by simp [hr']))
        (by
          intro r' hr'
          rw [filter_rest objectKey memberKey r r' recs ps hj.ascending hr']
          exact hP r' (by simp [hr']))
        hf
      refine ⟨a, b, c, .cons ?_ hy⟩
      have ek : (fun p : MemberRecord => (p.relationId, p.version)) = memberKey := rfl
      simp [ElementIterator.next, hst, ElementIterator.nextRelation, hn, ek, e1]
      erw [ho]
      rfl

/-! ### Indexes -/

theorem lookup_insertKey {β : Type} (k k' : Int64) (v : β) (m : List (Int64 × β)) :
    lookup k (insertKey k' v m) = if k' = k then some v else lookup k m := by
  unfold lookup insertKey
  by_cases h : k' = k
  · simp [h]
  · simp only [List.find?_cons, h, decide_false, if_false]
    congr 1
    induction m with
    | nil => rfl
    | cons p m ih =>
      by_cases hp : p.1 = k'
      · have : p.1 ≠ k := by rw [hp]; exact h
        simp only [List.filter_cons, hp, ne_eq, not_true, decide_false, if_false, Bool.false_eq_true,
          List.find?_cons]
        simp only [ne_eq] at ih
        rw [ih]
        simp [h]
      · simp only [List.filter_cons, hp, ne_eq, not_false_iff, decide_true, if_true, List.find?_cons]
        simp only [ne_eq] at ih
        rw [ih]

theorem lookup_insertAll {β : Type} (k : Int64) (rs : List (Int64 × β)) (m : List (Int64 × β)) :
    lookup k (insertAll rs m) = (lastValue rs k).or (lookup k m) := by
  induction rs generalizing m with
  | nil => simp [insertAll, lastValue]
  | cons p rs ih =>
    have e : insertAll (p :: rs) m = insertAll rs (insertKey p.1 p.2 m) := rfl
    rw [e, ih, lookup_insertKey]
    simp only [lastValue, List.reverse_cons, List.find?_append, List.find?_cons, List.find?_nil]
    cases hf : rs.reverse.find? (fun p => decide (p.1 = k)) with
    | some q => simp
    | none =>
      by_cases hp : p.1 = k <;> simp [hp]

theorem owner_eq {it : ElementIterator} {us : List (Int64 × String)} {cs : List (Int64 × Int64)}
    (hu : it.userIndex = insertAll us []) (hc : it.changesetIndex = insertAll cs []) (k : Int64) :
    it.owner k = Out.unwrap (match lastValue cs k with
      | none => none
      | some uid => (lastValue us uid).map fun name => (uid, name)) := by
  unfold ElementIterator.owner
  rw [hu, hc, lookup_insertAll]
  have h0 : ∀ (β : Type) (k : Int64), lookup k ([] : List (Int64 × β)) = none := fun _ _ => rfl
  rw [h0, Option.or_none]
  cases lastValue cs k with
  | none => rfl
  | some uid =>
    simp only [Out.unwrap_some, Out.ok_bind, lookup_insertAll, h0, Option.or_none]
    cases lastValue us uid <;> rfl

end OsmIo.Apidb
