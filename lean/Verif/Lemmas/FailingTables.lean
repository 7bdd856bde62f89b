import Verif.Spec.FailingTables
import Verif.Lemmas.ApidbDeal
/-! Dumps some lines of which cannot be read. -/
namespace OsmIo.Apidb
open OsmIo.Text OsmIo.Sql OsmIo.Spec

/-- Results that give records. -/
abbrev ReadsF {α : Type} (build : Text → Out α) (ls : Results) (rs : List (Option α)) : Prop :=
  Got (fun l r => stopLine l = false ∧ build l = .ok r) ls rs

theorem Got.mono {α : Type} {row row' : Text → α → Prop} {ls : List (Option Text)} {rs : List (Option α)}
    (h : Got row ls rs) (hr : ∀ l r, ¬ (['\\', '.'] <+: l) → row l r → row' l r) : Got row' ls rs := by
  induction h with
  | nil => exact .nil
  | row h1 h2 _ ih => exact .row h1 (hr _ _ h1 h2) ih
  | failed _ ih => exact .failed ih

theorem tableAllF_reads {α : Type} {build : Text → Out α} {ls : Results} {rs : List (Option α)} (h : ReadsF build ls rs) :
    tableAllF build ls = .ok (before rs) := by
  induction h with
  | nil => rfl
  | row _ h _ ih => simp [tableAllF, before, h.1, h.2, ih]
  | failed => rfl

/-- An object's share of what is left of a table, and what is left then. -/
def takeOwn {β : Type} (mine : β → Bool) : List (Option β) → List β × List (Option β)
  | [] => ([], [])
  | none :: rs => ([], rs)
  | some r :: rs => if mine r then (r :: (takeOwn mine rs).1, (takeOwn mine rs).2) else ([], some r :: rs)

theorem gatherF_reads {β : Type} {build : Text → Out β} (mine : β → Bool) {ls : Results} {rs : List (Option β)}
    (h : ReadsF build ls rs) :
    ∃ next rest rest', gatherF build mine ls = .ok ((takeOwn mine rs).1, next, rest) ∧ ReadsF build rest rest' ∧
      (takeOwn mine rs).2 = next.toList.map some ++ rest' := by
  induction h with
  | nil => exact ⟨none, [], [], rfl, .nil, rfl⟩
  | @row l ls r rs _ h hs ih =>
    obtain ⟨next, rest, rest', e1, e2, e3⟩ := ih
    simp only [gatherF, h.1, h.2, Out.ok_bind, Bool.false_eq_true, if_false]
    cases hm : mine r
    · exact ⟨some r, ls, rs, by simp [takeOwn, hm], hs, by simp [takeOwn, hm]⟩
    · exact ⟨next, rest, rest', by simp [takeOwn, hm, e1], e2, by simp [takeOwn, hm, e3]⟩
  | @failed ls rs hs _ => exact ⟨none, ls, rs, rfl, hs, rfl⟩

/-- The records and failures a child table still has to deliver. -/
def ChildF.Holds {β : Type} (build : Text → Out β) (c : ChildF β) (rs : List (Option β)) : Prop :=
  ∃ rs', ReadsF build c.lines rs' ∧ rs = c.pending.toList.map some ++ rs'

theorem attachF_holds {β : Type} {build : Text → Out β} (mine : β → Bool) {c : ChildF β} {rs : List (Option β)}
    (h : c.Holds build rs) :
    ∃ c' : ChildF β, attachF build mine c.pending c.lines = .ok ((takeOwn mine rs).1, c'.pending, c'.lines) ∧
      c'.Holds build (takeOwn mine rs).2 := by
  obtain ⟨rs', hr, rfl⟩ := h
  obtain ⟨next, rest, rest', e1, e2, e3⟩ := gatherF_reads mine hr
  unfold attachF
  cases hp : c.pending with
  | none => exact ⟨⟨next, rest⟩, by simp [e1], rest', e2, by simpa using e3⟩
  | some r =>
    cases hm : mine r
    · exact ⟨⟨some r, c.lines⟩, by simp [hm, takeOwn], rs', hr, by simp [hm, takeOwn]⟩
    · exact ⟨⟨next, rest⟩, by simp [hm, e1, takeOwn], rest', e2, by simpa [hm, takeOwn] using e3⟩

/-- The shares of the objects. -/
def dealF {α β : Type} (ok : α → Int64 × Int64) (pk : β → Int64 × Int64) : List α → List (Option β) → List (List β)
  | [], _ => []
  | o :: os, ps => (takeOwn (fun p => decide (pk p = ok o)) ps).1 :: dealF ok pk os (takeOwn (fun p => decide (pk p = ok o)) ps).2

/-- What is left. -/
def dealRestF {α β : Type} (ok : α → Int64 × Int64) (pk : β → Int64 × Int64) : List α → List (Option β) → List (Option β)
  | [], ps => ps
  | o :: os, ps => dealRestF ok pk os (takeOwn (fun p => decide (pk p = ok o)) ps).2

theorem takeOwn_mine {β : Type} (mine : β → Bool) (rs : List (Option β)) : ∀ q ∈ (takeOwn mine rs).1, mine q := by
  induction rs with
  | nil => simp [takeOwn]
  | cons r rs ih =>
    cases r with
    | none => simp [takeOwn]
    | some r =>
      cases hm : mine r
      · simp [takeOwn, hm]
      · simp only [takeOwn, hm, if_true]
        intro q hq
        rcases List.mem_cons.1 hq with rfl | hq
        · exact hm
        · exact ih q hq

theorem takeOwn_cases {β : Type} (mine : β → Bool) (rs : List (Option β)) :
    (∃ p rows, rs = (takeOwn mine rs).1.map some ++ some p :: rows ∧ mine p = false ∧ (takeOwn mine rs).2 = some p :: rows) ∨
    (∃ rows, rs = (takeOwn mine rs).1.map some ++ none :: rows ∧ (takeOwn mine rs).2 = rows) ∨
    (rs = (takeOwn mine rs).1.map some ∧ (takeOwn mine rs).2 = []) := by
  induction rs with
  | nil => exact .inr (.inr ⟨rfl, rfl⟩)
  | cons r rs ih =>
    cases r with
    | none => exact .inr (.inl ⟨rs, rfl, rfl⟩)
    | some r =>
      cases hm : mine r
      · exact .inl ⟨r, rs, by simp [takeOwn, hm], hm, by simp [takeOwn, hm]⟩
      · simp only [takeOwn, hm, if_true, List.map_cons, List.cons_append, List.cons.injEq, true_and]
        exact ih

theorem dealtPast_deal {α β : Type} (ok : α → Int64 × Int64) (pk : β → Int64 × Int64) (os : List α) :
    ∀ ps, DealtPast ok pk os ps (dealF ok pk os ps) (dealRestF ok pk os ps) := by
  induction os with
  | nil => intro ps; exact .nil _
  | cons o os ih =>
    intro ps
    have hm : ∀ q ∈ (takeOwn (fun p => decide (pk p = ok o)) ps).1, pk q = ok o := by
      intro q hq; simpa using takeOwn_mine _ _ q hq
    have hi := ih (takeOwn (fun p => decide (pk p = ok o)) ps).2
    have h := takeOwn_cases (fun p => decide (pk p = ok o)) ps
    simp only [dealF, dealRestF]
    generalize (takeOwn (fun p => decide (pk p = ok o)) ps) = x at hm hi h
    rcases h with ⟨p, rows, e, hp, e2⟩ | ⟨rows, e, e2⟩ | ⟨e, e2⟩
    · rw [e2] at hi ⊢
      rw [e]
      exact .other _ _ _ _ _ _ _ hm (by simpa using hp) hi
    · rw [e2] at hi ⊢
      rw [e]
      exact .failure _ _ _ _ _ _ hm hi
    · rw [e2] at hi ⊢
      rw [e]
      exact .last _ _ _ _ _ hm hi

theorem ownerF_cases {it : ElementIteratorF} (k : Int64) :
    (∃ uid user, it.owner k = .ok (uid, user)) ∨ it.owner k = .panic := by
  unfold ElementIteratorF.owner
  cases lookup k it.changesetIndex with
  | none => exact .inr rfl
  | some uid =>
    cases h : lookup uid it.userIndex with
    | none => right; simp [h]
    | some user => left; exact ⟨uid, user, by simp [h]⟩

theorem nodes_dealF (z : Codec) (rows : List (Option NodeRecord)) :
    ∀ (it : ElementIteratorF) (ts : List (Option TagRecord)), it.state = .nodes →
      ReadsF (createNode it.fields.nodes) it.nodes rows →
      it.nodeTags.Holds (createNodeTag z it.fields.nodeTags) ts →
      (∃ ns a b, List.Forall₂ (fun (r, ts) n => ∃ uid user, it.owner r.changesetId = .ok (uid, user) ∧
          n = nodeOf r ts uid user) ((before rows).zip (dealF nodeKey tagKey (before rows) ts)) ns ∧
        Yields (ElementIteratorF.next z) it (ns.map .node ++ [.sentinel])
        { it with state := .ways, nodes := a, nodeTags := b }) ∨
      (∃ r ∈ before rows, it.owner r.changesetId = .panic ∧ ∃ es s, Yields (ElementIteratorF.next z) it es s ∧
        ElementIteratorF.next z s = .panic) := by
  induction rows with
  | nil =>
    intro it ts hst hr ht
    cases hn : it.nodes with
    | cons l ls => rw [hn] at hr; cases hr
    | nil =>
      refine .inl ⟨[], [], it.nodeTags, .nil, .cons ?_ (.nil _)⟩
      simp [ElementIteratorF.next, hst, ElementIteratorF.nextNode, nodesNextF, hn, tableNextF]
  | cons r rows ih =>
    intro it ts hst hr ht
    cases hn : it.nodes with
    | nil => rw [hn] at hr; cases hr
    | cons l ls =>
      rw [hn] at hr
      cases hr with
      | failed hr =>
        refine .inl ⟨[], ls, it.nodeTags, .nil, .cons ?_ (.nil _)⟩
        simp [ElementIteratorF.next, hst, ElementIteratorF.nextNode, nodesNextF, hn, tableNextF]
      | @row l _ r _ _ hl hr =>
      obtain ⟨c', e1, e2⟩ := attachF_holds (fun t => decide (t.id = r.nodeId) && decide (t.version = r.version)) ht
      rw [nodeMine] at e2
      rcases ownerF_cases (it := it) r.changesetId with ⟨uid, user, ho⟩ | ho
      · have step : ElementIteratorF.next z it = .ok (some (.node (nodeOf r (takeOwn (fun t => decide (tagKey t = nodeKey r)) ts).1 uid user)),
            { it with nodes := ls, nodeTags := c' }) := by
          rw [← nodeMine]
          simp [ElementIteratorF.next, hst, ElementIteratorF.nextNode, nodesNextF, hn, tableNextF, hl.1, hl.2, e1]
          erw [ho]
          rfl
        rcases ih { it with nodes := ls, nodeTags := c' } _ hst hr e2 with ⟨ns, a, b, hf, hy⟩ | ⟨r', hr', ho', es, s, hy, hp⟩
        · exact .inl ⟨_ :: ns, a, b, .cons ⟨uid, user, ho, rfl⟩ hf, .cons step hy⟩
        · exact .inr ⟨r', by simp [before, hr'], ho', _, s, .cons step hy, hp⟩
      · refine .inr ⟨r, by simp [before], ho, [], it, .nil _, ?_⟩
        simp [ElementIteratorF.next, hst, ElementIteratorF.nextNode, nodesNextF, hn, tableNextF, hl.1, hl.2, e1]
        erw [ho]
        rfl

theorem objectsNextF_deal {β : Type} (z : Codec) (fo ft : List Nat) (b : Text → Out β) (pk : β → Int64 × Int64)
    {l : Text} {ls : Results} {o : ObjectRecord} {tags : ChildF TagRecord} {parts : ChildF β}
    {ts : List (Option TagRecord)} {ps : List (Option β)}
    (hl : stopLine l = false ∧ createObject fo l = .ok o)
    (ht : tags.Holds (createObjectTag z ft) ts) (hp : parts.Holds b ps) :
    ∃ tags' parts', objectsNextF z fo ft b pk (some l :: ls) tags parts =
        .ok (some (o, (takeOwn (fun t => decide (tagKey t = objectKey o)) ts).1, (takeOwn (fun p => decide (pk p = objectKey o)) ps).1), ls, tags', parts') ∧
      ChildF.Holds (createObjectTag z ft) tags' (takeOwn (fun t => decide (tagKey t = objectKey o)) ts).2 ∧
      ChildF.Holds b parts' (takeOwn (fun p => decide (pk p = objectKey o)) ps).2 := by
  obtain ⟨c1, e1, e2⟩ := attachF_holds (fun t => decide (t.id = o.id) && decide (t.version = o.version)) ht
  obtain ⟨c2, f1, f2⟩ := attachF_holds (fun p => decide ((pk p).1 = o.id) && decide ((pk p).2 = o.version)) hp
  have h1 := objectMine tagKey o
  have h2 := objectMine pk o
  simp only [tagKey] at h1
  rw [← h2]
  simp only [tagKey]
  rw [← h1]
  refine ⟨c1, c2, ?_, e2, f2⟩
  simp [objectsNextF, tableNextF, hl.1, hl.2, e1, f1]
  rfl

theorem ways_dealF (z : Codec) (rows : List (Option ObjectRecord)) :
    ∀ (it : ElementIteratorF) (ts : List (Option TagRecord)) (ps : List (Option WayNodeRecord)), it.state = .ways →
      ReadsF (createObject it.fields.ways) it.ways rows →
      it.wayTags.Holds (createObjectTag z it.fields.wayTags) ts →
      it.wayNodes.Holds (createWayNode it.fields.wayNodes) ps →
      (∃ ws a b c, List.Forall₂ (fun (r, ts, ps) n => ∃ uid user, it.owner r.changesetId = .ok (uid, user) ∧
          n = wayOf r ts ps uid user) ((before rows).zip ((dealF objectKey tagKey (before rows) ts).zip (dealF objectKey wayNodeKey (before rows) ps))) ws ∧
        Yields (ElementIteratorF.next z) it (ws.map .way ++ [.sentinel])
        { it with state := .relations, ways := a, wayTags := b, wayNodes := c }) ∨
      (∃ r ∈ before rows, it.owner r.changesetId = .panic ∧ ∃ es s, Yields (ElementIteratorF.next z) it es s ∧
        ElementIteratorF.next z s = .panic) := by
  induction rows with
  | nil =>
    intro it ts ps hst hr ht hp
    cases hn : it.ways with
    | cons l ls => rw [hn] at hr; cases hr
    | nil =>
      refine .inl ⟨[], [], it.wayTags, it.wayNodes, .nil, .cons ?_ (.nil _)⟩
      simp [ElementIteratorF.next, hst, ElementIteratorF.nextWay, objectsNextF, tableNextF, hn]
  | cons r rows ih =>
    intro it ts ps hst hr ht hp
    cases hn : it.ways with
    | nil => rw [hn] at hr; cases hr
    | cons l ls =>
      rw [hn] at hr
      cases hr with
      | failed hr =>
        refine .inl ⟨[], ls, it.wayTags, it.wayNodes, .nil, .cons ?_ (.nil _)⟩
        simp [ElementIteratorF.next, hst, ElementIteratorF.nextWay, objectsNextF, tableNextF, hn]
      | @row l _ r _ _ hl hr =>
      obtain ⟨c1, c2, e1, e2, e3⟩ := objectsNextF_deal (ls := ls) z it.fields.ways it.fields.wayTags _ wayNodeKey hl ht hp
      rcases ownerF_cases (it := it) r.changesetId with ⟨uid, user, ho⟩ | ho
      · have step : ElementIteratorF.next z it = .ok (some (.way (wayOf r (takeOwn (fun t => decide (tagKey t = objectKey r)) ts).1
              (takeOwn (fun p => decide (wayNodeKey p = objectKey r)) ps).1 uid user)),
              { it with ways := ls, wayTags := c1, wayNodes := c2 }) := by
          unfold wayNodeKey at e1 ⊢
          simp [ElementIteratorF.next, hst, ElementIteratorF.nextWay, hn, e1]
          erw [ho]
          rfl
        rcases ih { it with ways := ls, wayTags := c1, wayNodes := c2 } _ _ hst hr e2 e3 with
          ⟨ns, a, b, c, hf, hy⟩ | ⟨r', hr', ho', es, s, hy, hp⟩
        · exact .inl ⟨_ :: ns, a, b, c, .cons ⟨uid, user, ho, rfl⟩ hf, .cons step hy⟩
        · exact .inr ⟨r', by simp [before, hr'], ho', _, s, .cons step hy, hp⟩
      · refine .inr ⟨r, by simp [before], ho, [], it, .nil _, ?_⟩
        unfold wayNodeKey at e1
        simp [ElementIteratorF.next, hst, ElementIteratorF.nextWay, hn, e1]
        erw [ho]
        rfl

theorem relations_dealF (z : Codec) (rows : List (Option ObjectRecord)) :
    ∀ (it : ElementIteratorF) (ts : List (Option TagRecord)) (ps : List (Option MemberRecord)), it.state = .relations →
      ReadsF (createObject it.fields.relations) it.relations rows →
      it.relationTags.Holds (createObjectTag z it.fields.relationTags) ts →
      it.relationMembers.Holds (createMember z it.fields.relationMembers) ps →
      (∃ ws a b c, List.Forall₂ (fun (r, ts, ps) n => ∃ uid user, it.owner r.changesetId = .ok (uid, user) ∧
          n = relationOf r ts ps uid user) ((before rows).zip ((dealF objectKey tagKey (before rows) ts).zip (dealF objectKey memberKey (before rows) ps))) ws ∧
        Yields (ElementIteratorF.next z) it (ws.map .relation ++ [.sentinel])
        { it with state := .finished, relations := a, relationTags := b, relationMembers := c }) ∨
      (∃ r ∈ before rows, it.owner r.changesetId = .panic ∧ ∃ es s, Yields (ElementIteratorF.next z) it es s ∧
        ElementIteratorF.next z s = .panic) := by
  induction rows with
  | nil =>
    intro it ts ps hst hr ht hp
    cases hn : it.relations with
    | cons l ls => rw [hn] at hr; cases hr
    | nil =>
      refine .inl ⟨[], [], it.relationTags, it.relationMembers, .nil, .cons ?_ (.nil _)⟩
      simp [ElementIteratorF.next, hst, ElementIteratorF.nextRelation, objectsNextF, tableNextF, hn]
  | cons r rows ih =>
    intro it ts ps hst hr ht hp
    cases hn : it.relations with
    | nil => rw [hn] at hr; cases hr
    | cons l ls =>
      rw [hn] at hr
      cases hr with
      | failed hr =>
        refine .inl ⟨[], ls, it.relationTags, it.relationMembers, .nil, .cons ?_ (.nil _)⟩
        simp [ElementIteratorF.next, hst, ElementIteratorF.nextRelation, objectsNextF, tableNextF, hn]
      | @row l _ r _ _ hl hr =>
      obtain ⟨c1, c2, e1, e2, e3⟩ := objectsNextF_deal (ls := ls) z it.fields.relations it.fields.relationTags _ memberKey hl ht hp
      rcases ownerF_cases (it := it) r.changesetId with ⟨uid, user, ho⟩ | ho
      · have step : ElementIteratorF.next z it = .ok (some (.relation (relationOf r (takeOwn (fun t => decide (tagKey t = objectKey r)) ts).1
              (takeOwn (fun p => decide (memberKey p = objectKey r)) ps).1 uid user)),
              { it with relations := ls, relationTags := c1, relationMembers := c2 }) := by
          unfold memberKey at e1 ⊢
          simp [ElementIteratorF.next, hst, ElementIteratorF.nextRelation, hn, e1]
          erw [ho]
          rfl
        rcases ih { it with relations := ls, relationTags := c1, relationMembers := c2 } _ _ hst hr e2 e3 with
          ⟨ns, a, b, c, hf, hy⟩ | ⟨r', hr', ho', es, s, hy, hp⟩
        · exact .inl ⟨_ :: ns, a, b, c, .cons ⟨uid, user, ho, rfl⟩ hf, .cons step hy⟩
        · exact .inr ⟨r', by simp [before, hr'], ho', _, s, .cons step hy, hp⟩
      · refine .inr ⟨r, by simp [before], ho, [], it, .nil _, ?_⟩
        unfold memberKey at e1
        simp [ElementIteratorF.next, hst, ElementIteratorF.nextRelation, hn, e1]
        erw [ho]
        rfl

end OsmIo.Apidb
