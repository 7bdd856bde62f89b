import Verif.Spec.ApidbJoin
import Verif.Lemmas.ApidbIterate
import Mathlib.Data.List.TakeWhile
/-! Dealing out the rows of a table to the objects of another. -/
namespace OsmIo.Apidb
open OsmIo.Text OsmIo.Sql OsmIo.Spec

/-- The shares of the objects. -/
def deal {α β : Type} (ok : α → Int64 × Int64) (pk : β → Int64 × Int64) : List α → List β → List (List β)
  | [], _ => []
  | o :: os, ps => ps.takeWhile (fun p => decide (pk p = ok o)) :: deal ok pk os (ps.dropWhile (fun p => decide (pk p = ok o)))

/-- What is left. -/
def dealRest {α β : Type} (ok : α → Int64 × Int64) (pk : β → Int64 × Int64) : List α → List β → List β
  | [], ps => ps
  | o :: os, ps => dealRest ok pk os (ps.dropWhile (fun p => decide (pk p = ok o)))

theorem deal_flatten {α β : Type} (ok : α → Int64 × Int64) (pk : β → Int64 × Int64) (os : List α) :
    ∀ ps, ps = (deal ok pk os ps).flatten ++ dealRest ok pk os ps := by
  induction os with
  | nil => intro ps; rfl
  | cons o os ih =>
    intro ps
    simp only [deal, dealRest, List.flatten_cons, List.append_assoc]
    rw [← ih, List.takeWhile_append_dropWhile]

theorem dealt_deal {α β : Type} (ok : α → Int64 × Int64) (pk : β → Int64 × Int64) (os : List α) :
    ∀ ps, Dealt os ok ps pk (deal ok pk os ps) (dealRest ok pk os ps) := by
  induction os with
  | nil => intro ps; exact ⟨.nil, rfl, by simp⟩
  | cons o os ih =>
    intro ps
    have hi := ih (ps.dropWhile (fun p => decide (pk p = ok o)))
    refine ⟨.cons ?_ hi.own, deal_flatten ok pk (o :: os) ps, ?_⟩
    · intro p hp
      simpa using List.mem_takeWhile_imp hp
    · intro i o' p ho hp
      cases i with
      | zero =>
        simp at ho
        subst ho
        simp only [deal, dealRest, Nat.zero_add, List.drop_succ_cons, List.drop_zero] at hp
        rw [← deal_flatten] at hp
        have := List.head?_dropWhile_not (p := fun p => decide (pk p = ok o)) ps
        rw [hp] at this
        simpa using this
      | succ i =>
        exact hi.greedy i o' p (by simpa using ho) (by simpa [deal, dealRest] using hp)

/-- The shares are determined. -/
theorem dealt_unique {α β : Type} {ok : α → Int64 × Int64} {pk : β → Int64 × Int64} {os : List α} :
    ∀ {ps : List β} {shares lost}, Dealt os ok ps pk shares lost → shares = deal ok pk os ps ∧ lost = dealRest ok pk os ps := by
  induction os with
  | nil =>
    intro ps shares lost h
    cases h.own
    have := h.inOrder
    simp at this
    exact ⟨rfl, this.symm⟩
  | cons o os ih =>
    intro ps shares lost h
    obtain ⟨h1, h2, h3⟩ := h
    cases h1 with
    | @cons _ s _ ss hs h1 =>
    have hh := h3 0 o
    simp only [List.getElem?_cons_zero, Nat.zero_add, List.drop_succ_cons, List.drop_zero] at hh
    have key : ps.takeWhile (fun p => decide (pk p = ok o)) = s ∧ ps.dropWhile (fun p => decide (pk p = ok o)) = ss.flatten ++ lost := by
      rw [h2, List.flatten_cons, List.append_assoc]
      rw [List.takeWhile_append_of_pos (by simpa using hs), List.dropWhile_append_of_pos (by simpa using hs)]
      cases hr : ss.flatten ++ lost with
      | nil => simp
      | cons p r =>
        have := hh p trivial (by rw [hr]; rfl)
        simp [this]
    have := ih (ps := ss.flatten ++ lost) (shares := ss) (lost := lost) ⟨h1, rfl, fun i o' p ho hp => h3 (i + 1) o' p (by simpa using ho) (by simpa using hp)⟩
    simp only [deal, dealRest, key.1, key.2]
    exact ⟨by rw [← this.1], this.2⟩

theorem nodeMine (r : NodeRecord) : (fun t : TagRecord => decide (t.id = r.nodeId) && decide (t.version = r.version)) =
    fun t => decide (tagKey t = nodeKey r) := by
  funext t
  simp [tagKey, nodeKey]

theorem objectMine {β : Type} (pk : β → Int64 × Int64) (o : ObjectRecord) :
    (fun p : β => decide ((pk p).1 = o.id) && decide ((pk p).2 = o.version)) = fun p => decide (pk p = objectKey o) := by
  funext p
  simp [objectKey, Prod.ext_iff]

theorem nodes_deal (z : Codec) (recs : List NodeRecord) :
    ∀ (it : ElementIterator) (ts : List TagRecord), it.state = .nodes →
      Reads (createNode it.fields.nodes) it.nodes recs →
      it.nodeTags.Holds (createNodeTag z it.fields.nodeTags) ts →
      (∀ r ∈ recs, ∃ uid user, it.owner r.changesetId = .ok (uid, user)) →
      ∃ ns a b, List.Forall₂ (fun (r, ts) n => ∃ uid user, it.owner r.changesetId = .ok (uid, user) ∧
          n = nodeOf r ts uid user) (recs.zip (deal nodeKey tagKey recs ts)) ns ∧
        Yields (ElementIterator.next z) it (ns.map .node ++ [.sentinel])
        { it with state := .ways, nodes := a, nodeTags := b } := by
  induction recs with
  | nil =>
    intro it ts hst hr ht _
    cases hn : it.nodes with
    | cons l ls => rw [hn] at hr; cases hr
    | nil =>
      refine ⟨[], [], it.nodeTags, .nil, .cons ?_ (.nil _)⟩
      simp [ElementIterator.next, hst, ElementIterator.nextNode, nodesNext, hn, tableNext]
  | cons r recs ih =>
    intro it ts hst hr ht howned
    cases hn : it.nodes with
    | nil => rw [hn] at hr; cases hr
    | cons l ls =>
      rw [hn] at hr
      cases hr with
      | cons hl hr =>
      obtain ⟨c', e1, e2⟩ := attach_holds (fun t => decide (t.id = r.nodeId) && decide (t.version = r.version)) ht
      obtain ⟨uid, user, ho⟩ := howned r (by simp)
      have step : ElementIterator.next z it = .ok (some (.node (nodeOf r (ts.takeWhile fun t => decide (tagKey t = nodeKey r)) uid user)),
            { it with nodes := ls, nodeTags := c' }) := by
        rw [← nodeMine]
        simp [ElementIterator.next, hst, ElementIterator.nextNode, nodesNext, hn, tableNext, hl.1, hl.2, e1]
        erw [ho]
        rfl
      obtain ⟨ns, a, b, hf, hy⟩ := ih { it with nodes := ls, nodeTags := c' } _ hst hr e2 (fun r' h => howned r' (by simp [h]))
      rw [nodeMine] at hf
      exact ⟨_ :: ns, a, b, .cons ⟨uid, user, ho, rfl⟩ hf, .cons step hy⟩

theorem objectsNext_deal {β : Type} (z : Codec) (fo ft : List Nat) (b : Text → Out β) (pk : β → Int64 × Int64)
    {l : Text} {ls : List Text} {o : ObjectRecord} {tags : Child TagRecord} {parts : Child β}
    {ts : List TagRecord} {ps : List β}
    (hl : stopLine l = false ∧ createObject fo l = .ok o)
    (ht : tags.Holds (createObjectTag z ft) ts) (hp : parts.Holds b ps) :
    ∃ tags' parts', objectsNext z fo ft b pk (l :: ls) tags parts =
        .ok (some (o, ts.takeWhile (fun t => decide (tagKey t = objectKey o)), ps.takeWhile (fun p => decide (pk p = objectKey o))), ls, tags', parts') ∧
      Child.Holds (createObjectTag z ft) tags' (ts.dropWhile (fun t => decide (tagKey t = objectKey o))) ∧
      Child.Holds b parts' (ps.dropWhile (fun p => decide (pk p = objectKey o))) := by
  obtain ⟨c1, e1, e2⟩ := attach_holds (fun t => decide (t.id = o.id) && decide (t.version = o.version)) ht
  obtain ⟨c2, f1, f2⟩ := attach_holds (fun p => decide ((pk p).1 = o.id) && decide ((pk p).2 = o.version)) hp
  have h1 := objectMine tagKey o
  have h2 := objectMine pk o
  simp only [tagKey] at h1
  rw [← h2]
  simp only [tagKey]
  rw [← h1]
  refine ⟨c1, c2, ?_, e2, f2⟩
  simp [objectsNext, tableNext, hl.1, hl.2, e1, f1]
  rfl

theorem ways_deal (z : Codec) (recs : List ObjectRecord) :
    ∀ (it : ElementIterator) (ts : List TagRecord) (ps : List WayNodeRecord), it.state = .ways →
      Reads (createObject it.fields.ways) it.ways recs →
      it.wayTags.Holds (createObjectTag z it.fields.wayTags) ts →
      it.wayNodes.Holds (createWayNode it.fields.wayNodes) ps →
      (∀ r ∈ recs, ∃ uid user, it.owner r.changesetId = .ok (uid, user)) →
      ∃ ws a b c, List.Forall₂ (fun (r, ts, ps) n => ∃ uid user, it.owner r.changesetId = .ok (uid, user) ∧
          n = wayOf r ts ps uid user) (recs.zip ((deal objectKey tagKey recs ts).zip (deal objectKey wayNodeKey recs ps))) ws ∧
        Yields (ElementIterator.next z) it (ws.map .way ++ [.sentinel])
        { it with state := .relations, ways := a, wayTags := b, wayNodes := c } := by
  induction recs with
  | nil =>
    intro it ts ps hst hr ht hp _
    cases hn : it.ways with
    | cons l ls => rw [hn] at hr; cases hr
    | nil =>
      refine ⟨[], [], it.wayTags, it.wayNodes, .nil, .cons ?_ (.nil _)⟩
      simp [ElementIterator.next, hst, ElementIterator.nextWay, objectsNext_none, hn]
  | cons r recs ih =>
    intro it ts ps hst hr ht hp howned
    cases hn : it.ways with
    | nil => rw [hn] at hr; cases hr
    | cons l ls =>
      rw [hn] at hr
      cases hr with
      | cons hl hr =>
      obtain ⟨c1, c2, e1, e2, e3⟩ := objectsNext_deal (ls := ls) z it.fields.ways it.fields.wayTags _ wayNodeKey hl ht hp
      obtain ⟨uid, user, ho⟩ := howned r (by simp)
      have step : ElementIterator.next z it = .ok (some (.way (wayOf r (ts.takeWhile fun t => decide (tagKey t = objectKey r))
            (ps.takeWhile fun p => decide (wayNodeKey p = objectKey r)) uid user)),
            { it with ways := ls, wayTags := c1, wayNodes := c2 }) := by
        unfold wayNodeKey at e1 ⊢
        simp [ElementIterator.next, hst, ElementIterator.nextWay, hn, e1]
        erw [ho]
        rfl
      obtain ⟨ns, a, b, c, hf, hy⟩ := ih { it with ways := ls, wayTags := c1, wayNodes := c2 } _ _ hst hr e2 e3
        (fun r' h => howned r' (by simp [h]))
      exact ⟨_ :: ns, a, b, c, .cons ⟨uid, user, ho, rfl⟩ hf, .cons step hy⟩

theorem relations_deal (z : Codec) (recs : List ObjectRecord) :
    ∀ (it : ElementIterator) (ts : List TagRecord) (ps : List MemberRecord), it.state = .relations →
      Reads (createObject it.fields.relations) it.relations recs →
      it.relationTags.Holds (createObjectTag z it.fields.relationTags) ts →
      it.relationMembers.Holds (createMember z it.fields.relationMembers) ps →
      (∀ r ∈ recs, ∃ uid user, it.owner r.changesetId = .ok (uid, user)) →
      ∃ rs a b c, List.Forall₂ (fun (r, ts, ps) n => ∃ uid user, it.owner r.changesetId = .ok (uid, user) ∧
          n = relationOf r ts ps uid user) (recs.zip ((deal objectKey tagKey recs ts).zip (deal objectKey memberKey recs ps))) rs ∧
        Yields (ElementIterator.next z) it (rs.map .relation ++ [.sentinel])
        { it with state := .finished, relations := a, relationTags := b, relationMembers := c } := by
  induction recs with
  | nil =>
    intro it ts ps hst hr ht hp _
    cases hn : it.relations with
    | cons l ls => rw [hn] at hr; cases hr
    | nil =>
      refine ⟨[], [], it.relationTags, it.relationMembers, .nil, .cons ?_ (.nil _)⟩
      simp [ElementIterator.next, hst, ElementIterator.nextRelation, objectsNext_none, hn]
  | cons r recs ih =>
    intro it ts ps hst hr ht hp howned
    cases hn : it.relations with
    | nil => rw [hn] at hr; cases hr
    | cons l ls =>
      rw [hn] at hr
      cases hr with
      | cons hl hr =>
      obtain ⟨c1, c2, e1, e2, e3⟩ := objectsNext_deal (ls := ls) z it.fields.relations it.fields.relationTags _ memberKey hl ht hp
      obtain ⟨uid, user, ho⟩ := howned r (by simp)
      have step : ElementIterator.next z it = .ok (some (.relation (relationOf r (ts.takeWhile fun t => decide (tagKey t = objectKey r))
            (ps.takeWhile fun p => decide (memberKey p = objectKey r)) uid user)),
            { it with relations := ls, relationTags := c1, relationMembers := c2 }) := by
        unfold memberKey at e1 ⊢
        simp [ElementIterator.next, hst, ElementIterator.nextRelation, hn, e1]
        erw [ho]
        rfl
      obtain ⟨ns, a, b, c, hf, hy⟩ := ih { it with relations := ls, relationTags := c1, relationMembers := c2 } _ _ hst hr e2 e3
        (fun r' h => howned r' (by simp [h]))
      exact ⟨_ :: ns, a, b, c, .cons ⟨uid, user, ho, rfl⟩ hf, .cons step hy⟩

end OsmIo.Apidb
