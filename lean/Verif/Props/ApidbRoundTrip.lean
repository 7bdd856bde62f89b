import Verif.Lemmas.ApidbOwners
import Verif.Props.ApidbReader
/-!
# Writing a dump and reading it back (C46, C53)
-/
namespace OsmIo
open Text Sql Apidb Spec

theorem choose_list {α β : Type} {P : α → β → Prop} {l : List α} (h : ∀ a ∈ l, ∃ b, P a b) :
    ∃ l', List.Forall₂ P l l' := by
  induction l with
  | nil => exact ⟨[], .nil⟩
  | cons a l ih =>
    obtain ⟨b, hb⟩ := h a (by simp)
    obtain ⟨l', hl⟩ := ih fun x hx => h x (by simp [hx])
    exact ⟨b :: l', .cons hb hl⟩

theorem mem_nodesOf {es : List Element} {n : Node} (h : n ∈ nodesOf es) : Element.node n ∈ es := by
  obtain ⟨e, he, h⟩ := List.mem_filterMap.1 h
  cases e <;> simp at h
  subst h; exact he

theorem mem_waysOf {es : List Element} {n : Way} (h : n ∈ waysOf es) : Element.way n ∈ es := by
  obtain ⟨e, he, h⟩ := List.mem_filterMap.1 h
  cases e <;> simp at h
  subst h; exact he

theorem mem_relationsOf {es : List Element} {n : Relation} (h : n ∈ relationsOf es) : Element.relation n ∈ es := by
  obtain ⟨e, he, h⟩ := List.mem_filterMap.1 h
  cases e <;> simp at h
  subst h; exact he

theorem flatMap_parts {α β γ : Type} (parts : α → List β) (cols : α × β → γ) (l : List α) :
    l.flatMap (fun a => (parts a).map fun b => cols (a, b)) = (l.flatMap fun a => (parts a).map (Prod.mk a)).map cols := by
  induction l with
  | nil => rfl
  | cons a l ih => simp [ih]

theorem toInt32_toInt64 (v : Int32) : v.toInt64.toInt32 = v := by simp

/-- The core of C53: the sorted copies need to be of a dump of the elements only in the history tables, the others must hold the last values. -/
theorem round_trip_core (z : Codec) (hz : Faithful z) (le : Text → Text → Prop) (uc cc : Int64 → Int64)
    (es : List Element) (files sorted : Table → Text) (hd : Dump z uc cc es files) (hs : Storable es)
    (hS : ∀ t ∈ ofInterest, t ≠ .users ∧ t ≠ .changesets → Sorted le (dumpDef t).key (files t) (sorted t))
    (hus : ∃ us, Holds (createUser (dumpDef .users).fields) (sorted .users) us ∧ ∀ k, lastValue us k = lastValue (userNames es) k)
    (hcs : ∃ us, Holds (createChangeset (dumpDef .changesets).fields) (sorted .changesets) us ∧ ∀ k, lastValue us k = lastValue (changesetUsers es) k) :
    ∃ it it' ns ns' ws ws' rs rs', ElementIterator.new dumpTables sorted = .ok it ∧
      Iterates (ElementIterator.next z) it (withSentinels ns' ws' rs') it' ∧
      ElementIterator.next z it' = .ok (none, it') ∧ Back z le es ns ns' ws ws' rs rs' := by
  obtain ⟨t1, t2, t3, t4, t5, t6, t7, t8⟩ := C42_history z uc cc es files hd
  have hT : ∀ e ∈ es, TimeOk e := by
    obtain ⟨w, w', ha, _⟩ := hd
    exact writeAll_times ha
  -- objects
  have gN : ∀ n ∈ nodesOf es, Good (nodeRow n) := fun n _ => good_hist hz (t := .nodes) (e := .node n) (by simp [histRows])
  have gW : ∀ n ∈ waysOf es, Good (wayRow n) := fun n _ => good_hist hz (t := .ways) (e := .way n) (by simp [histRows])
  have gR : ∀ n ∈ relationsOf es, Good (relationRow n) := fun n _ =>
    good_hist hz (t := .relations) (e := .relation n) (by simp [histRows])
  obtain ⟨ns, pn, ln, on⟩ := objects_back (id := Node.id) (ver := Node.version) (cols := nodeRow) (jv := 8) gN
    (fun _ => rfl) (fun _ => rfl) t1 (hS .nodes (by decide) (by decide)) hs.nodes
  obtain ⟨ws, pw, lw, ow⟩ := objects_back (id := Way.id) (ver := Way.version) (cols := wayRow) (jv := 4) gW
    (fun _ => rfl) (fun _ => rfl) t3 (hS .ways (by decide) (by decide)) hs.ways
  obtain ⟨rs, pr, lr, or⟩ := objects_back (id := Relation.id) (ver := Relation.version) (cols := relationRow) (jv := 4) gR
    (fun _ => rfl) (fun _ => rfl) t6 (hS .relations (by decide) (by decide)) hs.relations
  have hN := sorted_holds ln (fun n h => gN n (pn.subset h)) (fun n h => createNode_row (gN n (pn.subset h))
    (hT _ (mem_nodesOf (pn.subset h))) (hs.coordinates n (pn.subset h)))
  have hW := sorted_holds lw (fun n h => gW n (pw.subset h)) (fun n h => createWay_row (gW n (pw.subset h))
    (hT _ (mem_waysOf (pw.subset h))))
  have hR := sorted_holds lr (fun n h => gR n (pr.subset h)) (fun n h => createRelation_row (gR n (pr.subset h))
    (hT _ (mem_relationsOf (pr.subset h))))
  -- parts
  obtain ⟨nt, nt1, nt2, nt3, nt4⟩ := tags_back (z := z) (id := Node.id) (ver := Node.version) (tags := Node.tags)
    (cols := fun p => [num p.1.id.toInt, num p.1.version.toInt, z.escape p.2.k, z.escape p.2.v]) (jv := 2) (jk := 3)
    (fun p hp => by
      obtain ⟨a, _, hp⟩ := List.mem_flatMap.1 hp
      obtain ⟨b, hb, rfl⟩ := List.mem_map.1 hp
      exact good_hist hz (t := .nodeTags) (e := .node a) (List.mem_map.2 ⟨b, hb, rfl⟩))
    (fun _ => rfl) (fun _ => rfl) (fun _ => rfl)
    (by rw [t2, ← flatMap_parts Node.tags]; rfl) (hS .nodeTags (by decide) (by decide)) hs.nodes
    (fun p h => createNodeTag_row hz h)
  obtain ⟨wt, wt1, wt2, wt3, wt4⟩ := tags_back (z := z) (id := Way.id) (ver := Way.version) (tags := Way.tags)
    (cols := fun p => [num p.1.id.toInt, z.escape p.2.k, z.escape p.2.v, num p.1.version.toInt]) (jv := 4) (jk := 2)
    (fun p hp => by
      obtain ⟨a, _, hp⟩ := List.mem_flatMap.1 hp
      obtain ⟨b, hb, rfl⟩ := List.mem_map.1 hp
      exact good_hist hz (t := .wayTags) (e := .way a) (List.mem_map.2 ⟨b, hb, rfl⟩))
    (fun _ => rfl) (fun _ => rfl) (fun _ => rfl)
    (by rw [t5, ← flatMap_parts Way.tags]; rfl) (hS .wayTags (by decide) (by decide)) hs.ways
    (fun p h => createObjectTag_row hz h)
  obtain ⟨rt, rt1, rt2, rt3, rt4⟩ := tags_back (z := z) (id := Relation.id) (ver := Relation.version) (tags := Relation.tags)
    (cols := fun p => [num p.1.id.toInt, z.escape p.2.k, z.escape p.2.v, num p.1.version.toInt]) (jv := 4) (jk := 2)
    (fun p hp => by
      obtain ⟨a, _, hp⟩ := List.mem_flatMap.1 hp
      obtain ⟨b, hb, rfl⟩ := List.mem_map.1 hp
      exact good_hist hz (t := .relationTags) (e := .relation a) (List.mem_map.2 ⟨b, hb, rfl⟩))
    (fun _ => rfl) (fun _ => rfl) (fun _ => rfl)
    (by rw [t8, ← flatMap_parts Relation.tags]; rfl) (hS .relationTags (by decide) (by decide)) hs.relations
    (fun p h => createObjectTag_row hz h)
  obtain ⟨wn, wn1, wn2, wn3, wn4⟩ := wayNodes_back (l := waysOf es)
    (fun p hp => by
      obtain ⟨a, _, hp⟩ := List.mem_flatMap.1 hp
      obtain ⟨b, hb, rfl⟩ := List.mem_map.1 hp
      exact good_hist hz (t := .wayNodes) (e := .way a) (List.mem_map.2 ⟨b, hb, rfl⟩))
    (by rw [t4, ← flatMap_parts (fun a : Way => a.refs.zipIdx 1)]; rfl) (hS .wayNodes (by decide) (by decide)) hs.ways hs.refs
  obtain ⟨rm, rm1, rm2, rm3, rm4⟩ := members_back hz (l := relationsOf es)
    (fun p hp => by
      obtain ⟨a, _, hp⟩ := List.mem_flatMap.1 hp
      obtain ⟨b, hb, rfl⟩ := List.mem_map.1 hp
      exact good_hist hz (t := .relationMembers) (e := .relation a) (List.mem_map.2 ⟨b, hb, rfl⟩))
    (by rw [t7, ← flatMap_parts (fun a : Relation => a.members.zipIdx 1)]; rfl) (hS .relationMembers (by decide) (by decide))
    hs.relations hs.members
  obtain ⟨us, us1, us2⟩ := hus
  obtain ⟨cs, cs1, cs2⟩ := hcs
  let c : Content := ⟨us, cs, ns.map nodeRec, nt, ws.map wayRec, wn, wt, rs.map relationRec, rm, rt⟩
  have hread : c.ReadFrom z dumpTables sorted := by
    refine ⟨⟨_, _, dumpTables_eq .users (by decide), us1⟩, ⟨_, _, dumpTables_eq .changesets (by decide), cs1⟩,
      ⟨_, _, dumpTables_eq .nodes (by decide), hN⟩, ⟨_, _, dumpTables_eq .nodeTags (by decide), nt1⟩,
      ⟨_, _, dumpTables_eq .ways (by decide), hW⟩, ⟨_, _, dumpTables_eq .wayNodes (by decide), wn1⟩,
      ⟨_, _, dumpTables_eq .wayTags (by decide), wt1⟩, ⟨_, _, dumpTables_eq .relations (by decide), hR⟩,
      ⟨_, _, dumpTables_eq .relationMembers (by decide), rm1⟩, ⟨_, _, dumpTables_eq .relationTags (by decide), rt1⟩⟩
  have aN : (ns.map nodeRec).Pairwise fun a b => KeyLt (nodeKey a) (nodeKey b) := by
    rw [List.pairwise_map]; exact on.imp fun h => keyLt_of_before h
  have aW : (ws.map wayRec).Pairwise fun a b => KeyLt (objectKey a) (objectKey b) := by
    rw [List.pairwise_map]; exact ow.imp fun h => keyLt_of_before h
  have aR : (rs.map relationRec).Pairwise fun a b => KeyLt (objectKey a) (objectKey b) := by
    rw [List.pairwise_map]; exact or.imp fun h => keyLt_of_before h
  have hwf : c.WellFormed := by
    refine ⟨⟨aN, nt2, ?_⟩, ⟨aW, wt2, ?_⟩, ⟨aW, wn2, ?_⟩, ⟨aR, rt2, ?_⟩, ⟨aR, rm2, ?_⟩⟩
    · intro p hp
      obtain ⟨a, ha, e⟩ := nt3 p hp
      exact ⟨_, List.mem_map_of_mem (pn.mem_iff.2 ha), e.symm⟩
    · intro p hp
      obtain ⟨a, ha, e⟩ := wt3 p hp
      exact ⟨_, List.mem_map_of_mem (pw.mem_iff.2 ha), e.symm⟩
    · intro p hp
      obtain ⟨a, ha, e⟩ := wn3 p hp
      exact ⟨_, List.mem_map_of_mem (pw.mem_iff.2 ha), e.symm⟩
    · intro p hp
      obtain ⟨a, ha, e⟩ := rt3 p hp
      exact ⟨_, List.mem_map_of_mem (pr.mem_iff.2 ha), e.symm⟩
    · intro p hp
      obtain ⟨a, ha, e⟩ := rm3 p hp
      exact ⟨_, List.mem_map_of_mem (pr.mem_iff.2 ha), e.symm⟩
  have howner : ∀ (k : Int64) (u : Int32), (k, u.toInt64) ∈ changesetUsers es →
      ∃ uid user, c.owner k = some (uid, user) ∧ OwnerIn es k uid.toInt32 user := by
    intro k u h
    obtain ⟨uid, name, h1, h2⟩ := owner_written h
    refine ⟨uid, name, ?_, uid, h1, rfl, h2⟩
    have e1 : lastValue c.changesets k = some uid := (cs2 k).trans h1
    have e2 : lastValue c.users uid = some name := (us2 uid).trans h2
    unfold Content.owner
    rw [e1]
    simp only [e2]
    rfl
  obtain ⟨ns', fn⟩ := choose_list (l := ns) (P := fun n n' => NodeBack z le es n n' ∧
      ∃ uid user, c.owner (nodeRec n).changesetId = some (uid, user) ∧ n' = c.node (nodeRec n) uid user) (by
    intro n hn
    have hm := pn.subset hn
    obtain ⟨uid, user, h1, h2⟩ := howner n.changeset n.uid (List.mem_filterMap.2 ⟨_, mem_nodesOf hm, rfl⟩)
    refine ⟨c.node (nodeRec n) uid user, ?_, uid, user, h1, rfl⟩
    have hc := hs.coordinates n hm
    refine ⟨(seven_back (b := 90) (by norm_num) (by exact_mod_cast hc.1)).2.2.1,
      (seven_back (b := 180) (by norm_num) (by exact_mod_cast hc.2)).2.2.1, rfl, floored (hT _ (mem_nodesOf hm)), h2, nt4 n hm, ?_⟩
    simp [Content.node, nodeRec])
  obtain ⟨ws', fw⟩ := choose_list (l := ws) (P := fun n n' => WayBack z le es n n' ∧
      ∃ uid user, c.owner (wayRec n).changesetId = some (uid, user) ∧ n' = c.way (wayRec n) uid user) (by
    intro n hn
    have hm := pw.subset hn
    obtain ⟨uid, user, h1, h2⟩ := howner n.changeset n.uid (List.mem_filterMap.2 ⟨_, mem_waysOf hm, rfl⟩)
    refine ⟨c.way (wayRec n) uid user, ?_, uid, user, h1, rfl⟩
    refine ⟨floored (hT _ (mem_waysOf hm)), h2, wt4 n hm, ?_⟩
    have e : (c.way (wayRec n) uid user).refs = n.refs := wn4 n hm
    have e2 : (c.way (wayRec n) uid user).version = n.version := toInt32_toInt64 _
    generalize hx : c.way (wayRec n) uid user = x at e e2
    have h1 : x.id = n.id := by rw [← hx]; rfl
    have h2 : x.changeset = n.changeset := by rw [← hx]; rfl
    have h3 : x.visible = n.visible := by rw [← hx]; rfl
    rw [← e, ← e2, ← h1, ← h2, ← h3])
  obtain ⟨rs', fr⟩ := choose_list (l := rs) (P := fun n n' => RelationBack z le es n n' ∧
      ∃ uid user, c.owner (relationRec n).changesetId = some (uid, user) ∧ n' = c.relation (relationRec n) uid user) (by
    intro n hn
    have hm := pr.subset hn
    obtain ⟨uid, user, h1, h2⟩ := howner n.changeset n.uid (List.mem_filterMap.2 ⟨_, mem_relationsOf hm, rfl⟩)
    refine ⟨c.relation (relationRec n) uid user, ?_, uid, user, h1, rfl⟩
    obtain ⟨m1, m2, m3⟩ := rm4 n hm
    refine ⟨floored (hT _ (mem_relationsOf hm)), h2, rt4 n hm, ⟨m1, m2⟩, m3, ?_⟩
    simp [Content.relation, relationRec])
  have hel : c.Elements ns' ws' rs' := by
    refine ⟨?_, ?_, ?_⟩
    · exact List.forall₂_map_left_iff.2 (fn.imp fun _ _ h => h.2)
    · exact List.forall₂_map_left_iff.2 (fw.imp fun _ _ h => h.2)
    · exact List.forall₂_map_left_iff.2 (fr.imp fun _ _ h => h.2)
  obtain ⟨it, it', h1, h2, h3⟩ := C43_elements z dumpTables sorted c hread hwf ns' ws' rs' hel
  exact ⟨it, it', ns, ns', ws, ws', rs, rs', h1, h2, h3,
    ⟨⟨pn, on, fn.imp fun _ _ h => h.1⟩, ⟨pw, ow, fw.imp fun _ _ h => h.1⟩, ⟨pr, or, fr.imp fun _ _ h => h.1⟩⟩⟩

/-- C53: writing elements to a dump, sorting its tables and iterating over it yields all nodes, a sentinel,
all ways, a sentinel, all relations, a sentinel, and then nothing for ever. The nodes (ways, relations)
are those written, in ascending order of id and version, each coming back as `NodeBack` (`WayBack`,
`RelationBack`) says. -/
theorem C53_round_trip (z : Codec) (hz : Faithful z) (le : Text → Text → Prop) (uc cc : Int64 → Int64)
    (es : List Element) (files sorted : Table → Text) (hd : Dump z uc cc es files) (hs : Storable es)
    (hsort : SortedCopy le files sorted) :
    ∃ it it' ns ns' ws ws' rs rs', ElementIterator.new dumpTables sorted = .ok it ∧
      Iterates (ElementIterator.next z) it (withSentinels ns' ws' rs') it' ∧
      ElementIterator.next z it' = .ok (none, it') ∧ Back z le es ns ns' ws ws' rs rs' := by
  have hS : ∀ t ∈ ofInterest, Sorted le (dumpDef t).key (files t) (sorted t) := fun t ht =>
    hsort t _ _ (dumpTables_eq t ht)
  exact round_trip_core z hz le uc cc es files sorted hd hs (fun t ht _ => hS t ht) (users_back hd hs.names (hS .users (by decide)))
    (changesets_back hd (hS .changesets (by decide)))

/-! ### Only one outcome -/

theorem Yields.det {S α : Type} {next : S → Out (Option α × S)} {s s₁ s₂ t₁ t₂ : S} {as bs : List α}
    (h : Yields next s as s₁) (he : next s₁ = .ok (none, t₁)) (h' : Yields next s bs s₂)
    (he' : next s₂ = .ok (none, t₂)) : as = bs ∧ t₁ = t₂ := by
  induction h generalizing bs with
  | nil s =>
    cases h' with
    | nil => rw [he] at he'; simp at he'; exact ⟨rfl, he'⟩
    | cons h1 _ => rw [he] at h1; simp at h1
  | cons h1 _ ih =>
    cases h' with
    | nil => rw [h1] at he'; simp at he'
    | cons h2 h3 =>
      rw [h1] at h2
      simp at h2
      obtain ⟨rfl, rfl⟩ := h2
      obtain ⟨rfl, e⟩ := ih he h3
      exact ⟨rfl, e⟩

theorem Iterates.det {S α : Type} {next : S → Out (Option α × S)} {s t₁ t₂ : S} {as bs : List α}
    (h : Iterates next s as t₁) (h' : Iterates next s bs t₂) : as = bs ∧ t₁ = t₂ := by
  obtain ⟨s₁, h, he⟩ := h
  obtain ⟨s₂, h', he'⟩ := h'
  exact Yields.det h he h' he'

theorem mem_withSentinels {ns : List Node} {ws : List Way} {rs : List Relation} {r : Relation} :
    Element.relation r ∈ withSentinels ns ws rs ↔ r ∈ rs := by
  simp [withSentinels]

/-! ### C46 -/

/-- C46: the members of every relation written to a dump come back, as many times as written, with type,
id and role. They come back in the order written if and only if the members written are in the order of
type, id and role; the position in the relation plays no part. -/
theorem C46_member_order (z : Codec) (hz : Faithful z) (le : Text → Text → Prop) (uc cc : Int64 → Int64)
    (es : List Element) (files sorted : Table → Text) (hd : Dump z uc cc es files) (hs : Storable es)
    (hsort : SortedCopy le files sorted) (it it' : ElementIterator) (out : List Element)
    (hnew : ElementIterator.new dumpTables sorted = .ok it) (hit : Iterates (ElementIterator.next z) it out it')
    (r : Relation) (hr : Element.relation r ∈ es) :
    ∃ r', Element.relation r' ∈ out ∧ r'.id = r.id ∧ r'.version = r.version ∧ r'.members.Perm r.members ∧
      r'.members.Pairwise (MemberLe z le) ∧ (r'.members = r.members ↔ r.members.Pairwise (MemberLe z le)) := by
  obtain ⟨jt, jt', ns, ns', ws, ws', rs, rs', h1, h2, _, hb⟩ := C53_round_trip z hz le uc cc es files sorted hd hs hsort
  rw [hnew] at h1
  simp at h1
  subst h1
  obtain ⟨rfl, -⟩ := Iterates.det hit h2
  obtain ⟨hp, -, hf⟩ := hb.relations
  have hm : r ∈ rs := hp.mem_iff.2 (List.mem_filterMap.2 ⟨_, hr, rfl⟩)
  obtain ⟨r', hr', hb'⟩ : ∃ r' ∈ rs', RelationBack z le es r r' := by
    clear hp h2 hit hb
    induction hf with
    | nil => simp at hm
    | cons h _ ih =>
      rcases List.mem_cons.1 hm with rfl | hm
      · exact ⟨_, by simp, h⟩
      · obtain ⟨r', h1, h2⟩ := ih hm
        exact ⟨r', by simp [h1], h2⟩
  refine ⟨r', mem_withSentinels.2 hr', ?_, ?_, hb'.members.1, hb'.members.2, ⟨fun e => e ▸ hb'.members.2, hb'.kept⟩⟩
  · rw [hb'.rest]
  · rw [hb'.rest]

/-- C46: a relation with members node 5, node 3 comes back with members node 3, node 5. -/
theorem C46_order_lost (z : Codec) (hz : Faithful z) (le : Text → Text → Prop) (hle : ∀ t, le t t)
    (uc cc : Int64 → Int64) (es : List Element) (files sorted : Table → Text) (hd : Dump z uc cc es files)
    (hs : Storable es) (hsort : SortedCopy le files sorted) (it it' : ElementIterator) (out : List Element)
    (hnew : ElementIterator.new dumpTables sorted = .ok it) (hit : Iterates (ElementIterator.next z) it out it')
    (r : Relation) (hr : Element.relation r ∈ es) (hm : r.members = [.node ⟨5, "a"⟩, .node ⟨3, "b"⟩]) :
    ∃ r', Element.relation r' ∈ out ∧ r'.id = r.id ∧ r'.version = r.version ∧
      r'.members = [.node ⟨3, "b"⟩, .node ⟨5, "a"⟩] := by
  obtain ⟨r', h1, h2, h3, h4, h5, _⟩ :=
    C46_member_order z hz le uc cc es files sorted hd hs hsort it it' out hnew hit r hr
  refine ⟨r', h1, h2, h3, ?_⟩
  rw [hm] at h4
  have hno : ¬ MemberLe z le (.node ⟨5, "a"⟩) (.node ⟨3, "b"⟩) := by
    intro h
    rcases h.2 (hle _) with h | h
    · revert h; decide
    · revert h; simp [memberId]
  have hlen := h4.length_eq
  match hx : r'.members, hlen with
  | [a, b], _ =>
    rw [hx] at h4 h5
    have ha := h4.subset (show a ∈ [a, b] by simp)
    have hb := h4.symm.subset (show Member.node ⟨3, "b"⟩ ∈ _ by simp)
    have hb' := h4.symm.subset (show Member.node ⟨5, "a"⟩ ∈ _ by simp)
    simp only [List.pairwise_cons, forall_eq, List.mem_cons, List.not_mem_nil, or_false] at ha h5 hb hb'
    rcases ha with rfl | rfl
    · rcases hb with h | rfl
      · simp at h
      · exact absurd h5.1 hno
    · rcases hb' with h | rfl
      · simp at h
      · rfl

/-! ### Exact round trip -/

theorem quantised_grid {c c' : F64} (h : Quantised c c') (hg : OnGrid c) : c' = c := by
  obtain ⟨k, rfl, hk⟩ := h
  obtain ⟨j, hj, rfl⟩ := hg
  have e1 := rnd_err ((j : ℚ) / 10 ^ 7)
  have hjb : |(j : ℚ) / 10 ^ 7| ≤ 2 ^ 45 / 10 ^ 7 := by
    rw [abs_div]
    have h7 : |(10 : ℚ) ^ 7| = 10 ^ 7 := by norm_num
    rw [h7]
    apply div_le_div_of_nonneg_right _ (by norm_num)
    exact_mod_cast hj
  have e2 : (1 : ℚ) / 2 ^ 53 * |(j : ℚ) / 10 ^ 7| ≤ 1 / 2 ^ 8 / 10 ^ 7 := by
    calc _ ≤ (1 : ℚ) / 2 ^ 53 * (2 ^ 45 / 10 ^ 7) := mul_le_mul_of_nonneg_left hjb (by positivity)
      _ ≤ _ := by norm_num
  have e3 : |(k : ℚ) / 10 ^ 7 - j / 10 ^ 7| < 1 / 10 ^ 7 := by
    have h3 : (k : ℚ) / 10 ^ 7 - j / 10 ^ 7 = (k / 10 ^ 7 - rnd (j / 10 ^ 7)) + (rnd (j / 10 ^ 7) - j / 10 ^ 7) := by ring
    rw [h3]
    refine lt_of_le_of_lt (abs_add_le _ _) ?_
    refine lt_of_le_of_lt (add_le_add hk (e1.trans e2)) ?_
    norm_num
  have e4 : (k : ℚ) / 10 ^ 7 - j / 10 ^ 7 = ((k - j : ℤ) : ℚ) / 10 ^ 7 := by push_cast; ring
  rw [e4, abs_div] at e3
  have h7 : |(10 : ℚ) ^ 7| = 10 ^ 7 := by norm_num
  rw [h7, div_lt_div_iff_of_pos_right (by norm_num)] at e3
  have e5 : |k - j| < 1 := by exact_mod_cast e3
  have : k = j := by
    have := abs_lt.1 e5
    omega
  rw [this]

theorem floored_eq {t t' : Int64} (h : FlooredToSecond t t') (hw : WholeSecond t) : t' = t := by
  obtain ⟨s, h1, h2, h3⟩ := h
  obtain ⟨u, hu⟩ := hw
  apply Int64.toInt_inj.1
  omega

theorem owner_consistent {es : List Element} (hc : Consistent es) {changeset : Int64} {uid uid' : Int32}
    {user user' : String} (h : OwnerIn es changeset uid' user')
    (h1 : (changeset, uid.toInt64) ∈ changesetUsers es) (h2 : (uid.toInt64, user) ∈ userNames es) :
    uid' = uid ∧ user' = user := by
  obtain ⟨u, e1, rfl, e2⟩ := h
  have hu : u = uid.toInt64 := hc.changesets _ (lastValue_mem e1) _ h1 rfl
  subst hu
  exact ⟨by simp, hc.users _ (lastValue_mem e2) _ h2 rfl⟩

/-- Tags in strictly ascending order of keys. -/
theorem tags_eq {z : Codec} {le : Text → Text → Prop} {ts ts' : List Tag}
    (h : ts'.Perm ts ∧ ts'.Pairwise (TagLe z le))
    (hs : ts.Pairwise fun a b => TagLe z le a b ∧ ¬ TagLe z le b a) : ts' = ts := by
  refine List.Perm.eq_of_pairwise ?_ h.2 (hs.imp fun h => h.1) h.1
  intro a b ha hb h1 h2
  have ha := h.1.subset ha
  by_contra hne
  have hs' : ts.Pairwise fun a b => ¬ (TagLe z le a b ∧ TagLe z le b a) := hs.imp fun h e => h.2 e.2
  have : Std.Symm fun a b : Tag => ¬ (TagLe z le a b ∧ TagLe z le b a) := ⟨fun _ _ h e => h ⟨e.2, e.1⟩⟩
  exact hs'.forall ha hb hne ⟨h1, h2⟩

theorem forall₂_eq {α : Type} {l l' : List α} (h : List.Forall₂ Eq l l') : l' = l := by
  induction h with
  | nil => rfl
  | cons h _ ih => rw [h, ih]

theorem forall₂_mem {α : Type} {P : α → α → Prop} {l l' : List α} (h : List.Forall₂ P l l')
    (hp : ∀ a ∈ l, ∀ b, P a b → b = a) : l' = l := by
  induction h with
  | nil => rfl
  | cons h _ ih => rw [hp _ (by simp) _ h, ih fun a ha => hp a (by simp [ha])]

/-- C53: elements that need no rounding, whose tags and members are in the order of the dump and whose
user ids and names are consistent come back unchanged, in ascending order of id and version. -/
theorem C53_exact (z : Codec) (hz : Faithful z) (le : Text → Text → Prop) (uc cc : Int64 → Int64)
    (es : List Element) (files sorted : Table → Text) (hd : Dump z uc cc es files) (hs : Storable es)
    (hsort : SortedCopy le files sorted) (hex : ∀ e ∈ es, Exact e) (hcon : Consistent es)
    (htags : ∀ e ∈ es, (tagsOf e).Pairwise fun a b => TagLe z le a b ∧ ¬ TagLe z le b a)
    (hmem : ∀ r ∈ relationsOf es, r.members.Pairwise (MemberLe z le)) :
    ∃ it it' ns ws rs, ElementIterator.new dumpTables sorted = .ok it ∧
      Iterates (ElementIterator.next z) it (withSentinels ns ws rs) it' ∧
      ElementIterator.next z it' = .ok (none, it') ∧
      ns.Perm (nodesOf es) ∧ (ns.Pairwise fun a b => KeyBefore (a.id, a.version) (b.id, b.version)) ∧
      ws.Perm (waysOf es) ∧ (ws.Pairwise fun a b => KeyBefore (a.id, a.version) (b.id, b.version)) ∧
      rs.Perm (relationsOf es) ∧ (rs.Pairwise fun a b => KeyBefore (a.id, a.version) (b.id, b.version)) := by
  obtain ⟨it, it', ns, ns', ws, ws', rs, rs', h1, h2, h3, ⟨n1, n2, n3⟩, ⟨w1, w2, w3⟩, ⟨r1, r2, r3⟩⟩ :=
    C53_round_trip z hz le uc cc es files sorted hd hs hsort
  have en : ns' = ns := forall₂_mem n3 (by
    intro a ha b hb
    have hm := n1.subset ha
    have he := mem_nodesOf hm
    have hx := hex _ he
    have e1 := quantised_grid hb.lat hx.1
    have e2 := quantised_grid hb.lon hx.2.1
    have e3 := floored_eq hb.time hx.2.2
    have e4 := owner_consistent hcon hb.owner (List.mem_filterMap.2 ⟨_, he, rfl⟩) (List.mem_filterMap.2 ⟨_, he, rfl⟩)
    have e5 := tags_eq hb.tags (htags _ he)
    have e6 : b.coordinate = a.coordinate := by
      cases hA : a.coordinate; cases hB : b.coordinate
      rw [hA, hB] at e1 e2
      simp only at e1 e2
      rw [e1, e2]
    rw [hb.rest, e3, e4.1, e4.2, e5, e6])
  have ew : ws' = ws := forall₂_mem w3 (by
    intro a ha b hb
    have hm := w1.subset ha
    have he := mem_waysOf hm
    have e3 := floored_eq hb.time (hex _ he)
    have e4 := owner_consistent hcon hb.owner (List.mem_filterMap.2 ⟨_, he, rfl⟩) (List.mem_filterMap.2 ⟨_, he, rfl⟩)
    have e5 := tags_eq hb.tags (htags _ he)
    rw [hb.rest, e3, e4.1, e4.2, e5])
  have er : rs' = rs := forall₂_mem r3 (by
    intro a ha b hb
    have hm := r1.subset ha
    have he := mem_relationsOf hm
    have e3 := floored_eq hb.time (hex _ he)
    have e4 := owner_consistent hcon hb.owner (List.mem_filterMap.2 ⟨_, he, rfl⟩) (List.mem_filterMap.2 ⟨_, he, rfl⟩)
    have e5 := tags_eq hb.tags (htags _ he)
    have e6 := hb.kept (hmem a hm)
    rw [hb.rest, e3, e4.1, e4.2, e5, e6])
  subst en ew er
  exact ⟨it, it', ns', ws', rs', h1, h2, h3, n1, n2, w1, w2, r1, r2⟩

end OsmIo
