import Verif.Lemmas.ApidbReader
/-! Steps of the element iterator over arbitrary tables: shape, owners, termination. -/
namespace OsmIo.Apidb
open OsmIo.Text OsmIo.Sql OsmIo.Spec

/-! ### Inversion -/

theorem tableNext_none {α : Type} {build : Text → Out α} {ls rest : List Text}
    (h : tableNext build ls = .ok (none, rest)) : ls = [] ∨ ∃ l, stopLine l = true ∧ ls = l :: rest := by
  cases ls with
  | nil => exact .inl rfl
  | cons l ls =>
    unfold tableNext at h
    cases hs : stopLine l
    · simp [hs, Out.bind_eq_ok] at h
    · simp [hs] at h; subst h; exact .inr ⟨l, hs, rfl⟩

theorem tableNext_some {α : Type} {build : Text → Out α} {ls rest : List Text} {r : α}
    (h : tableNext build ls = .ok (some r, rest)) : ∃ l, stopLine l = false ∧ build l = .ok r ∧ ls = l :: rest := by
  cases ls with
  | nil => simp [tableNext] at h
  | cons l ls =>
    unfold tableNext at h
    cases hs : stopLine l
    · simp only [hs, Bool.false_eq_true, if_false, Out.bind_eq_ok, Out.pure_eq] at h
      obtain ⟨a, ha, h⟩ := h
      simp at h
      obtain ⟨rfl, rfl⟩ := h
      exact ⟨l, hs, ha, rfl⟩
    · simp [hs] at h

theorem nextNode_inv {z : Codec} {it it' : ElementIterator} {e : Option Element}
    (h : it.nextNode z = .ok (e, it')) :
    (∃ nodes tags, tableNext (createNode it.fields.nodes) it.nodes = .ok (none, nodes) ∧ e = some .sentinel ∧
      it' = { it with state := .ways, nodes := nodes, nodeTags := tags }) ∨
    (∃ n nodes ts tags uid user, tableNext (createNode it.fields.nodes) it.nodes = .ok (some n, nodes) ∧
      it.owner n.changesetId = .ok (uid, user) ∧ e = some (.node (nodeOf n ts uid user)) ∧
      attach (createNodeTag z it.fields.nodeTags) (fun t => t.id = n.nodeId && t.version = n.version)
        it.nodeTags.pending it.nodeTags.lines = .ok (ts, tags.pending, tags.lines) ∧
      it' = { it with nodes := nodes, nodeTags := tags }) := by
  unfold ElementIterator.nextNode nodesNext at h
  simp only [Out.bind_eq_ok, Prod.exists] at h
  obtain ⟨r, nodes, tags, ⟨r0, nodes0, h1, h2⟩, h3⟩ := h
  cases r0 with
  | none =>
    simp at h2
    obtain ⟨rfl, rfl, rfl⟩ := h2
    simp at h3
    exact .inl ⟨_, _, h1, h3.1.symm, h3.2.symm⟩
  | some n =>
    simp only [Out.bind_eq_ok, Prod.exists] at h2
    obtain ⟨ts, p, rest, h4, h2⟩ := h2
    simp at h2
    obtain ⟨rfl, rfl, rfl⟩ := h2
    simp only [Out.bind_eq_ok, Prod.exists] at h3
    obtain ⟨uid, user, h5, h3⟩ := h3
    simp at h3
    exact .inr ⟨n, _, ts, ⟨p, rest⟩, uid, user, h1, h5, h3.1.symm, by simpa using h4, h3.2.symm⟩

theorem nextWay_inv {z : Codec} {it it' : ElementIterator} {e : Option Element}
    (h : it.nextWay z = .ok (e, it')) :
    (∃ ways tags parts, tableNext (createObject it.fields.ways) it.ways = .ok (none, ways) ∧ e = some .sentinel ∧
      it' = { it with state := .relations, ways := ways, wayTags := tags, wayNodes := parts }) ∨
    (∃ n ways ts ps tags parts uid user, tableNext (createObject it.fields.ways) it.ways = .ok (some n, ways) ∧
      it.owner n.changesetId = .ok (uid, user) ∧ e = some (.way (wayOf n ts ps uid user)) ∧
      it' = { it with ways := ways, wayTags := tags, wayNodes := parts }) := by
  unfold ElementIterator.nextWay objectsNext at h
  simp only [Out.bind_eq_ok, Prod.exists] at h
  obtain ⟨r, ways, tags, parts, ⟨r0, ways0, h1, h2⟩, h3⟩ := h
  cases r0 with
  | none =>
    simp at h2
    obtain ⟨rfl, rfl, rfl, rfl⟩ := h2
    simp at h3
    exact .inl ⟨_, _, _, h1, h3.1.symm, h3.2.symm⟩
  | some n =>
    simp only [Out.bind_eq_ok, Prod.exists] at h2
    obtain ⟨ts, p, rest, h4, ps, p', rest', h6, h2⟩ := h2
    simp at h2
    obtain ⟨rfl, rfl, rfl, rfl⟩ := h2
    simp only [Out.bind_eq_ok, Prod.exists] at h3
    obtain ⟨uid, user, h5, h3⟩ := h3
    simp at h3
    exact .inr ⟨n, _, ts, ps, _, _, uid, user, h1, h5, h3.1.symm, h3.2.symm⟩

theorem nextRelation_inv {z : Codec} {it it' : ElementIterator} {e : Option Element}
    (h : it.nextRelation z = .ok (e, it')) :
    (∃ rels tags parts, tableNext (createObject it.fields.relations) it.relations = .ok (none, rels) ∧
      e = some .sentinel ∧
      it' = { it with state := .finished, relations := rels, relationTags := tags, relationMembers := parts }) ∨
    (∃ n rels ts ps tags parts uid user, tableNext (createObject it.fields.relations) it.relations = .ok (some n, rels) ∧
      it.owner n.changesetId = .ok (uid, user) ∧ e = some (.relation (relationOf n ts ps uid user)) ∧
      it' = { it with relations := rels, relationTags := tags, relationMembers := parts }) := by
  unfold ElementIterator.nextRelation objectsNext at h
  simp only [Out.bind_eq_ok, Prod.exists] at h
  obtain ⟨r, ways, tags, parts, ⟨r0, ways0, h1, h2⟩, h3⟩ := h
  cases r0 with
  | none =>
    simp at h2
    obtain ⟨rfl, rfl, rfl, rfl⟩ := h2
    simp at h3
    exact .inl ⟨_, _, _, h1, h3.1.symm, h3.2.symm⟩
  | some n =>
    simp only [Out.bind_eq_ok, Prod.exists] at h2
    obtain ⟨ts, p, rest, h4, ps, p', rest', h6, h2⟩ := h2
    simp at h2
    obtain ⟨rfl, rfl, rfl, rfl⟩ := h2
    simp only [Out.bind_eq_ok, Prod.exists] at h3
    obtain ⟨uid, user, h5, h3⟩ := h3
    simp at h3
    exact .inr ⟨n, _, ts, ps, _, _, uid, user, h1, h5, h3.1.symm, h3.2.symm⟩

/-! ### Shape -/

/-- What is still to come in each state. -/
def Shape : IterationState → List Element → Prop
  | .start, es => ∃ ns ws rs, es = withSentinels ns ws rs
  | .nodes, es => ∃ ns ws rs, es = withSentinels ns ws rs
  | .ways, es => ∃ (ws : List Way) (rs : List Relation),
      es = ws.map .way ++ [.sentinel] ++ rs.map .relation ++ [.sentinel]
  | .relations, es => ∃ rs : List Relation, es = rs.map .relation ++ [.sentinel]
  | .finished, es => es = []

theorem shape_of_yields {z : Codec} {it s s' : ElementIterator} {es : List Element}
    (h : Yields (ElementIterator.next z) it es s) (h' : ElementIterator.next z s = .ok (none, s')) :
    Shape it.state es ∧ s' = s ∧ s.state = .finished := by
  induction h with
  | nil s =>
    unfold ElementIterator.next at h'
    cases hs : s.state <;> simp only [hs] at h'
    · rcases nextNode_inv h' with ⟨_, _, _, h, _⟩ | ⟨_, _, _, _, _, _, _, _, h, _⟩ <;> simp at h
    · rcases nextNode_inv h' with ⟨_, _, _, h, _⟩ | ⟨_, _, _, _, _, _, _, _, h, _⟩ <;> simp at h
    · rcases nextWay_inv h' with ⟨_, _, _, _, h, _⟩ | ⟨_, _, _, _, _, _, _, _, _, _, h, _⟩ <;> simp at h
    · rcases nextRelation_inv h' with ⟨_, _, _, _, h, _⟩ | ⟨_, _, _, _, _, _, _, _, _, _, h, _⟩ <;> simp at h
    · simp at h'; exact ⟨rfl, h'.symm, rfl⟩
  | @cons s s1 s2 e es h1 _ ih =>
    obtain ⟨ih, hr⟩ := ih h'
    refine ⟨?_, hr⟩
    clear h' hr
    have node : ∀ it : ElementIterator, it.state = .nodes → it.nextNode z = .ok (some e, s1) →
        ∃ ns ws rs, e :: es = withSentinels ns ws rs := by
      intro it hit h1
      rcases nextNode_inv h1 with ⟨_, _, _, h, rfl⟩ | ⟨_, _, _, _, _, _, _, _, h, _, rfl⟩
      · simp at h; subst h
        obtain ⟨ws, rs, rfl⟩ := ih
        exact ⟨[], ws, rs, by simp [withSentinels]⟩
      · simp at h; subst h
        simp only [hit] at ih
        obtain ⟨ns, ws, rs, rfl⟩ := ih
        exact ⟨_ :: ns, ws, rs, by simp only [withSentinels, List.map_cons, List.cons_append]; rfl⟩
    unfold ElementIterator.next at h1
    cases hs : s.state <;> simp only [hs] at h1
    · exact node _ rfl h1
    · exact node _ hs h1
    · rcases nextWay_inv h1 with ⟨_, _, _, _, h, rfl⟩ | ⟨_, _, _, _, _, _, _, _, _, _, h, rfl⟩
      · simp at h; subst h
        obtain ⟨rs, rfl⟩ := ih
        exact ⟨[], rs, by simp⟩
      · simp at h; subst h
        simp only [hs] at ih
        obtain ⟨ws, rs, rfl⟩ := ih
        exact ⟨_ :: ws, rs, by simp only [List.map_cons, List.cons_append]; rfl⟩
    · rcases nextRelation_inv h1 with ⟨_, _, _, _, h, rfl⟩ | ⟨_, _, _, _, _, _, _, _, _, _, h, rfl⟩
      · simp at h; subst h
        obtain rfl := ih
        exact ⟨[], by simp⟩
      · simp at h; subst h
        simp only [hs] at ih
        obtain ⟨rs, rfl⟩ := ih
        exact ⟨_ :: rs, by simp only [List.map_cons, List.cons_append]; rfl⟩
    · simp at h1

/-! ### Owners -/

/-- The owner of a record's changeset was looked up: id, name. -/
def OwnedBy (it : ElementIterator) : Element → Prop
  | .node n => ∃ uid, it.owner n.changeset = .ok (uid, n.user) ∧ n.uid = uid.toInt32
  | .way n => ∃ uid, it.owner n.changeset = .ok (uid, n.user) ∧ n.uid = uid.toInt32
  | .relation n => ∃ uid, it.owner n.changeset = .ok (uid, n.user) ∧ n.uid = uid.toInt32
  | .sentinel => True

theorem next_owned {z : Codec} {it it' : ElementIterator} {e : Option Element}
    (h : ElementIterator.next z it = .ok (e, it')) :
    it'.userIndex = it.userIndex ∧ it'.changesetIndex = it.changesetIndex ∧ ∀ x, e = some x → OwnedBy it x := by
  unfold ElementIterator.next at h
  cases hs : it.state <;> simp only [hs] at h
  · rcases nextNode_inv h with ⟨_, _, _, rfl, rfl⟩ | ⟨_, _, _, _, _, _, _, ho, rfl, _, rfl⟩
    · exact ⟨rfl, rfl, by rintro x ⟨⟩; trivial⟩
    · exact ⟨rfl, rfl, by rintro x ⟨⟩; exact ⟨_, ho, rfl⟩⟩
  · rcases nextNode_inv h with ⟨_, _, _, rfl, rfl⟩ | ⟨_, _, _, _, _, _, _, ho, rfl, _, rfl⟩
    · exact ⟨rfl, rfl, by rintro x ⟨⟩; trivial⟩
    · exact ⟨rfl, rfl, by rintro x ⟨⟩; exact ⟨_, ho, rfl⟩⟩
  · rcases nextWay_inv h with ⟨_, _, _, _, rfl, rfl⟩ | ⟨_, _, _, _, _, _, _, _, _, ho, rfl, rfl⟩
    · exact ⟨rfl, rfl, by rintro x ⟨⟩; trivial⟩
    · exact ⟨rfl, rfl, by rintro x ⟨⟩; exact ⟨_, ho, rfl⟩⟩
  · rcases nextRelation_inv h with ⟨_, _, _, _, rfl, rfl⟩ | ⟨_, _, _, _, _, _, _, _, _, ho, rfl, rfl⟩
    · exact ⟨rfl, rfl, by rintro x ⟨⟩; trivial⟩
    · exact ⟨rfl, rfl, by rintro x ⟨⟩; exact ⟨_, ho, rfl⟩⟩
  · simp at h
    obtain ⟨rfl, rfl⟩ := h
    exact ⟨rfl, rfl, by rintro x ⟨⟩⟩

theorem ownedBy_congr {it it' : ElementIterator} (h1 : it'.userIndex = it.userIndex)
    (h2 : it'.changesetIndex = it.changesetIndex) (e : Element) : OwnedBy it' e ↔ OwnedBy it e := by
  have : ∀ k, it'.owner k = it.owner k := by intro k; unfold ElementIterator.owner; rw [h1, h2]
  cases e <;> simp [OwnedBy, this]

theorem yields_owned {z : Codec} {it s : ElementIterator} {es : List Element}
    (h : Yields (ElementIterator.next z) it es s) : ∀ e ∈ es, OwnedBy it e := by
  induction h with
  | nil => simp
  | cons h1 _ ih =>
    obtain ⟨a, b, c⟩ := next_owned h1
    intro e he
    rcases List.mem_cons.1 he with rfl | he
    · exact c _ rfl
    · exact (ownedBy_congr a b e).1 (ih e he)

/-! ### Ends -/

/-- Never an `Err`. -/
def NoErr {α : Type} (x : Out α) : Prop := x ≠ .err

theorem noErr_bind {α β : Type} {x : Out α} {f : α → Out β} (hx : NoErr x) (hf : ∀ a, NoErr (f a)) :
    NoErr (x >>= f) := by
  cases x with
  | ok a => exact hf a
  | err => exact absurd rfl hx
  | panic => simp [NoErr]

theorem noErr_unwrap {α : Type} (o : Option α) : NoErr (Out.unwrap o) := by cases o <;> simp [NoErr]

theorem noErr_ok {α : Type} (a : α) : NoErr (Out.ok a) := by simp [NoErr]

theorem noErr_panic {α : Type} : NoErr (Out.panic : Out α) := by simp [NoErr]

theorem createNode_noErr (f : List Nat) (l : Text) : NoErr (createNode f l) := by
  unfold createNode
  split
  · repeat (first | exact noErr_ok _ | refine noErr_bind (noErr_unwrap _) fun _ => ?_)
  · exact noErr_panic

theorem createObject_noErr (f : List Nat) (l : Text) : NoErr (createObject f l) := by
  unfold createObject
  split
  · repeat (first | exact noErr_ok _ | refine noErr_bind (noErr_unwrap _) fun _ => ?_)
  · exact noErr_panic

theorem createNodeTag_noErr (z : Codec) (f : List Nat) (l : Text) : NoErr (createNodeTag z f l) := by
  unfold createNodeTag
  split
  · repeat (first | exact noErr_ok _ | refine noErr_bind (noErr_unwrap _) fun _ => ?_)
  · exact noErr_panic

theorem createObjectTag_noErr (z : Codec) (f : List Nat) (l : Text) : NoErr (createObjectTag z f l) := by
  unfold createObjectTag
  split
  · repeat (first | exact noErr_ok _ | refine noErr_bind (noErr_unwrap _) fun _ => ?_)
  · exact noErr_panic

theorem createWayNode_noErr (f : List Nat) (l : Text) : NoErr (createWayNode f l) := by
  unfold createWayNode
  split
  · repeat (first | exact noErr_ok _ | refine noErr_bind (noErr_unwrap _) fun _ => ?_)
  · exact noErr_panic

theorem createMember_noErr (z : Codec) (f : List Nat) (l : Text) : NoErr (createMember z f l) := by
  unfold createMember
  split
  · repeat (first | exact noErr_ok _ | refine noErr_bind (noErr_unwrap _) fun _ => ?_)
  · exact noErr_panic

theorem tableNext_noErr {α : Type} {build : Text → Out α} (hb : ∀ l, NoErr (build l)) (ls : List Text) :
    NoErr (tableNext build ls) := by
  cases ls with
  | nil => exact noErr_ok _
  | cons l ls =>
    simp only [tableNext]
    split
    · exact noErr_ok _
    · exact noErr_bind (hb l) fun _ => noErr_ok _

theorem gather_noErr {β : Type} {build : Text → Out β} (hb : ∀ l, NoErr (build l)) (mine : β → Bool) (ls : List Text) :
    NoErr (gather build mine ls) := by
  induction ls with
  | nil => exact noErr_ok _
  | cons l ls ih =>
    unfold gather
    split
    · exact noErr_ok _
    · refine noErr_bind (hb l) fun r => ?_
      split
      · exact noErr_bind ih fun _ => noErr_ok _
      · exact noErr_ok _

theorem attach_noErr {β : Type} {build : Text → Out β} (hb : ∀ l, NoErr (build l)) (mine : β → Bool)
    (p : Option β) (ls : List Text) : NoErr (attach build mine p ls) := by
  unfold attach
  split
  · split
    · exact noErr_bind (gather_noErr hb mine ls) fun _ => noErr_ok _
    · exact noErr_ok _
  · exact gather_noErr hb mine ls

theorem owner_noErr (it : ElementIterator) (k : Int64) : NoErr (it.owner k) := by
  unfold ElementIterator.owner
  exact noErr_bind (noErr_unwrap _) fun _ => noErr_bind (noErr_unwrap _) fun _ => noErr_ok _

theorem objectsNext_noErr {β : Type} (z : Codec) (fo ft : List Nat) {b : Text → Out β} (hb : ∀ l, NoErr (b l))
    (pk : β → Int64 × Int64) (os : List Text) (tags : Child TagRecord) (parts : Child β) :
    NoErr (objectsNext z fo ft b pk os tags parts) := by
  unfold objectsNext
  refine noErr_bind (tableNext_noErr (createObject_noErr _) _) fun r => ?_
  rcases r with ⟨_ | r, rest⟩
  · exact noErr_ok _
  · exact noErr_bind (attach_noErr (createObjectTag_noErr _ _) _ _ _) fun _ =>
      noErr_bind (attach_noErr hb _ _ _) fun _ => noErr_ok _

theorem next_noErr (z : Codec) (it : ElementIterator) : NoErr (ElementIterator.next z it) := by
  have node : ∀ it : ElementIterator, NoErr (it.nextNode z) := by
    intro it
    unfold ElementIterator.nextNode nodesNext
    refine noErr_bind (noErr_bind (tableNext_noErr (createNode_noErr _) _) fun r => ?_) fun r => ?_
    · rcases r with ⟨_ | r, rest⟩
      · exact noErr_ok _
      · exact noErr_bind (attach_noErr (createNodeTag_noErr _ _) _ _ _) fun _ => noErr_ok _
    · rcases r with ⟨_ | r, rest⟩
      · exact noErr_ok _
      · exact noErr_bind (owner_noErr _ _) fun _ => noErr_ok _
  unfold ElementIterator.next
  split
  · exact node _
  · exact node _
  · unfold ElementIterator.nextWay
    refine noErr_bind (objectsNext_noErr _ _ _ (createWayNode_noErr _) _ _ _ _) fun r => ?_
    rcases r with ⟨_ | r, rest⟩
    · exact noErr_ok _
    · exact noErr_bind (owner_noErr _ _) fun _ => noErr_ok _
  · unfold ElementIterator.nextRelation
    refine noErr_bind (objectsNext_noErr _ _ _ (createMember_noErr _ _) _ _ _ _) fun r => ?_
    rcases r with ⟨_ | r, rest⟩
    · exact noErr_ok _
    · exact noErr_bind (owner_noErr _ _) fun _ => noErr_ok _
  · exact noErr_ok _

/-- States still ahead. -/
def rank : IterationState → Nat
  | .start => 3
  | .nodes => 3
  | .ways => 2
  | .relations => 1
  | .finished => 0

/-- Steps at most ahead. -/
def left (it : ElementIterator) : Nat := it.nodes.length + it.ways.length + it.relations.length + rank it.state

theorem tableNext_length {α : Type} {build : Text → Out α} {ls rest : List Text} {r : Option α}
    (h : tableNext build ls = .ok (r, rest)) : rest.length ≤ ls.length ∧ (r.isSome → rest.length < ls.length) := by
  cases r with
  | none =>
    rcases tableNext_none h with rfl | ⟨l, _, rfl⟩
    · simp [tableNext] at h; subst h; simp
    · simp
  | some r =>
    obtain ⟨l, _, _, rfl⟩ := tableNext_some h
    simp

theorem next_left {z : Codec} {it it' : ElementIterator} {e : Element}
    (h : ElementIterator.next z it = .ok (some e, it')) : left it' < left it := by
  unfold ElementIterator.next at h
  cases hs : it.state <;> simp only [hs] at h
  · rcases nextNode_inv h with ⟨_, _, ht, _, rfl⟩ | ⟨_, _, _, _, _, _, ht, _, _, _, rfl⟩ <;>
      have := tableNext_length ht <;> simp [left, rank, hs] at this ⊢ <;> omega
  · rcases nextNode_inv h with ⟨_, _, ht, _, rfl⟩ | ⟨_, _, _, _, _, _, ht, _, _, _, rfl⟩ <;>
      have := tableNext_length ht <;> simp [left, rank, hs] at this ⊢ <;> omega
  · rcases nextWay_inv h with ⟨_, _, _, ht, _, rfl⟩ | ⟨_, _, _, _, _, _, _, _, ht, _, _, rfl⟩ <;>
      have := tableNext_length ht <;> simp [left, rank, hs] at this ⊢ <;> omega
  · rcases nextRelation_inv h with ⟨_, _, _, ht, _, rfl⟩ | ⟨_, _, _, _, _, _, _, _, ht, _, _, rfl⟩ <;>
      have := tableNext_length ht <;> simp [left, rank, hs] at this ⊢ <;> omega
  · simp at h

theorem yields_ends (z : Codec) : ∀ (n : Nat) (it : ElementIterator), left it ≤ n →
    (∃ es it', es.length ≤ n ∧ Iterates (ElementIterator.next z) it es it') ∨
    (∃ es s, es.length ≤ n ∧ Yields (ElementIterator.next z) it es s ∧ ElementIterator.next z s = .panic) := by
  intro n
  induction n with
  | zero =>
    intro it hl
    cases h : ElementIterator.next z it with
    | err => exact absurd h (next_noErr z it)
    | panic => exact .inr ⟨[], it, by simp, .nil _, h⟩
    | ok r =>
      obtain ⟨e, it'⟩ := r
      cases e with
      | none => exact .inl ⟨[], it', by simp, it, .nil _, h⟩
      | some e => have := next_left h; omega
  | succ n ih =>
    intro it hl
    cases h : ElementIterator.next z it with
    | err => exact absurd h (next_noErr z it)
    | panic => exact .inr ⟨[], it, by simp, .nil _, h⟩
    | ok r =>
      obtain ⟨e, it'⟩ := r
      cases e with
      | none => exact .inl ⟨[], it', by simp, it, .nil _, h⟩
      | some e =>
        have hl' := next_left h
        rcases ih it' (by omega) with ⟨es, s, hlen, s1, hy, he⟩ | ⟨es, s, hlen, hy, he⟩
        · exact .inl ⟨e :: es, s, by simpa using hlen, s1, .cons h hy, he⟩
        · exact .inr ⟨e :: es, s, by simpa using hlen, .cons h hy, he⟩

theorem new_start {tables : Tables} {sorted : Table → Text} {it : ElementIterator}
    (h : ElementIterator.new tables sorted = .ok it) : it.state = .start ∧
      it.nodes = lines (sorted .nodes) ∧ it.ways = lines (sorted .ways) ∧ it.relations = lines (sorted .relations) := by
  unfold ElementIterator.new at h
  simp only [Out.bind_eq_ok, Prod.exists, Out.pure_eq] at h
  obtain ⟨_, _, _, _, _, _, _, _, _, _, _, _, _, _, _, _, _, _, _, _, _, _, _, _, _, _, _, _, _, _, _, _, h⟩ := h
  simp at h
  obtain ⟨_, rfl⟩ := h
  exact ⟨rfl, rfl, rfl, rfl⟩

/-! ### All records, whatever the order of the tables -/

theorem Yields.unique {S α : Type} {next : S → Out (Option α × S)} {s s1 : S} {as : List α} (h : Yields next s as s1) :
    ∀ {bs : List α} {s2 : S}, Yields next s bs s2 →
      (∀ a t, next s1 ≠ .ok (some a, t)) → (∀ a t, next s2 ≠ .ok (some a, t)) → as = bs ∧ s1 = s2 := by
  induction h with
  | nil s =>
    intro bs s2 h' h1 h2
    cases h' with
    | nil => exact ⟨rfl, rfl⟩
    | cons h _ => exact absurd h (h1 _ _)
  | cons ha _ ih =>
    intro bs s2 h' h1 h2
    cases h' with
    | nil => exact absurd ha (h2 _ _)
    | cons hb h' =>
      rw [ha] at hb
      simp at hb
      obtain ⟨rfl, rfl⟩ := hb
      obtain ⟨rfl, rfl⟩ := ih h' h1 h2
      exact ⟨rfl, rfl⟩

theorem owner_cases (it : ElementIterator) (k : Int64) :
    (∃ uid user, it.owner k = .ok (uid, user)) ∨ it.owner k = .panic := by
  cases h : it.owner k with
  | ok p => exact .inl ⟨p.1, p.2, rfl⟩
  | err => exact absurd h (owner_noErr it k)
  | panic => exact .inr rfl

theorem nodes_total (z : Codec) (recs : List NodeRecord) :
    ∀ (it : ElementIterator) (ts : List TagRecord), it.state = .nodes →
      Reads (createNode it.fields.nodes) it.nodes recs →
      it.nodeTags.Holds (createNodeTag z it.fields.nodeTags) ts →
      (∃ ns a b, List.Forall₂ (fun r n => ∃ uid user ts, it.owner r.changesetId = .ok (uid, user) ∧
          n = nodeOf r ts uid user) recs ns ∧
        Yields (ElementIterator.next z) it (ns.map .node ++ [.sentinel])
        { it with state := .ways, nodes := a, nodeTags := b }) ∨
      (∃ r ∈ recs, it.owner r.changesetId = .panic ∧ ∃ es s, Yields (ElementIterator.next z) it es s ∧
        ElementIterator.next z s = .panic) := by
  induction recs with
  | nil =>
    intro it ts hst hr ht
    cases hn : it.nodes with
    | cons l ls => rw [hn] at hr; cases hr
    | nil =>
      refine .inl ⟨[], [], it.nodeTags, .nil, .cons ?_ (.nil _)⟩
      simp [ElementIterator.next, hst, ElementIterator.nextNode, nodesNext, hn, tableNext]
  | cons r recs ih =>
    intro it ts hst hr ht
    cases hn : it.nodes with
    | nil => rw [hn] at hr; cases hr
    | cons l ls =>
      rw [hn] at hr
      cases hr with
      | cons hl hr =>
      obtain ⟨c', e1, e2⟩ := attach_holds (fun t => decide (t.id = r.nodeId) && decide (t.version = r.version)) ht
      generalize List.takeWhile (fun t : TagRecord => decide (t.id = r.nodeId) && decide (t.version = r.version)) ts = ts1
        at e1
      rcases owner_cases it r.changesetId with ⟨uid, user, ho⟩ | ho
      · have step : ElementIterator.next z it = .ok (some (.node (nodeOf r ts1 uid user)),
            { it with nodes := ls, nodeTags := c' }) := by
          simp [ElementIterator.next, hst, ElementIterator.nextNode, nodesNext, hn, tableNext, hl.1, hl.2, e1]
          erw [ho]
          rfl
        rcases ih { it with nodes := ls, nodeTags := c' } _ hst hr e2 with ⟨ns, a, b, hf, hy⟩ | ⟨r', hr', ho', es, s, hy, hp⟩
        · exact .inl ⟨_ :: ns, a, b, .cons ⟨uid, user, _, ho, rfl⟩ hf, .cons step hy⟩
        · exact .inr ⟨r', by simp [hr'], ho', _, s, .cons step hy, hp⟩
      · refine .inr ⟨r, by simp, ho, [], it, .nil _, ?_⟩
        simp [ElementIterator.next, hst, ElementIterator.nextNode, nodesNext, hn, tableNext, hl.1, hl.2, e1]
        erw [ho]
        rfl

theorem objectsNext_total {β : Type} (z : Codec) (fo ft : List Nat) (b : Text → Out β) (pk : β → Int64 × Int64)
    {l : Text} {ls : List Text} {o : ObjectRecord} {tags : Child TagRecord} {parts : Child β}
    {ts : List TagRecord} {ps : List β}
    (hl : stopLine l = false ∧ createObject fo l = .ok o)
    (ht : tags.Holds (createObjectTag z ft) ts) (hp : parts.Holds b ps) :
    ∃ ts1 ps1 tags' parts' ts2 ps2, objectsNext z fo ft b pk (l :: ls) tags parts =
        .ok (some (o, ts1, ps1), ls, tags', parts') ∧
      Child.Holds (createObjectTag z ft) tags' ts2 ∧ Child.Holds b parts' ps2 := by
  obtain ⟨c1, e1, e2⟩ := attach_holds (fun t => decide (t.id = o.id) && decide (t.version = o.version)) ht
  obtain ⟨c2, f1, f2⟩ := attach_holds (fun p => decide ((pk p).1 = o.id) && decide ((pk p).2 = o.version)) hp
  generalize List.takeWhile (fun t : TagRecord => decide (t.id = o.id) && decide (t.version = o.version)) ts = ts1 at e1
  generalize List.takeWhile (fun p => decide ((pk p).1 = o.id) && decide ((pk p).2 = o.version)) ps = ps1 at f1
  refine ⟨ts1, ps1, c1, c2, _, _, ?_, e2, f2⟩
  simp [objectsNext, tableNext, hl.1, hl.2, e1, f1]

theorem ways_total (z : Codec) (recs : List ObjectRecord) :
    ∀ (it : ElementIterator) (ts : List TagRecord) (ps : List WayNodeRecord), it.state = .ways →
      Reads (createObject it.fields.ways) it.ways recs →
      it.wayTags.Holds (createObjectTag z it.fields.wayTags) ts →
      it.wayNodes.Holds (createWayNode it.fields.wayNodes) ps →
      (∃ ws a b c, List.Forall₂ (fun r n => ∃ uid user ts ps, it.owner r.changesetId = .ok (uid, user) ∧
          n = wayOf r ts ps uid user) recs ws ∧
        Yields (ElementIterator.next z) it (ws.map .way ++ [.sentinel])
        { it with state := .relations, ways := a, wayTags := b, wayNodes := c }) ∨
      (∃ r ∈ recs, it.owner r.changesetId = .panic ∧ ∃ es s, Yields (ElementIterator.next z) it es s ∧
        ElementIterator.next z s = .panic) := by
  induction recs with
  | nil =>
    intro it ts ps hst hr ht hp
    cases hn : it.ways with
    | cons l ls => rw [hn] at hr; cases hr
    | nil =>
      refine .inl ⟨[], [], it.wayTags, it.wayNodes, .nil, .cons ?_ (.nil _)⟩
      simp [ElementIterator.next, hst, ElementIterator.nextWay, objectsNext_none, hn]
  | cons r recs ih =>
    intro it ts ps hst hr ht hp
    cases hn : it.ways with
    | nil => rw [hn] at hr; cases hr
    | cons l ls =>
      rw [hn] at hr
      cases hr with
      | cons hl hr =>
      obtain ⟨ts1, ps1, c1, c2, ts2, ps2, e1, e2, e3⟩ := objectsNext_total (ls := ls) z it.fields.ways it.fields.wayTags _
        (fun p : WayNodeRecord => (p.wayId, p.version)) hl ht hp
      rcases owner_cases it r.changesetId with ⟨uid, user, ho⟩ | ho
      · have step : ElementIterator.next z it = .ok (some (.way (wayOf r ts1 ps1 uid user)),
            { it with ways := ls, wayTags := c1, wayNodes := c2 }) := by
          simp [ElementIterator.next, hst, ElementIterator.nextWay, hn, e1]
          erw [ho]
          rfl
        rcases ih { it with ways := ls, wayTags := c1, wayNodes := c2 } _ _ hst hr e2 e3 with
          ⟨ns, a, b, c, hf, hy⟩ | ⟨r', hr', ho', es, s, hy, hp⟩
        · exact .inl ⟨_ :: ns, a, b, c, .cons ⟨uid, user, _, _, ho, rfl⟩ hf, .cons step hy⟩
        · exact .inr ⟨r', by simp [hr'], ho', _, s, .cons step hy, hp⟩
      · refine .inr ⟨r, by simp, ho, [], it, .nil _, ?_⟩
        simp [ElementIterator.next, hst, ElementIterator.nextWay, hn, e1]
        erw [ho]
        rfl

theorem relations_total (z : Codec) (recs : List ObjectRecord) :
    ∀ (it : ElementIterator) (ts : List TagRecord) (ps : List MemberRecord), it.state = .relations →
      Reads (createObject it.fields.relations) it.relations recs →
      it.relationTags.Holds (createObjectTag z it.fields.relationTags) ts →
      it.relationMembers.Holds (createMember z it.fields.relationMembers) ps →
      (∃ rs a b c, List.Forall₂ (fun r n => ∃ uid user ts ps, it.owner r.changesetId = .ok (uid, user) ∧
          n = relationOf r ts ps uid user) recs rs ∧
        Yields (ElementIterator.next z) it (rs.map .relation ++ [.sentinel])
        { it with state := .finished, relations := a, relationTags := b, relationMembers := c }) ∨
      (∃ r ∈ recs, it.owner r.changesetId = .panic ∧ ∃ es s, Yields (ElementIterator.next z) it es s ∧
        ElementIterator.next z s = .panic) := by
  induction recs with
  | nil =>
    intro it ts ps hst hr ht hp
    cases hn : it.relations with
    | cons l ls => rw [hn] at hr; cases hr
    | nil =>
      refine .inl ⟨[], [], it.relationTags, it.relationMembers, .nil, .cons ?_ (.nil _)⟩
      simp [ElementIterator.next, hst, ElementIterator.nextRelation, objectsNext_none, hn]
  | cons r recs ih =>
    intro it ts ps hst hr ht hp
    cases hn : it.relations with
    | nil => rw [hn] at hr; cases hr
    | cons l ls =>
      rw [hn] at hr
      cases hr with
      | cons hl hr =>
      obtain ⟨ts1, ps1, c1, c2, ts2, ps2, e1, e2, e3⟩ := objectsNext_total (ls := ls) z it.fields.relations
        it.fields.relationTags _ (fun p : MemberRecord => (p.relationId, p.version)) hl ht hp
      rcases owner_cases it r.changesetId with ⟨uid, user, ho⟩ | ho
      · have step : ElementIterator.next z it = .ok (some (.relation (relationOf r ts1 ps1 uid user)),
            { it with relations := ls, relationTags := c1, relationMembers := c2 }) := by
          simp [ElementIterator.next, hst, ElementIterator.nextRelation, hn, e1]
          erw [ho]
          rfl
        rcases ih { it with relations := ls, relationTags := c1, relationMembers := c2 } _ _ hst hr e2 e3 with
          ⟨ns, a, b, c, hf, hy⟩ | ⟨r', hr', ho', es, s, hy, hp⟩
        · exact .inl ⟨_ :: ns, a, b, c, .cons ⟨uid, user, _, _, ho, rfl⟩ hf, .cons step hy⟩
        · exact .inr ⟨r', by simp [hr'], ho', _, s, .cons step hy, hp⟩
      · refine .inr ⟨r, by simp, ho, [], it, .nil _, ?_⟩
        simp [ElementIterator.next, hst, ElementIterator.nextRelation, hn, e1]
        erw [ho]
        rfl

end OsmIo.Apidb
